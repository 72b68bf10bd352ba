import Verif.SpecDepth
import Verif.Proof.WeightsProg

/-!
# Bootstrap depth and dependencies
-/

namespace Parm
namespace Wt

variable {pc : Cloud} {x y : Ctxt Term}

/-! ## Dependencies of sums -/

theorem lin_inputs (A : Finset Nat) : Lin fun t => t.inputs ⊆ A where
  add h g := Finset.union_subset h g
  neg h := h
  mulC _ h := h
  addPt _ h := h

theorem lin_depth (d : Nat) : Lin fun t => t.depth ≤ d where
  add h g := max_le h g
  neg h := h
  mulC _ h := h
  addPt _ h := h

theorem Lut.dom {F G : Term → Prop} {acc : List (BitVec 64)} {w z : Word Term} (h : Lut acc w z)
    (hb : ∀ t, F t → G (.boot acc t)) (hw : Dom F w) : Dom G z := by
  rcases h with ⟨t, e1, e2⟩ | ⟨_, h⟩
  · intro s e
    rw [e2] at e
    injection e with e
    subst e
    exact hb t (hw t e1)
  · exact Dom.triv h

theorem inputsAt_dom (x : Ctxt Term) (i : Nat) : Dom (fun t => t.inputs ⊆ inputsAt x i) (wd x i) := by
  intro t e
  unfold inputsAt wd at *
  simp only [List.getD] at e
  cases h : x[i]? with
  | none => rw [h] at e; cases e
  | some w =>
    rw [h] at e
    simp only [Option.getD_some] at e
    obtain ⟨c, m⟩ := w
    simp only at e
    subst e
    simp

theorem inputsAt_sub {x : Ctxt Term} {i : Nat} {A : Finset Nat} (h : Dom (fun t => t.inputs ⊆ A) (wd x i)) :
    inputsAt x i ⊆ A := by
  unfold inputsAt
  unfold wd at h
  simp only [List.getD] at h
  cases hx : x[i]? with
  | none => simp
  | some w =>
    rw [hx] at h
    obtain ⟨c | p, m⟩ := w
    · exact h c rfl
    · simp

variable {isAdd refresh : Bool} {z : Ctxt Term} {n r : Nat} {w q : Nat → Word Term}

/-- carries and results of an addition, for a family of properties of the words -/
theorem AddShape.dom (h : AddShape pc isAdd refresh x y z n r w q) {F G Q K : Nat → Term → Prop}
    (lF : ∀ i, Lin (F i)) (lG : ∀ i, Lin (G i)) (lK : ∀ i, Lin (K i))
    (hF : ∀ i, i < n → Dom (F i) (wd x i) ∧ Dom (F i) (wd y i))
    (hFG : ∀ i t, F i t → G i t) (hFG' : ∀ i t, F i t → G (i + 1) t)
    (hGQ : ∀ i acc t, G i t → Q i (.boot acc t)) (hQK : ∀ i t, Q i t → K i t) (hQK' : ∀ i t, Q i t → K (i + 1) t)
    (hFK : ∀ i t, F i t → K i t) :
    (∀ i, i < n → Dom (Q i) (q i)) ∧ (∀ i, i < n → Dom (K i) (afterCarry w q i)) := by
  have hw : ∀ i, i < n → Dom (F i) (w i) := fun i hi => h.sumDom _ (lF i) i hi (hF i hi).1 (hF i hi).2
  have hq : ∀ i, i < n → Dom (Q i) (q i) := by
    intro i hi
    by_cases hri : r ≤ i
    · refine (h.qHigh i hri hi).dom (hGQ i _) ?_
      unfold carryIn
      split
      · rename_i h0
        refine Dom.add (lG i) (((hw i hi).mono (hFG i)).mulConst (lG i) 3) ?_
        have := (hw (i - 1) (by omega)).mono (hFG' (i - 1))
        rwa [show i - 1 + 1 = i by omega] at this
      · exact ((hw i hi).mono (hFG i)).mulConst (lG i) 3
    · exact Dom.triv (h.qLow i (by omega))
  refine ⟨hq, fun i hi => ?_⟩
  unfold afterCarry
  split
  · rename_i h0
    refine Dom.add (lK i) (Dom.sub (lK i) ((hw i hi).mono (hFK i)) (((hq i hi).mono (hQK i)).mulConst (lK i) 2)) ?_
    have := (hq (i - 1) (by omega)).mono (hQK' (i - 1))
    rwa [show i - 1 + 1 = i by omega] at this
  · exact Dom.sub (lK i) ((hw i hi).mono (hFK i)) (((hq i hi).mono (hQK i)).mulConst (lK i) 2)

/-- what two words depend on -/
def both (x y : Ctxt Term) (i : Nat) : Finset Nat := inputsAt x i ∪ inputsAt y i

/-- what the words `i-2`, `i-1` and `i` depend on -/
def near (x y : Ctxt Term) (i : Nat) : Finset Nat := both x y i ∪ both x y (i - 1) ∪ both x y (i - 2)

theorem inputsAt_opp (y : Ctxt Term) (i : Nat) : inputsAt (oppositeImpl freeScheme y) i ⊆ inputsAt y i := by
  refine inputsAt_sub ?_
  by_cases hi : i < y.length
  · rw [wd_opp i hi]; exact (inputsAt_dom y i).opp (lin_inputs _)
  · exact Dom.triv (wd_ge_triv (by simpa [oppositeImpl] using hi))

theorem addSub_local (pc : Cloud) (isAdd refresh : Bool) (x y : Ctxt Term) :
    Ensures (addSubImpl freeScheme isAdd pc x y refresh) fun z => ∀ i, inputsAt z i ⊆ near x y i := by
  have hx : ∀ i, inputsAt x i ⊆ near x y i := fun i a ha => by simp [near, both, ha]
  have hy : ∀ i, inputsAt y i ⊆ near x y i := fun i a ha => by simp [near, both, ha]
  refine (addSub_shape pc isAdd refresh x y).mono ?_
  rintro z (⟨_, rfl⟩ | ⟨_, rfl⟩ | ⟨n, r, w, q, h⟩) i
  · cases isAdd
    · exact (inputsAt_opp y i).trans (hy i)
    · exact hy i
  · exact hx i
  · let A : Nat → Finset Nat := both x y
    let B : Nat → Finset Nat := fun i => A i ∪ A (i - 1)
    obtain ⟨hq, hz⟩ := h.dom (F := fun i t => t.inputs ⊆ A i) (G := fun i t => t.inputs ⊆ B i)
      (Q := fun i t => t.inputs ⊆ B i) (K := fun i t => t.inputs ⊆ near x y i)
      (fun i => lin_inputs _) (fun i => lin_inputs _) (fun i => lin_inputs _)
      (fun i _ => ⟨(inputsAt_dom x i).mono fun t h a ha => by simp [A, both, h ha],
        (inputsAt_dom y i).mono fun t h a ha => by simp [A, both, h ha]⟩)
      (fun i t h a ha => Finset.mem_union_left _ (h ha)) (fun i t h a ha => Finset.mem_union_right _ (h ha))
      (fun i acc t h => h)
      (fun i t h a ha => Finset.mem_union_left _ (h ha))
      (fun i t h a ha => by
        have := h ha
        simp only [B, A, Finset.mem_union] at this
        simp only [near, Finset.mem_union, Nat.add_sub_cancel, show i + 1 - 2 = i - 1 by omega]
        tauto)
      (fun i t h a ha => Finset.mem_union_left _ (Finset.mem_union_left _ (h ha)))
    refine inputsAt_sub ?_
    by_cases hi : i < n
    · by_cases hr : r ≤ i
      · have hzi := h.zHigh i hr hi
        cases refresh
        · simp only [Bool.false_eq_true, if_false] at hzi
          rw [hzi]; exact hz i hi
        · simp only [if_true] at hzi
          exact hzi.dom (fun t h => h) (hz i hi)
      · rw [h.zLow i (by omega)]; exact hz i hi
    · by_cases hin : i = n
      · subst hin
        have hlt := h.lt
        rw [h.top]
        refine (hq (i - 1) (by omega)).mono fun t h a ha => ?_
        have := h ha
        simp only [B, A, Finset.mem_union] at this
        simp only [near, Finset.mem_union, show i - 2 = i - 1 - 1 by omega]
        tauto
      · exact Dom.triv (wd_ge_triv (by rw [h.len]; omega))

/-! ## Depth -/

/-- all words have depth at most `d` -/
def Dp (d : Nat) (x : Ctxt Term) : Prop := ∀ i, Dom (fun t => t.depth ≤ d) (wd x i)

theorem dp_iff {d : Nat} : Dp d x ↔ DepthLE d x := by
  constructor
  · intro h w hw
    obtain ⟨i, hi, rfl⟩ := List.mem_iff_getElem.1 hw
    have := h i
    rwa [wd_lt hi] at this
  · intro h i
    by_cases hi : i < x.length
    · rw [wd_lt hi]; exact h _ (List.getElem_mem _)
    · exact Dom.triv (wd_ge_triv (by omega))

/-- the word has depth at most `d` -/
abbrev Dw (d : Nat) (w : Word Term) : Prop := Dom (fun t => t.depth ≤ d) w

theorem Dp.mono {d d' : Nat} (h : Dp d x) (hd : d ≤ d') : Dp d' x := fun i => (h i).mono fun _ g => g.trans hd

theorem Dp.of_mem {d : Nat} (h : ∀ w ∈ x, Dw d w) : Dp d x := dp_iff.2 fun w hw => h w hw
theorem Dp.mem {d : Nat} (h : Dp d x) {w : Word Term} (hw : w ∈ x) : Dw d w := fun t e => dp_iff.1 h w hw t e

theorem Lut.dw {d : Nat} {acc : List (BitVec 64)} {w z : Word Term} (h : Lut acc w z) (hw : Dw d w) : Dw (d + 1) z :=
  h.dom (fun t ht => Nat.succ_le_succ ht) hw

theorem Dp.opp {d : Nat} (h : Dp d x) : Dp d (oppositeImpl freeScheme x) := by
  intro i
  by_cases hi : i < x.length
  · rw [wd_opp i hi]; exact (h i).opp (lin_depth d)
  · exact Dom.triv (wd_ge_triv (by simpa [oppositeImpl] using hi))

theorem dp_triv (n d : Nat) : Dp d (trivCt Term pc n) := Dp.of_mem fun w hw => by
  simp only [trivCt, List.mem_replicate] at hw
  rw [hw.2]; exact Dom.triv rfl

theorem dp_nil (d : Nat) : Dp d ([] : Ctxt Term) := Dp.of_mem (by simp)

theorem Dp.append {d : Nat} (hx : Dp d x) (hy : Dp d y) : Dp d (x ++ y) := Dp.of_mem fun w hw => by
  rw [List.mem_append] at hw
  exact hw.elim hx.mem hy.mem

theorem Dp.take {d : Nat} (hx : Dp d x) (k : Nat) : Dp d (x.take k) :=
  Dp.of_mem fun _ hw => hx.mem (List.mem_of_mem_take hw)
theorem Dp.drop {d : Nat} (hx : Dp d x) (k : Nat) : Dp d (x.drop k) :=
  Dp.of_mem fun _ hw => hx.mem (List.mem_of_mem_drop hw)

theorem Dp.shift {d : Nat} (hx : Dp d x) (k : Nat) : Dp d (ctShift pc x k) := by
  unfold ctShift
  split
  · exact hx
  · exact (dp_triv k d).append hx

theorem dp_addSub {d : Nat} (pc : Cloud) (isAdd refresh : Bool) (hx : Dp d x) (hy : Dp d y) :
    Ensures (addSubImpl freeScheme isAdd pc x y refresh) (Dp (d + if refresh then 2 else 1)) := by
  refine (addSub_shape pc isAdd refresh x y).mono ?_
  rintro z (⟨_, rfl⟩ | ⟨_, rfl⟩ | ⟨n, r, w, q, h⟩)
  · cases isAdd
    · exact hy.opp.mono (by omega)
    · exact hy.mono (by omega)
  · exact hx.mono (by omega)
  · obtain ⟨hq, hz⟩ := h.dom (F := fun _ t => t.depth ≤ d) (G := fun _ t => t.depth ≤ d)
      (Q := fun i t => t.depth ≤ d + 1) (K := fun i t => t.depth ≤ d + 1)
      (fun i => lin_depth _) (fun i => lin_depth _) (fun i => lin_depth _)
      (fun i _ => ⟨hx i, hy i⟩) (fun i t h => h) (fun i t h => h) (fun i acc t h => Nat.succ_le_succ h)
      (fun i t h => h) (fun i t h => h) (fun i t (h : t.depth ≤ d) => Nat.le_succ_of_le h)
    intro i
    have hd : d + 1 ≤ d + if refresh then 2 else 1 := by split <;> omega
    by_cases hi : i < n
    · by_cases hr : r ≤ i
      · have hzi := h.zHigh i hr hi
        cases refresh
        · simp only [Bool.false_eq_true, if_false] at hzi
          rw [hzi]; exact hz i hi
        · simp only [if_true] at hzi
          exact hzi.dw (hz i hi)
      · rw [h.zLow i (by omega)]; exact (hz i hi).mono fun _ g => g.trans hd
    · by_cases hin : i = n
      · subst hin
        have hlt := h.lt
        rw [h.top]
        exact (hq (i - 1) (by omega)).mono fun _ g => g.trans hd
      · exact Dom.triv (wd_ge_triv (by rw [h.len]; omega))

theorem dp_add {d : Nat} (hx : Dp d x) (hy : Dp d y) : Ensures (ctAdd freeScheme pc x y) (Dp (d + 2)) :=
  (dp_addSub pc true true hx hy).call
theorem dp_sub {d : Nat} (hx : Dp d x) (hy : Dp d y) : Ensures (ctSub freeScheme pc x y) (Dp (d + 2)) :=
  (dp_addSub pc false true hx hy).call

/-! ### Sign -/

theorem dw_step {d i : Nat} {b : Word Term} {m : Word Term → Word Term} (hm : ∀ w, Dw d w → Dw d (m w)) (hx : Dp d x)
    {e : Nat} (he : d ≤ e) (hb : Dw e b) :
    Ensures (if i < x.length then do
        let xi ← idx x i
        pure (Word.add freeScheme b (m xi))
      else pure b : M (Word Term)) (Dw e) := by
  refine Ensures.ite (fun h => ?_) fun h => Ensures.pure hb
  refine Ensures.idx.bind fun xi ⟨h1, e1⟩ => Ensures.pure ?_
  have : Dw d xi := by rw [← e1]; exact hx.mem (List.getElem_mem _)
  exact hb.add (lin_depth e) ((hm _ this).mono fun _ g => g.trans he)

/-- depth added by the first round -/
def firstDepth (pc : Cloud) : Nat := if 85 ≤ pc.params.quadWeight then 0 else 1

theorem dw_sgnFirst {d : Nat} (hx : Dp d x) (j : Nat) {bj : Word Term} (hb : bj.isTriv = true) :
    Ensures (sgnFirst freeScheme pc x j bj) (Dw (d + firstDepth pc)) := by
  unfold sgnFirst
  have l := lin_depth d
  refine Ensures.bind (P := Dw (d + firstDepth pc)) ?_ ?_
  · refine Ensures.ite (fun h => ?_) fun h => Ensures.pure (Dom.triv hb)
    refine Ensures.idx.bind fun x3 ⟨h3, e3⟩ => ?_
    have hx3 : Dw d x3 := by rw [← e3]; exact hx.mem (List.getElem_mem _)
    refine Ensures.bind (P := Dw (d + firstDepth pc)) ?_ fun s hs => Ensures.pure ((Dom.triv hb).add (lin_depth _) hs)
    unfold firstDepth
    refine Ensures.ite (fun hq => Ensures.pure ?_) fun hq => ?_
    · rw [if_pos hq]; exact hx3.mulConst l 8
    · rw [if_neg hq]; exact lutUint.mono fun s hs => hs.dw hx3
  · intro b hb
    have he : d ≤ d + firstDepth pc := by omega
    refine (dw_step (i := 4 * j + 0) (m := fun w => w) (fun w h => h) hx he hb).bind fun b0 h0 => ?_
    refine (dw_step (i := 4 * j + 1) (m := fun w => Word.mulConst freeScheme w (2 ^ 1 : Nat))
      (fun w h => h.mulConst l _) hx he h0).bind fun b1 h1 => ?_
    exact dw_step (i := 4 * j + 2) (m := fun w => Word.mulConst freeScheme w (2 ^ 2 : Nat))
      (fun w h => h.mulConst l _) hx he h1

theorem dw_sgnNext {d : Nat} (hx : Dp d x) (j : Nat) {bj : Word Term} (hb : bj.isTriv = true) :
    Ensures (sgnNext freeScheme pc x j bj) (Dw (d + 1)) := by
  unfold sgnNext
  refine (Ensures.parFor (P := fun _ => Dw (d + 1)) ?_).bind ?_
  · intro i hi
    refine Ensures.ite (fun h => ?_) fun h => Ensures.pure ?_
    · refine Ensures.idx.bind fun xi ⟨h1, e1⟩ => ?_
      have : Dw d xi := by rw [← e1]; exact hx.mem (List.getElem_mem _)
      exact lutUint.mono fun s hs => hs.dw this
    · have ht : ((trivCt Term pc sgnGamma)[i]).isTriv = true := by simp [trivCt]; rfl
      exact Dom.triv ht
  · rintro s ⟨_, hs⟩
    refine Ensures.pure ?_
    have key : ∀ (l : List (Word Term)) (b : Word Term), Dw (d + 1) b → (∀ z ∈ l, Dw (d + 1) z) →
        Dw (d + 1) (l.foldl (Word.add freeScheme) b) := by
      intro l
      induction l with
      | nil => intro b h _; exact h
      | cons z l ih => exact fun b h1 h2 => ih _ (h1.add (lin_depth _) (h2 z (by simp))) fun y hy => h2 y (by simp [hy])
    refine key s bj (Dom.triv hb) fun z hz => ?_
    obtain ⟨i, hi, rfl⟩ := List.mem_iff_getElem.1 hz
    exact hs i hi

theorem clog_round {n : Nat} (h : 1 < n) : Nat.clog 4 n = Nat.clog 4 ((n - 1) / 4 + 1) + 1 := by
  rw [Nat.clog_of_two_le (by decide) h]
  congr 2
  omega

theorem dp_sgnRec_next : ∀ (fuel : Nat) {d : Nat} {x : Ctxt Term}, Dp d x →
    Ensures (sgnRecursionRaw freeScheme pc fuel x false) (Dp (d + Nat.clog 4 x.length)) := by
  intro fuel
  induction fuel with
  | zero =>
    intro d x hx
    unfold sgnRecursionRaw
    exact Ensures.ite (fun _ => Ensures.pure (dp_triv _ _)) fun _ => Ensures.ite
      (fun _ => Ensures.pure (hx.mono (by omega))) fun _ => Ensures.panic _
  | succ fuel ih =>
    intro d x hx
    unfold sgnRecursionRaw
    refine Ensures.ite (fun _ => Ensures.pure (dp_triv _ _)) fun h0 => Ensures.ite
      (fun _ => Ensures.pure (hx.mono (by omega))) fun h1 => ?_
    refine (Ensures.parFor (P := fun _ => Dw (d + 1)) ?_).bind ?_
    · intro j hj
      refine Ensures.ite (fun h => by cases h) fun _ => ?_
      exact dw_sgnNext hx j (by simp [trivCt]; rfl)
    · rintro b ⟨hl, hb⟩
      refine (ih (d := d + 1) (Dp.of_mem fun w hw => ?_)).mono fun z hz => ?_
      · obtain ⟨i, hi, rfl⟩ := List.mem_iff_getElem.1 hw
        exact hb i hi
      · rw [clog_round (by omega)]
        have : b.length = (x.length - 1) / 4 + 1 := by rw [hl]; simp [trivCt, sgnGamma]
        rw [this] at hz
        rwa [← Nat.add_assoc, Nat.add_right_comm]

/-- depth added by `sgn_recursion_raw` on `n` words -/
def recDepth (pc : Cloud) (n : Nat) : Nat := if n ≤ 1 then 0 else firstDepth pc + (Nat.clog 4 n - 1)

theorem dp_sgnRec {d : Nat} (hx : Dp d x) (fuel : Nat) :
    Ensures (sgnRecursionRaw freeScheme pc fuel x true) (Dp (d + recDepth pc x.length)) := by
  cases fuel with
  | zero =>
    unfold sgnRecursionRaw
    exact Ensures.ite (fun _ => Ensures.pure (dp_triv _ _)) fun _ => Ensures.ite
      (fun _ => Ensures.pure (hx.mono (by omega))) fun _ => Ensures.panic _
  | succ fuel =>
    unfold sgnRecursionRaw
    refine Ensures.ite (fun _ => Ensures.pure (dp_triv _ _)) fun h0 => Ensures.ite
      (fun _ => Ensures.pure (hx.mono (by omega))) fun h1 => ?_
    refine (Ensures.parFor (P := fun _ => Dw (d + firstDepth pc)) ?_).bind ?_
    · intro j hj
      refine Ensures.ite (fun _ => ?_) fun h => absurd rfl h
      exact dw_sgnFirst hx j (by simp [trivCt]; rfl)
    · rintro b ⟨hl, hb⟩
      refine (dp_sgnRec_next fuel (d := d + firstDepth pc) (Dp.of_mem fun w hw => ?_)).mono fun z hz => ?_
      · obtain ⟨i, hi, rfl⟩ := List.mem_iff_getElem.1 hw
        exact hb i hi
      · have hb : b.length = (x.length - 1) / 4 + 1 := by rw [hl]; simp [trivCt, sgnGamma]
        have hc := clog_round (n := x.length) (by omega)
        rw [hb] at hz
        refine hz.mono ?_
        unfold recDepth
        rw [if_neg (by omega)]
        omega

theorem dp_sgn {d : Nat} (hx : Dp d x) :
    Ensures (sgnImpl freeScheme pc x) (Dp (d + if x.length ≤ 1 then 0 else firstDepth pc + Nat.clog 4 x.length)) := by
  unfold sgnImpl
  refine Ensures.ite (fun _ => Ensures.pure (dp_nil _)) fun h0 => Ensures.ite
    (fun _ => Ensures.pure (hx.mono (by omega))) fun h1 => ?_
  refine (dp_sgnRec hx _).bind fun s hs => Ensures.idx.bind fun s0 ⟨hi, e⟩ => lutUint.bind fun z hz => Ensures.pure ?_
  have h0' := hz.dw (by rw [← e]; exact hs.mem (List.getElem_mem _) : Dw _ s0)
  refine Dp.of_mem fun w hw => ?_
  simp only [singleCt, List.mem_singleton] at hw
  subst hw
  refine h0'.mono fun _ g => g.trans ?_
  have hc := clog_round (n := x.length) (by omega)
  unfold recDepth
  rw [if_neg (by omega), if_neg (by omega)]
  omega

/-! ### Maximum -/

theorem dp_pad {d : Nat} (hx : Dp d x) (k : Nat) : Dp d (x ++ List.replicate k (encryptWordTriv Term pc 0)) :=
  hx.append (dp_triv (pc := pc) k d)

/-- depth added after the subtraction, which leaves `n` words -/
def selDepth (pc : Cloud) (n : Nat) : Nat := recDepth pc n + 2

theorem dp_max {d e N : Nat} (hx : Dp d x) (hy : Dp d y)
    (hs : Ensures (ctSub freeScheme pc x y) fun r => Dp e r ∧ r.length ≤ N) (hde : d + 1 ≤ e + recDepth pc N + 1) :
    Ensures (maxImpl freeScheme pc x y) (Dp (e + selDepth pc N)) := by
  unfold maxImpl
  refine hs.bind fun r ⟨hr, hN⟩ => (dp_sgnRec hr _).bind fun s hsr => Ensures.idx.bind fun s0 ⟨hi0, e0⟩ => ?_
  have hrec : recDepth pc r.length ≤ recDepth pc N := by
    unfold recDepth
    split
    · omega
    · rw [if_neg (by omega)]
      have := Nat.clog_mono_right 4 hN
      omega
  have h0 : Dw (e + recDepth pc N) s0 := by rw [← e0]; exact (hsr.mem (List.getElem_mem _)).mono fun _ g => g.trans (by omega)
  refine Ensures.bind (P := Dw (e + recDepth pc N + 1)) ?_ fun s hs => ?_
  · unfold pbsNonneg
    exact lutFloat.bind fun h hh => Ensures.pure ((hh.dw h0).addHalf (lin_depth _))
  · refine (Ensures.parFor (P := fun _ => Dw (e + selDepth pc N)) ?_).mono ?_
    · intro i hi
      refine Ensures.idx.bind fun xi ⟨h1, e1⟩ => Ensures.idx.bind fun yi ⟨h2, e2⟩ => ?_
      have hxi : Dw d xi := by rw [← e1]; exact (dp_pad hx _).mem (List.getElem_mem _)
      have hyi : Dw d yi := by rw [← e2]; exact (dp_pad hy _).mem (List.getElem_mem _)
      have l := lin_depth (e + recDepth pc N + 1)
      refine Ensures.bind (P := Dw (e + recDepth pc N + 1)) ?_ fun t ht => ?_
      · refine Ensures.ite (fun hq => Ensures.pure ?_) fun hq => lutUint.mono fun t ht => ?_
        · exact (hyi.mono fun _ g => g.trans (by omega)).mulConst l 6
        · exact (ht.dw hyi).mono fun _ g => g.trans hde
      · refine lutUint.mono fun z hz => hz.dw ?_
        exact (ht.add l ((hxi.mono fun _ g => g.trans (by omega)).mulConst l 2)).add l hs
    · rintro z ⟨_, hz⟩
      refine Dp.of_mem fun w hw => ?_
      obtain ⟨i, hi, rfl⟩ := List.mem_iff_getElem.1 hw
      exact hz i hi

theorem len_addSub (pc : Cloud) (isAdd refresh : Bool) (x y : Ctxt Term) :
    Ensures (addSubImpl freeScheme isAdd pc x y refresh) fun z => z.length ≤ max x.length y.length + 1 := by
  refine (addSub_shape pc isAdd refresh x y).mono ?_
  rintro z (⟨_, rfl⟩ | ⟨_, rfl⟩ | ⟨n, r, w, q, h⟩)
  · cases isAdd <;> simp [oppositeImpl] <;> omega
  · omega
  · have := h.len; have := h.le; omega

theorem dp_ctMax {d : Nat} (hx : Dp d x) (hy : Dp d y) :
    Ensures (ctMax freeScheme pc x y) (Dp (d + 2 + selDepth pc (max x.length y.length + 1))) :=
  (dp_max (e := d + 2) hx hy (Ensures_and (dp_sub hx hy) (len_addSub pc false true x y).call) (by omega)).call

theorem dp_ctRelu {d : Nat} (hx : Dp d x) : Ensures (ctRelu freeScheme pc x) (Dp (d + selDepth pc x.length)) := by
  refine (dp_max (e := d) (dp_nil d) hx ?_ (by omega)).call
  refine Ensures.call ?_
  unfold addSubImpl
  refine Ensures.ite (fun _ => Ensures.pure ?_) fun h => absurd rfl h
  exact ⟨hx.opp, by simp [oppositeImpl]⟩

theorem dp_round {d : Nat} (hx : Dp d x) (pos : Nat) :
    Ensures (roundAtImpl freeScheme pc x pos)
      (Dp (d + (if pos ≤ 2 then 0 else firstDepth pc + Nat.clog 4 (pos - 1)) + 3)) := by
  unfold roundAtImpl
  refine Ensures.ite (fun _ => Ensures.pure (hx.mono (by omega))) fun h0 => Ensures.ite
    (fun _ => Ensures.pure (dp_nil _)) fun h1 => ?_
  obtain ⟨e, he⟩ : ∃ e, e = d + (if pos ≤ 2 then 0 else firstDepth pc + Nat.clog 4 (pos - 1)) := ⟨_, rfl⟩
  rw [← he]
  have hl : (x.take (pos - 1)).length = pos - 1 := by simp; omega
  refine (((dp_sgn (hx.take (pos - 1))).call.mono fun s hs => hs.mono (d' := e) ?_)).bind fun s hs => ?_
  · rw [hl, he]
    by_cases h : pos ≤ 2
    · rw [if_pos (by omega), if_pos h]
    · rw [if_neg (by omega), if_neg h]
  refine Ensures.idx.bind fun xp ⟨hp, ep⟩ => ?_
  have l := lin_depth e
  have hxp : Dw e (Word.mulConst freeScheme xp 2) := by
    rw [← ep]
    exact ((hx.mem (List.getElem_mem _)).mono fun _ g => g.trans (by omega)).mulConst l 2
  refine Ensures.bind (P := Dw e) ?_ fun yys hy => ?_
  · refine Ensures.ite (fun _ => Ensures.idx.bind fun s0 ⟨hi, e0⟩ => Ensures.pure ?_) fun _ => Ensures.pure hxp
    exact hxp.add l (by rw [← e0]; exact hs.mem (List.getElem_mem _))
  · refine lutUint.bind fun rw' hr => ?_
    exact dp_add (d := e + 1) (((hx.drop pos).mono (by omega)).shift pos) ((dp_triv pos _).append
      (Dp.of_mem fun w hw => by simp only [List.mem_singleton] at hw; subst hw; exact hr.dw hy))

theorem dp_addConst {d : Nat} (hx : Dp d x) (k : Int) : Ensures (ctAddConst freeScheme pc x k) (Dp (d + 2)) := by
  unfold ctAddConst addConstImpl
  refine Ensures.call (Ensures.ite (fun _ => Ensures.pure (hx.mono (by omega))) fun _ => ?_)
  refine (Ensures.trivial _).bind fun kAbs _ => dp_add hx (Dp.of_mem fun w hw => ?_)
  simp only [List.mem_map] at hw
  obtain ⟨i, _, rfl⟩ := hw
  exact Dom.triv rfl

/-! ### Multiplication and squaring -/

theorem dw_mulLwe {d : Nat} {u v : Word Term} (hu : Dw d u) (hv : Dw d v) :
    Ensures (mulLwe freeScheme pc u v) (Dw (d + 1)) := by
  have up : ∀ {w : Word Term}, Dw d w → Dw (d + 1) w := fun h => h.mono fun _ g => g.trans (by omega)
  unfold mulLwe
  refine Ensures.ite (fun _ => (Ensures.trivial _).bind fun k _ => Ensures.pure ((up hv).mulConst (lin_depth _) k)) fun _ =>
    Ensures.ite (fun _ => (Ensures.trivial _).bind fun k _ => Ensures.pure ((up hu).mulConst (lin_depth _) k)) fun _ => ?_
  exact lutUint.mono fun z hz => hz.dw ((hu.mulConst (lin_depth _) 3).add (lin_depth _) hv)

theorem dp_fillMulary {d : Nat} (hx : Dp d x) (hy : Dp d y) :
    Ensures (fillMulary freeScheme pc x y) fun m => m.length = y.length ∧ ∀ row ∈ m, Dp (d + 1) row := by
  unfold fillMulary
  refine Ensures.ite (fun _ => Ensures.panic _) fun hl => ?_
  refine (Ensures.parFor (P := fun _ row => Dp (d + 1) row) ?_).mono ?_
  · intro j hj
    refine Ensures.idx.bind fun yj ⟨h1, e1⟩ => ?_
    have gy : Dw d yj := by rw [← e1]; exact hy.mem (List.getElem_mem _)
    refine (Ensures.parFor (P := fun _ => Dw (d + 1)) ?_).bind ?_
    · intro i hi
      refine Ensures.idx.bind fun xi ⟨h2, e2⟩ => ?_
      have gx : Dw d xi := by rw [← e2]; exact hx.mem (List.getElem_mem _)
      exact (dw_mulLwe gx gy).expect
    · rintro mid ⟨_, hm⟩
      refine Ensures.pure (Dp.append (Dp.append ?_ ?_) ?_)
      · rw [List.getElem_replicate]; exact (dp_triv _ _).take _
      · refine Dp.of_mem fun w hw => ?_
        obtain ⟨i, hi, rfl⟩ := List.mem_iff_getElem.1 hw
        exact hm i hi
      · rw [List.getElem_replicate]; exact (dp_triv _ _).drop _
  · rintro m ⟨hm', hm⟩
    refine ⟨by rw [hm']; simp; omega, fun row hrow => ?_⟩
    obtain ⟨i, hi, rfl⟩ := List.mem_iff_getElem.1 hrow
    exact hm i hi

theorem dp_reduceLoop : ∀ (rows : List (Ctxt Term)) {d : Nat} {cur other : Ctxt Term},
    (∀ row ∈ rows, Dp d row) → Dp d cur → Ensures (reduceLoop freeScheme pc rows cur other) (Dp (d + 2 * rows.length))
  | [], d, cur, other, _, h => Ensures.pure h
  | row :: rows, d, cur, other, hr, h => by
    unfold reduceLoop
    refine (dp_add h (hr row (by simp))).bind fun z hz => ?_
    refine (dp_reduceLoop rows (d := d + 2) (fun r hm => (hr r (by simp [hm])).mono (by omega)) hz).mono fun z hz => hz.mono ?_
    simp only [List.length_cons]; omega

theorem dp_reduce {d : Nat} {rows : List (Ctxt Term)} (hr : ∀ row ∈ rows, Dp d row) :
    Ensures (reduceMulsquary freeScheme pc rows) (Dp (d + 2 * (rows.length - 1))) := by
  unfold reduceMulsquary
  refine Ensures.idx.bind fun m0 ⟨h0, e0⟩ => Ensures.idx.bind fun m1 ⟨h1, e1⟩ => ?_
  refine (dp_add (hr m0 (by rw [← e0]; exact List.getElem_mem _))
    (hr m1 (by rw [← e1]; exact List.getElem_mem _))).bind fun z hz => ?_
  refine (dp_reduceLoop _ (d := d + 2) (fun row h => (hr row (List.mem_of_mem_drop h)).mono (by omega)) hz).mono
    fun z hz => hz.mono ?_
  simp only [List.length_drop]; omega

theorem dp_karatsuba {d n : Nat} {f : Ctxt Term → Ctxt Term → M (Ctxt Term)} (hn : x.length = n) (hn2 : 2 ≤ n)
    (hf : ∀ d a b, Dp d a → Dp d b → Ensures (f a b) (Dp (d + (2 * max a.length b.length - 1)))) (hx : Dp d x) (hy : Dp d y) :
    Ensures (mulKaratsuba freeScheme pc f x y) (Dp (d + 2 * ((n + 1) / 2) + 9)) := by
  unfold mulKaratsuba
  refine Ensures.ite (fun _ => Ensures.panic _) fun hxy => ?_
  obtain ⟨k, hk⟩ : ∃ k, k = (x.length + 1) / 2 := ⟨_, rfl⟩
  simp only [← hk]
  rw [← hn, ← hk]
  have hk1 : 1 ≤ k := by omega
  have lx0 : (x.take k).length = k := by simp; omega
  have ly0 : (y.take k).length = k := by simp; omega
  have lx1 : (x.drop k).length ≤ k := by simp; omega
  have ly1 : (y.drop k).length ≤ k := by simp; omega
  refine Ensures.bind (Ensures.par2 (P := fun r => Dp (d + 2 * k) r.1 ∧ Dp (d + 2 * k) r.2.1 ∧ Dp (d + 2 * k + 3) r.2.2)
    (Q := Dp (d + 2 * k + 3)) ?_ ?_) ?_
  · refine (Ensures.par2 (P := Dp (d + 2 * k)) (Q := Dp (d + 2 * k))
      ((hf d _ _ (hx.drop k) (hy.drop k)).mono fun z hz => hz.mono (by omega))
      ((hf d _ _ (hx.take k) (hy.take k)).mono fun z hz => hz.mono (by omega))).bind ?_
    rintro ⟨a, b⟩ ⟨ha, hb⟩
    refine (dp_add ha hb).bind fun z hz => Ensures.pure ⟨ha, hb, ?_⟩
    exact (dp_triv _ _).append ((Dp.opp hz).mono (by omega))
  · refine (Ensures.par2 (Ensures_and (dp_add (hx.take k) (hx.drop k)) (len_addSub pc true true (x.take k) (x.drop k)).call)
      (Ensures_and (dp_add (hy.take k) (hy.drop k)) (len_addSub pc true true (y.take k) (y.drop k)).call)).bind ?_
    rintro ⟨a, b⟩ ⟨⟨ha, la⟩, hb, lb⟩
    simp only at la lb ⊢
    refine (hf (d + 2) a b ha hb).bind fun z hz => Ensures.pure ((dp_triv _ _).append (hz.mono ?_))
    omega
  · rintro ⟨⟨a, b, naNb⟩, c⟩ ⟨⟨ha, hb, hn⟩, hc⟩
    refine (dp_add hc hn).bind fun z hz => ?_
    refine Ensures.ite (fun _ => (dp_add (d := d + 2 * k + 5) ((hb.append ha).mono (by omega)) hz).mono fun w hw => hw.mono (by omega)) fun _ => ?_
    exact (dp_add (d := d + 2 * k + 5) (hb.mono (by omega)) hz).bind fun w hw => dp_add (d := d + 2 * k + 7) ((ha.mono (by omega)).shift _) hw

theorem dp_mulImpl : ∀ (fuel : Nat) {d : Nat} {x y : Ctxt Term}, Dp d x → Dp d y →
    Ensures (mulImpl freeScheme pc fuel x y) fun z => Dp (d + (2 * max x.length y.length - 1)) z ∧
      (18 ≤ max x.length y.length → Dp (d + (max x.length y.length + 10)) z) := by
  intro fuel
  induction fuel with
  | zero =>
    intro d x y hx hy
    have hxa : Dp d (mulAlign freeScheme pc x y).1 := dp_pad hx _
    have hya : Dp d (mulAlign freeScheme pc x y).2 := dp_pad hy _
    have hlx : (mulAlign freeScheme pc x y).1.length = max x.length y.length := by simp [mulAlign]; omega
    have hly : (mulAlign freeScheme pc x y).2.length = max x.length y.length := by simp [mulAlign]; omega
    unfold mulImpl
    rw [show mulAlign freeScheme pc x y = ((mulAlign freeScheme pc x y).1, (mulAlign freeScheme pc x y).2) from rfl]
    generalize (mulAlign freeScheme pc x y).1 = xa at *
    generalize (mulAlign freeScheme pc x y).2 = ya at *
    refine Ensures.ite (fun _ => Ensures.pure ⟨dp_nil _, fun _ => dp_nil _⟩) fun h0 => Ensures.ite (fun h1 => ?_) fun h1 =>
      Ensures.ite (fun h2 => ?_) fun h2 => Ensures.ite (fun _ => Ensures.panic _) fun _ => Ensures.err _
    · unfold mul1word
      refine (dp_fillMulary hxa hya).bind fun m hm => Ensures.idx.mono ?_
      rintro row ⟨_, rfl⟩
      exact ⟨(hm.2 _ (List.getElem_mem _)).mono (by omega), fun h => by omega⟩
    · unfold mulSchoolbook
      refine (dp_fillMulary hxa hya).bind fun m hm => (dp_reduce hm.2).mono fun z hz => ?_
      rw [hm.1] at hz
      exact ⟨hz.mono (by omega), fun h => by omega⟩
  | succ fuel ih =>
    intro d x y hx hy
    have hxa : Dp d (mulAlign freeScheme pc x y).1 := dp_pad hx _
    have hya : Dp d (mulAlign freeScheme pc x y).2 := dp_pad hy _
    have hlx : (mulAlign freeScheme pc x y).1.length = max x.length y.length := by simp [mulAlign]; omega
    have hly : (mulAlign freeScheme pc x y).2.length = max x.length y.length := by simp [mulAlign]; omega
    unfold mulImpl
    rw [show mulAlign freeScheme pc x y = ((mulAlign freeScheme pc x y).1, (mulAlign freeScheme pc x y).2) from rfl]
    generalize (mulAlign freeScheme pc x y).1 = xa at *
    generalize (mulAlign freeScheme pc x y).2 = ya at *
    refine Ensures.ite (fun _ => Ensures.pure ⟨dp_nil _, fun _ => dp_nil _⟩) fun h0 => Ensures.ite (fun h1 => ?_) fun h1 =>
      Ensures.ite (fun h2 => ?_) fun h2 => Ensures.ite (fun _ => ?_) fun _ => Ensures.err _
    · unfold mul1word
      refine (dp_fillMulary hxa hya).bind fun m hm => Ensures.idx.mono ?_
      rintro row ⟨_, rfl⟩
      exact ⟨(hm.2 _ (List.getElem_mem _)).mono (by omega), fun h => by omega⟩
    · unfold mulSchoolbook
      refine (dp_fillMulary hxa hya).bind fun m hm => (dp_reduce hm.2).mono fun z hz => ?_
      rw [hm.1] at hz
      exact ⟨hz.mono (by omega), fun h => by omega⟩
    · refine (dp_karatsuba hlx (by omega) (fun d a b ha hb => ((ih ha hb).mono fun z hz => hz.1).call) hxa hya).mono
        fun z hz => ⟨hz.mono (by omega), fun _ => hz.mono (by omega)⟩

theorem dp_squImpl : ∀ (fuel : Nat) {d : Nat} {x : Ctxt Term}, Dp d x →
    Ensures (squImpl freeScheme pc fuel x) fun z => Dp (d + (2 * x.length - 1)) z ∧ Dp (d + (x.length + 4)) z ∧
      (x.length ≤ 3 → Dp (d + 1) z) := by
  have h1w : ∀ {d : Nat} {x : Ctxt Term}, Dp d x → Ensures (squ1word freeScheme pc x) (Dp (d + 1)) := by
    intro d x hx
    unfold squ1word
    refine Ensures.idx.bind fun x0 ⟨h0, e0⟩ => lutUint.bind fun z hz => Ensures.pure (Dp.of_mem fun w hw => ?_)
    simp only [singleCt, List.mem_singleton] at hw
    subst hw
    exact hz.dw (by rw [← e0]; exact hx.mem (List.getElem_mem _))
  have h23 : ∀ {d : Nat} {x : Ctxt Term}, Dp d x → Ensures (squ23word freeScheme pc x) (Dp (d + 1)) := by
    intro d x hx
    have l := lin_depth d
    unfold squ23word
    refine Ensures.ite (fun _ => Ensures.panic _) fun _ => ?_
    refine Ensures.bind (P := Dw d) ?_ fun v hv => ?_
    · refine Ensures.ite (fun _ => ?_) fun _ => ?_
      · refine Ensures.idx.bind fun x1 ⟨h1, e1⟩ => Ensures.idx.bind fun x0 ⟨h0, e0⟩ => Ensures.pure ?_
        exact Dom.add l (Dom.mulConst l 2 (by rw [← e1]; exact hx.mem (List.getElem_mem _)))
          (by rw [← e0]; exact hx.mem (List.getElem_mem _))
      · refine Ensures.idx.bind fun x2 ⟨h2, e2⟩ => Ensures.idx.bind fun x1 ⟨h1, e1⟩ =>
          Ensures.idx.bind fun x0 ⟨h0, e0⟩ => Ensures.pure ?_
        exact Dom.add l (Dom.mulConst l 2 (Dom.add l (Dom.mulConst l 2 (by rw [← e2]; exact hx.mem (List.getElem_mem _)))
          (by rw [← e1]; exact hx.mem (List.getElem_mem _)))) (by rw [← e0]; exact hx.mem (List.getElem_mem _))
    · refine (Ensures.parFor (P := fun _ => Dw (d + 1)) ?_).bind ?_
      · intro i hi
        have hl : ∀ lut, Ensures (evalLut5Uint freeScheme pc v lut) (Dw (d + 1)) := fun lut => lutUint.mono fun z hz => hz.dw hv
        unfold pbsSqu3
        split
        · exact hl _
        · exact Ensures.pure (Dom.triv rfl)
        · exact hl _
        · exact hl _
        · exact hl _
        · exact hl _
        · exact Ensures.panic _
      · rintro res ⟨_, hr⟩
        have hmem : ∀ w ∈ res, Dw (d + 1) w := by
          intro w hw
          obtain ⟨i, hi, rfl⟩ := List.mem_iff_getElem.1 hw
          exact hr i hi
        refine Ensures.idx.bind fun r0 ⟨h0, e0⟩ => Ensures.pure (Dp.of_mem fun w hw => ?_)
        simp only [List.mem_cons] at hw
        rcases hw with rfl | rfl | hw
        · rw [← e0]; exact hmem _ (List.getElem_mem _)
        · exact Dom.triv rfl
        · exact hmem w (List.mem_of_mem_drop hw)
  intro fuel
  induction fuel with
  | zero =>
    intro d x hx
    unfold squImpl
    refine Ensures.ite (fun _ => Ensures.pure ⟨dp_nil _, dp_nil _, fun _ => dp_nil _⟩) fun h0 => Ensures.ite
      (fun h => (h1w hx).mono fun z hz => ⟨hz.mono (by omega), hz.mono (by omega), fun _ => hz⟩) fun h1 => Ensures.ite
      (fun h => (h23 hx).mono fun z hz => ⟨hz.mono (by omega), hz.mono (by omega), fun _ => hz⟩) fun h2 => Ensures.ite
      (fun _ => Ensures.panic _) fun _ => Ensures.err _
  | succ fuel ih =>
    intro d x hx
    unfold squImpl
    refine Ensures.ite (fun _ => Ensures.pure ⟨dp_nil _, dp_nil _, fun _ => dp_nil _⟩) fun h0 => Ensures.ite
      (fun h => (h1w hx).mono fun z hz => ⟨hz.mono (by omega), hz.mono (by omega), fun _ => hz⟩) fun h1 => Ensures.ite
      (fun h => (h23 hx).mono fun z hz => ⟨hz.mono (by omega), hz.mono (by omega), fun _ => hz⟩) fun h2 => Ensures.ite
      (fun _ => ?_) fun _ => Ensures.err _
    obtain ⟨k, hk⟩ : ∃ k, k = (x.length + 1) / 2 := ⟨_, rfl⟩
    have key : Ensures (squDnq freeScheme pc (fun a => (squImpl freeScheme pc fuel a).call) x) (Dp (d + (2 * k - 1) + 4)) := by
      unfold squDnq
      simp only [← hk]
      have lx0 : (x.take k).length = k := by simp; omega
      have lx1 : (x.drop k).length ≤ k := by simp; omega
      refine (Ensures.par3 (P := Dp (d + (2 * k - 1))) (Q := Dp (d + (2 * k - 1))) (R := Dp (d + (2 * k - 1)))
        ((ih (hx.drop k)).mono fun z hz => hz.1.mono (by omega)).call
        ((ih (hx.take k)).mono fun z hz => hz.1.mono (by omega)).call ?_).bind ?_
      · refine Ensures.bind (((dp_mulImpl (pc := pc) mulFuel (hx.take k) (hx.drop k)).mono fun z hz => hz.1).call) fun z hz =>
          Ensures.pure ((hz.mono ?_).shift _)
        omega
      · rintro ⟨a, b, c⟩ ⟨ha, hb, hc⟩
        refine Ensures.ite (fun _ => (dp_add (hb.append ha) hc).mono fun z hz => hz.mono (by omega)) fun _ => ?_
        exact (dp_add hb hc).bind fun w hw => (dp_add ((ha.mono (by omega)).shift _) hw).mono fun z hz => hz.mono (by omega)
    exact key.mono fun z hz => ⟨hz.mono (by omega), hz.mono (by omega), fun h => by omega⟩

/-! ### Scalar multiplication -/

theorem dp_ascLoop : ∀ (c : Asc) {d : Nat} {vals : List (Ctxt Term)}, (∀ v ∈ vals, Dp d v) →
    Ensures (ascLoop (ascArith freeScheme pc) c vals) fun r => ∀ v ∈ r, Dp (d + 2 * c.length) v
  | [], d, vals, h => Ensures.pure h
  | e :: es, d, vals, h => by
    unfold ascLoop
    refine Ensures.bind (P := fun r => ∀ v ∈ r, Dp (d + 2) v) ?_ fun r hr => (dp_ascLoop es hr).mono
      fun z hz v hv => (hz v hv).mono (by rw [List.length_cons]; omega)
    unfold ascStep
    refine Ensures.idx.bind fun l ⟨_, el⟩ => ?_
    have hl : Dp d l := by rw [← el]; exact h _ (List.getElem_mem _)
    refine Ensures.bind (P := fun v => Dp d v) (Ensures.pure hl.opp) fun nl hnl => ?_
    refine Ensures.idx.bind fun r ⟨_, er⟩ => ?_
    have hr : Dp d r := by rw [← er]; exact h _ (List.getElem_mem _)
    refine Ensures.bind (P := fun v => Dp d v) (Ensures.pure (hr.shift _)) fun rs hrs => ?_
    refine Ensures.bind (P := fun v => Dp d v) (Ensures.pure hrs.opp) fun nr hnr => ?_
    refine Ensures.bind (P := fun v => Dp (d + 2) v) (dp_add (pc := pc) ?_ ?_) fun z hz => Ensures.pure ?_
    · split
      · exact hl
      · exact hnl
    · split
      · exact hrs
      · exact hnr
    · intro v hv
      rw [List.mem_append, List.mem_singleton] at hv
      rcases hv with hv | rfl
      · exact (h v hv).mono (by omega)
      · exact hz

theorem dp_ascEval {d : Nat} (c : Asc) (hx : Dp d x) :
    Ensures (ascEval (ascArith freeScheme pc) c x) (Dp (d + 2 * c.length)) := by
  unfold ascEval
  refine (dp_ascLoop c (vals := [x]) (by simpa using hx)).bind fun r hr => ?_
  split
  · rename_i v e
    exact Ensures.pure (hr v (List.mem_of_getLast? e))
  · exact Ensures.panic _

theorem len_setIdx {l : List Int} {i : Nat} {a : Int} : Ensures (setIdx l i a) fun v => v.length = l.length := by
  unfold setIdx
  exact Ensures.ite (fun _ => Ensures.pure (by simp)) fun _ => Ensures.panic _

theorem len_fillWhile {f : Nat → M Int} : ∀ (n j : Nat) (v : List Int),
    Ensures (fillWhile f n j v) fun w => w.length = v.length
  | 0, _, _ => Ensures.pure rfl
  | n + 1, j, v => by
    unfold fillWhile
    exact (Ensures.trivial _).bind fun t _ => len_setIdx.bind fun w hw => (len_fillWhile n _ w).mono fun u hu => hu.trans hw

theorem len_ktStep (b : Build) (k : Nat) (s : KtSt) : Ensures (ktStep b k s) fun t => t.vec.length = s.vec.length := by
  unfold ktStep
  refine (Ensures.trivial _).bind fun t _ => Ensures.ite (fun _ => Ensures.ite (fun _ => ?_) fun _ =>
    Ensures.ite (fun _ => Ensures.pure rfl) fun _ => Ensures.pure rfl) fun _ => Ensures.ite (fun _ => ?_) fun _ =>
    Ensures.ite (fun _ => Ensures.pure rfl) fun _ => Ensures.pure rfl
  · exact (len_fillWhile _ _ _).bind fun v hv => len_setIdx.bind fun w hw => Ensures.pure (hw.trans hv)
  · exact (len_fillWhile _ _ _).bind fun v hv => len_setIdx.bind fun w hw => Ensures.pure (hw.trans hv)

theorem len_ktLoop (b : Build) (k : Nat) : ∀ (n : Nat) (s : KtSt), Ensures (ktLoop b k n s) fun t => t.vec.length = s.vec.length
  | 0, _ => Ensures.pure rfl
  | n + 1, s => by
    unfold ktLoop
    exact (len_ktStep b k s).bind fun t ht => (len_ktLoop b k n t).mono fun u hu => hu.trans ht

theorem len_ktFinish (b : Build) (k : Nat) (s : KtSt) : Ensures (ktFinish b k s) fun v => v.length = s.vec.length := by
  unfold ktFinish
  refine Ensures.ite (fun _ => ?_) fun _ => ?_
  · exact (len_fillWhile _ _ _).bind fun v hv => len_setIdx.bind fun w hw => len_setIdx.mono fun u hu => hu.trans (hw.trans hv)
  · exact (len_fillWhile _ _ _).bind fun v hv => len_setIdx.bind fun w hw => (len_fillWhile _ _ _).bind fun v' hv' =>
      len_setIdx.bind fun w' hw' => len_setIdx.mono fun u hu => hu.trans (hw'.trans (hv'.trans (hw.trans hv)))

theorem bitLen32_le (k : BitVec 32) : bitLen32 k ≤ 32 := by
  have key : ∀ (l : List Nat) (a : Nat), a ≤ 32 → (∀ i ∈ l, i ≤ 31) →
      l.foldl (fun l i => if k &&& (1#32 <<< i) ≠ 0 then i + 1 else l) a ≤ 32 := by
    intro l
    induction l with
    | nil => exact fun a ha _ => ha
    | cons i l ih =>
      intro a ha hl
      refine ih _ ?_ fun j hj => hl j (by simp [hj])
      have := hl i (by simp)
      dsimp only
      split <;> omega
  unfold bitLen32
  split
  · omega
  · refine key _ 1 (by omega) fun i hi => ?_
    simp only [List.mem_map, List.mem_range] at hi
    omega

theorem len_kt (b : Build) (k : Nat) : Ensures (koyamaTsuruokaVec b k) fun v => v.length ≤ 33 := by
  unfold koyamaTsuruokaVec
  refine Ensures.ite (fun _ => Ensures.pure (by simp)) fun _ => Ensures.ite (fun _ => Ensures.pure (by simp)) fun _ => ?_
  have := bitLen32_le (BitVec.ofNat 32 k)
  refine (len_ktLoop b k _ _).bind fun s hs => (len_ktFinish b k s).bind fun v hv => Ensures.pure ?_
  rw [hs] at hv
  simp only [List.length_replicate] at hv
  split
  · rw [List.length_dropLast]; omega
  · omega

theorem len_windShiftsLoop (b : Build) (v : List Int) : ∀ (fuel sh : Nat),
    Ensures (windShiftsLoop b v 12 fuel sh) fun ws => ws.length ≤ (v.length - 1 - sh) / 12 + 1
  | 0, _ => Ensures.panic _
  | fuel + 1, sh => by
    unfold windShiftsLoop
    have hs : sh ≤ skipZeros v sh := by unfold skipZeros; omega
    generalize skipZeros v sh = t at hs
    refine Ensures.ite (fun _ => Ensures.panic _) fun _ => (Ensures.trivial _).bind fun wi _ => ?_
    refine Ensures.ite (fun _ => Ensures.pure (by simp)) fun h => ?_
    refine (len_windShiftsLoop b v fuel (t + 12)).bind fun ws hw => Ensures.pure ?_
    rw [List.length_cons]
    omega

theorem len_windShifts (b : Build) (k : Nat) : Ensures (windShifts b k ascBitlen) fun ws => ws.length ≤ 3 := by
  unfold windShifts ascBitlen
  exact (len_kt b k).bind fun v hv => (len_windShiftsLoop b v _ 0).mono fun ws hw => by omega

theorem dp_scalarMul {d L : Nat} (hL : ∀ e ∈ pc.asc, e.2.length ≤ L) (k : Int) (hx : Dp d x) :
    Ensures (ctScalarMul freeScheme pc k x) (Dp (d + 2 * L + 4)) := by
  unfold ctScalarMul scalarMulImpl
  have hxp : Dp d (if k ≥ 0 then x else x.map (Word.opp freeScheme)) := by
    split
    · exact hx
    · exact hx.opp
  refine Ensures.call ((Ensures.trivial _).bind fun kAbs _ => ?_)
  refine Ensures.ite (fun _ => Ensures.pure (dp_nil _)) fun _ => Ensures.ite (fun _ => Ensures.pure (hxp.mono (by omega))) fun _ => ?_
  refine (len_windShifts _ _).bind fun ws hws => ?_
  refine (Ensures.parFor (P := fun _ kv => Dp (d + 2 * L) kv.2) ?_).bind ?_
  · intro i hi
    refine Ensures_mapIdx.bind ?_
    rintro c ⟨k', hc⟩
    have := hL _ hc
    exact (dp_ascEval c hxp).expect.bind fun v hv => Ensures.pure (hv.mono (by simp only at this; omega))
  · rintro map ⟨_, hm⟩
    have hm' : ∀ k' v, (k', v) ∈ map → Dp (d + 2 * L) v := by
      intro k' v h
      obtain ⟨i, hi, e⟩ := List.mem_iff_getElem.1 h
      have := hm i hi
      rwa [e] at this
    refine (Ensures.seqFor (P := fun _ v => Dp (d + 2 * L) v) ?_).bind ?_
    · intro i hi
      refine (Ensures.trivial _).bind fun wsi _ => Ensures_mapIdx.bind ?_
      rintro v ⟨k', hv⟩
      have hv := hm' k' v hv
      exact Ensures.ite (fun _ => Ensures.pure (hv.opp.shift _)) fun _ => Ensures.pure (hv.shift _)
    · rintro rows ⟨hl, hr⟩
      have hr' : ∀ row ∈ rows, Dp (d + 2 * L) row := by
        intro row h
        obtain ⟨i, hi, rfl⟩ := List.mem_iff_getElem.1 h
        exact hr i hi
      rw [List.length_replicate] at hl
      refine Ensures.ite (fun _ => Ensures.idx.mono ?_) fun _ => (dp_reduce hr').mono fun z hz => hz.mono (by omega)
      rintro row ⟨_, rfl⟩
      exact (hr' _ (List.getElem_mem _)).mono (by omega)

end Wt
end Parm
