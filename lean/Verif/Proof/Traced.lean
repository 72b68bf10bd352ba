import Verif.Proof.Oblivious
import Verif.SpecFailure

/-!
# Every sample a result is made of was given, or made by a bootstrap that was counted
-/

namespace Parm

/-- Whatever `m` returns satisfies `Q` of a set of samples that has grown, from `X`, by at most one per bootstrap. -/
def Tr {α : Type} (X : Finset Term) (m : M α) (Q : Finset Term → α → Prop) : Prop :=
  ∀ s a s', m s = .ok (a, s') → ∃ Y, X ⊆ Y ∧ Y.card + s.pbs ≤ X.card + s'.pbs ∧ Q Y a

/-- all samples of the word are in `X` -/
def WIn (X : Finset Term) (w : Word Term) : Prop := ∀ t, w.ct = .ct t → t.parts ⊆ X

def CIn (X : Finset Term) (x : Ctxt Term) : Prop := ∀ w ∈ x, WIn X w

/-- `Q` survives when samples are added -/
abbrev Up {α : Type} (Q : Finset Term → α → Prop) : Prop := ∀ {X Y : Finset Term}, X ⊆ Y → ∀ {a}, Q X a → Q Y a

theorem WIn.up : Up WIn := fun h _ g t e => (g t e).trans h
theorem CIn.up : Up CIn := fun h _ g w hw => WIn.up h (g w hw)
def LIn (X : Finset Term) (l : List (Ctxt Term)) : Prop := ∀ x ∈ l, CIn X x
theorem LIn.up : Up LIn := fun h _ g x hx => CIn.up h (g x hx)

section
variable {α β : Type} {m : M α} {X : Finset Term} {Q P : Finset Term → α → Prop}

theorem Tr.pure {a : α} (h : Q X a) : Tr X (Pure.pure a) Q := by
  intro s b s' e
  have : (Pure.pure a : M α) s = .ok (a, s) := rfl
  rw [this] at e
  cases e
  exact ⟨X, Finset.Subset.refl _, le_rfl, h⟩

theorem Tr.mono (h : Tr X m P) (hq : ∀ Y a, X ⊆ Y → P Y a → Q Y a) : Tr X m Q := by
  intro s a s' e
  obtain ⟨Y, h1, h2, h3⟩ := h s a s' e
  exact ⟨Y, h1, h2, hq Y a h1 h3⟩

theorem Tr.bind {f : α → M β} {R : Finset Term → β → Prop} (h : Tr X m P)
    (hf : ∀ Y, X ⊆ Y → ∀ a, P Y a → Tr Y (f a) R) : Tr X (m >>= f) R := by
  intro s b s' e
  rcases hm : m s with err | ⟨a, s1⟩
  · rw [bind_error hm] at e; cases e
  · rw [bind_ok hm] at e
    obtain ⟨Y, h1, h2, h3⟩ := h s a s1 hm
    obtain ⟨Z, g1, g2, g3⟩ := hf Y h1 a h3 s1 b s' e
    exact ⟨Z, h1.trans g1, by omega, g3⟩

theorem Tr.panic (p : PanicKind) : Tr X (M.panic p) Q := by
  intro s a s' e
  have : (M.panic p : M α) s = .error (.panic p) := rfl
  rw [this] at e; cases e

theorem Tr.err (p : ErrKind) : Tr X (M.err p) Q := by
  intro s a s' e
  have : (M.err p : M α) s = .error (.err p) := rfl
  rw [this] at e; cases e

theorem Tr.ite {c : Prop} [Decidable c] {m1 m2 : M α} (h1 : c → Tr X m1 Q) (h2 : ¬ c → Tr X m2 Q) :
    Tr X (if c then m1 else m2) Q := by
  split
  · rename_i h; exact h1 h
  · rename_i h; exact h2 h

theorem Tr.expect (h : Tr X m Q) : Tr X m.expect Q := by
  intro s a s' e
  refine h s a s' ?_
  unfold M.expect at e
  split at e
  · cases e
  · exact e

theorem Tr.analysed (h : Tr X m Q) : Tr X (M.analysed m) Q := by
  intro s a s' e
  have h0 : M.analysed m s = (do
      let a ← m
      modify fun (t : St) => match t.nPbs with
        | n :: l => { t with nPbs := bumpTop n l, reports := ⟨s.pbs, t.pbs, n⟩ :: t.reports }
        | [] => t
      Pure.pure a : M α) { s with nPbs := 0 :: s.nPbs } := rfl
  rw [h0] at e
  rcases hm : m { s with nPbs := 0 :: s.nPbs } with err | ⟨b, s1⟩
  · rw [bind_error hm] at e; cases e
  · rw [bind_ok hm] at e
    obtain ⟨Y, h1, h2, h3⟩ := h _ b s1 hm
    have h4 : (.ok (b, match s1.nPbs with
        | n :: l => { s1 with nPbs := bumpTop n l, reports := ⟨s.pbs, s1.pbs, n⟩ :: s1.reports }
        | [] => s1) : Except Fault (α × St)) = .ok (a, s') := e
    cases h4
    refine ⟨Y, h1, ?_, h3⟩
    split <;> exact h2

theorem Tr.call (h : Tr X m Q) : Tr X m.call Q := h.expect.analysed

/-- a computation on clear data -/
theorem Tr.clear (h : Pure0 m) : Tr X m fun _ _ => True := by
  intro s a s' e
  rcases h with ⟨b, h⟩ | h
  · obtain ⟨_, _, _, ht⟩ := h s
    rw [ht] at e
    cases e
    exact ⟨X, Finset.Subset.refl _, le_rfl, trivial⟩
  · obtain ⟨f, hf⟩ := h s
    rw [hf] at e; cases e

theorem Tr.idx {l : List α} {i : Nat} (h : ∀ a ∈ l, Q X a) : Tr X (idx l i) Q := by
  unfold Parm.idx
  by_cases hi : i < l.length
  · rw [List.getElem?_eq_getElem hi]
    exact Tr.pure (h _ (List.getElem_mem hi))
  · rw [List.getElem?_eq_none (by omega)]
    exact Tr.panic _

theorem Tr.idxAt {l : List α} {i : Nat} : Tr X (Parm.idx l i) fun _ a => ∃ h : i < l.length, l[i] = a := by
  unfold Parm.idx
  by_cases hi : i < l.length
  · rw [List.getElem?_eq_getElem hi]
    exact Tr.pure ⟨hi, rfl⟩
  · rw [List.getElem?_eq_none (by omega)]
    exact Tr.panic _

theorem Tr.runTasks {f : Nat → α → M α} (up : Up Q) :
    ∀ (ord : List Nat) (arr : List α) {X : Finset Term}, ord.Nodup →
      (∀ Y, X ⊆ Y → ∀ i (_ : i ∈ ord) (hi : i < arr.length), Tr Y (f i arr[i]) Q) →
      Tr X (runTasks f ord arr) fun Y res => res.length = arr.length ∧
        ∀ i (hi : i < res.length), (i ∈ ord → Q Y res[i]) ∧ (i ∉ ord → arr[i]? = some res[i])
  | [], arr, X, _, _ => Tr.pure ⟨rfl, fun i hi => ⟨fun h => by simp at h, fun _ => List.getElem?_eq_getElem hi⟩⟩
  | i :: is, arr, X, hnd, hf => by
    have hnot : i ∉ is := (List.nodup_cons.1 hnd).1
    unfold Parm.runTasks
    refine Tr.idxAt.bind ?_
    · rintro Y hY a ⟨hi, ha⟩
      subst ha
      refine (hf Y hY i (by simp) hi).bind fun Z hZ b hb => ?_
      refine (Tr.runTasks up is (arr.set i b) (List.nodup_cons.1 hnd).2 ?_).mono ?_
      · intro W hW j hj hjl
        have hne : i ≠ j := by rintro rfl; exact hnot hj
        have := hf W (hY.trans (hZ.trans hW)) j (by simp [hj]) (by simpa using hjl)
        simpa [List.getElem_set, hne] using this
      · rintro W res hW ⟨hl, hr⟩
        refine ⟨by simpa using hl, fun j hj => ?_⟩
        obtain ⟨h1, h2⟩ := hr j hj
        by_cases hji : j = i
        · subst hji
          refine ⟨fun _ => ?_, fun h => by simp at h⟩
          have := h2 hnot
          rw [List.getElem?_set_self (by simpa using hi)] at this
          injection this with this
          rw [← this]; exact up hW hb
        · refine ⟨fun h => h1 (by simpa [hji] using h), fun h => ?_⟩
          have := h2 (by simp at h; exact h.2)
          rwa [List.getElem?_set_ne (Ne.symm hji)] at this

theorem Tr.nextOrder_bind {k : Nat} {f : List Nat → M α}
    (h : ∀ ord : List Nat, ord.Perm (List.range k) → Tr X (f ord) Q) : Tr X (M.nextOrder k >>= f) Q := by
  intro s a s' e
  have hp := s.sched.perm s.region k
  have : M.nextOrder k s = .ok (s.sched.order s.region k, { s with region := s.region + 1 }) := rfl
  rw [bind_ok this] at e
  exact h _ hp { s with region := s.region + 1 } a s' e

theorem Tr.parFor {arr : List α} {f : Nat → α → M α} (up : Up Q)
    (h : ∀ Y, X ⊆ Y → ∀ i (hi : i < arr.length), Tr Y (f i arr[i]) Q) :
    Tr X (parFor arr f) fun Y res => ∀ a ∈ res, Q Y a := by
  unfold Parm.parFor
  apply Tr.nextOrder_bind
  intro ord hp
  refine (Tr.runTasks up ord arr (hp.nodup_iff.2 List.nodup_range) fun Y hY i _ hi => h Y hY i hi).mono ?_
  rintro Y res _ ⟨hl, hr⟩ a ha
  obtain ⟨i, hi, rfl⟩ := List.getElem_of_mem ha
  exact (hr i hi).1 (hp.mem_iff.2 (by simpa [← hl] using hi))

theorem Tr.seqFor {arr : List α} {f : Nat → α → M α} (up : Up Q)
    (h : ∀ Y, X ⊆ Y → ∀ i (hi : i < arr.length), Tr Y (f i arr[i]) Q) :
    Tr X (seqFor arr f) fun Y res => ∀ a ∈ res, Q Y a := by
  unfold Parm.seqFor
  refine (Tr.runTasks up _ arr List.nodup_range fun Y hY i _ hi => h Y hY i hi).mono ?_
  rintro Y res _ ⟨hl, hr⟩ a ha
  obtain ⟨i, hi, rfl⟩ := List.getElem_of_mem ha
  exact (hr i hi).1 (by simpa [← hl] using hi)

theorem Tr.par2 {a : M α} {b : M β} {P : Finset Term → β → Prop} (uq : Up Q) (up : Up P)
    (ha : ∀ Y, X ⊆ Y → Tr Y a Q) (hb : ∀ Y, X ⊆ Y → Tr Y b P) :
    Tr X (par2 a b) fun Y r => Q Y r.1 ∧ P Y r.2 := by
  unfold Parm.par2
  apply Tr.nextOrder_bind
  intro ord _
  split
  · exact (ha X (Finset.Subset.refl _)).bind fun Y h x hx => (hb Y h).bind fun Z g y hy => Tr.pure ⟨uq g hx, hy⟩
  · exact (hb X (Finset.Subset.refl _)).bind fun Y h x hx => (ha Y h).bind fun Z g y hy => Tr.pure ⟨hy, up g hx⟩

theorem Tr.par3 {γ : Type} {a : M α} {b : M β} {c : M γ} {P : Finset Term → β → Prop} {O : Finset Term → γ → Prop}
    (uq : Up Q) (up : Up P) (uo : Up O)
    (ha : ∀ Y, X ⊆ Y → Tr Y a Q) (hb : ∀ Y, X ⊆ Y → Tr Y b P) (hc : ∀ Y, X ⊆ Y → Tr Y c O) :
    Tr X (par3 a b c) fun Y r => Q Y r.1 ∧ P Y r.2.1 ∧ O Y r.2.2 := by
  have hX := Finset.Subset.refl X
  unfold Parm.par3
  apply Tr.nextOrder_bind
  intro ord _
  split
  · refine (ha X hX).bind fun Y h x hx => ?_
    split
    · exact (hb Y h).bind fun Z g y hy => (hc Z (h.trans g)).bind fun W k z hz =>
        Tr.pure ⟨uq (g.trans k) hx, up k hy, hz⟩
    · exact (hc Y h).bind fun Z g y hy => (hb Z (h.trans g)).bind fun W k z hz =>
        Tr.pure ⟨uq (g.trans k) hx, hz, uo k hy⟩
  split
  · refine (hb X hX).bind fun Y h x hx => ?_
    split
    · exact (ha Y h).bind fun Z g y hy => (hc Z (h.trans g)).bind fun W k z hz =>
        Tr.pure ⟨uq k hy, up (g.trans k) hx, hz⟩
    · exact (hc Y h).bind fun Z g y hy => (ha Z (h.trans g)).bind fun W k z hz =>
        Tr.pure ⟨hz, up (g.trans k) hx, uo k hy⟩
  · refine (hc X hX).bind fun Y h x hx => ?_
    split
    · exact (ha Y h).bind fun Z g y hy => (hb Z (h.trans g)).bind fun W k z hz =>
        Tr.pure ⟨uq k hy, hz, uo (g.trans k) hx⟩
    · exact (hb Y h).bind fun Z g y hy => (ha Z (h.trans g)).bind fun W k z hz =>
        Tr.pure ⟨hz, up k hy, uo (g.trans k) hx⟩

end

/-! ### Words -/

section
variable {X : Finset Term} {pc : Cloud}

theorem WIn.of_triv {w : Word Term} {p : BitVec 64} (h : w.ct = .triv p) : WIn X w := by
  intro t e; rw [h] at e; cases e

theorem WIn.trivWord (k : Int) : WIn X (encryptWordTriv Term pc k) := WIn.of_triv rfl

theorem WIn.add {a b : Word Term} (ha : WIn X a) (hb : WIn X b) : WIn X (Word.add freeScheme a b) := by
  obtain ⟨a | p, m⟩ := a <;> obtain ⟨b | q, m'⟩ := b <;> intro t e <;> simp only [Word.add] at e <;> cases e
  · exact Finset.union_subset (ha a rfl) (hb b rfl)
  · exact ha a rfl
  · exact hb b rfl

theorem WIn.opp {a : Word Term} (ha : WIn X a) : WIn X (Word.opp freeScheme a) := by
  obtain ⟨a | p, m⟩ := a <;> intro t e <;> simp only [Word.opp] at e <;> cases e
  exact ha a rfl

theorem WIn.sub {a b : Word Term} (ha : WIn X a) (hb : WIn X b) : WIn X (Word.sub freeScheme a b) := ha.add hb.opp

theorem WIn.addHalf {a : Word Term} (ha : WIn X a) : WIn X (Word.addHalf freeScheme a) := by
  obtain ⟨a | p, m⟩ := a <;> intro t e <;> simp only [Word.addHalf] at e <;> cases e
  exact ha a rfl

theorem WIn.mulConst {a : Word Term} (ha : WIn X a) (k : Int) : WIn X (Word.mulConst freeScheme a k) := by
  obtain ⟨a | p, m⟩ := a
  · have key : ∀ w, WIn X (⟨.ct (.mulC a w), m⟩ : Word Term) := by
      intro w t e
      cases e
      exact ha a rfl
    unfold Word.mulConst
    dsimp only
    split
    · exact (key _).opp
    · exact key _
  · unfold Word.mulConst
    dsimp only
    split
    · exact (WIn.of_triv rfl).opp
    · exact WIn.of_triv rfl

theorem CIn.nil : CIn X [] := fun _ h => by cases h
theorem CIn.cons {w : Word Term} {x : Ctxt Term} (hw : WIn X w) (hx : CIn X x) : CIn X (w :: x) := by
  intro v hv
  rcases List.mem_cons.1 hv with rfl | hv
  · exact hw
  · exact hx v hv
theorem CIn.append {x y : Ctxt Term} (hx : CIn X x) (hy : CIn X y) : CIn X (x ++ y) := by
  intro v hv
  rcases List.mem_append.1 hv with hv | hv
  · exact hx v hv
  · exact hy v hv
theorem CIn.take {x : Ctxt Term} (hx : CIn X x) (n : Nat) : CIn X (x.take n) := fun w h => hx w (List.mem_of_mem_take h)
theorem CIn.drop {x : Ctxt Term} (hx : CIn X x) (n : Nat) : CIn X (x.drop n) := fun w h => hx w (List.mem_of_mem_drop h)
theorem CIn.replicate (n : Nat) (k : Int) : CIn X (List.replicate n (encryptWordTriv Term pc k)) := by
  intro w h
  rw [List.eq_of_mem_replicate h]
  exact WIn.trivWord k
theorem CIn.trivCt (n : Nat) : CIn X (trivCt Term pc n) := CIn.replicate n 0
theorem CIn.ctShift {x : Ctxt Term} (hx : CIn X x) (k : Nat) : CIn X (ctShift pc x k) := by
  unfold Parm.ctShift
  split
  · exact hx
  · exact (CIn.trivCt k).append hx
theorem CIn.opposite {x : Ctxt Term} (hx : CIn X x) : CIn X (x.map (Word.opp freeScheme)) := by
  intro w h
  obtain ⟨v, hv, rfl⟩ := List.mem_map.1 h
  exact (hx v hv).opp
theorem CIn.zipInplace {op : Word Term → Word Term → Word Term} (hop : ∀ {a b}, WIn X a → WIn X b → WIn X (op a b)) :
    ∀ {x y : Ctxt Term}, CIn X x → CIn X y → CIn X (zipInplace op x y)
  | [], y, _, _ => by cases y <;> exact CIn.nil
  | w :: x, [], hx, _ => hx
  | w :: x, v :: y, hx, hy => CIn.cons (hop (hx w (by simp)) (hy v (by simp)))
      (CIn.zipInplace hop (fun u h => hx u (by simp [h])) fun u h => hy u (by simp [h]))
theorem CIn.foldl : ∀ {l : Ctxt Term} {b : Word Term}, CIn X l → WIn X b → WIn X (l.foldl (Word.add freeScheme) b)
  | [], _, _, h => h
  | w :: l, b, hl, h => CIn.foldl (l := l) (fun u hu => hl u (by simp [hu])) (h.add (hl w (by simp)))

/-- a bootstrap adds one sample -/
theorem Tr.evalLut5Float {c : Word Term} (h : WIn X c) (lut : List Int) :
    Tr X (evalLut5Float freeScheme pc c lut) WIn := by
  obtain ⟨c | p, m⟩ := c
  · intro s a s' e
    unfold Parm.evalLut5Float at e
    dsimp only at e
    have hb : (M.bumpPbs : M Unit) s = .ok ((), { s with pbs := s.pbs + 1, nPbs := bumpTop 1 s.nPbs }) := rfl
    rw [bind_ok hb] at e
    split at e
    · cases e
    · cases e
      refine ⟨insert (.boot (genNoPaddingAcc pc (fun x => lut.getD x 0)) c) X, Finset.subset_insert _ _, ?_, ?_⟩
      · have := Finset.card_insert_le (.boot (genNoPaddingAcc pc (fun x => lut.getD x 0)) c) X
        show _ ≤ X.card + (s.pbs + 1)
        omega
      · intro t e
        cases e
        exact Finset.insert_subset_insert _ (h c rfl)
  · unfold Parm.evalLut5Float
    dsimp only
    refine (Tr.clear ?_).bind fun Y _ fm _ => ?_
    · exact Pure0.ite (Pure0.idx _ _) (Pure0.ite ((Pure0.idx _ _).bind fun _ => Pure0.pure _) (Pure0.panic _))
    · exact Tr.ite (fun _ => Tr.pure (WIn.trivWord _).addHalf) fun _ => Tr.pure (WIn.trivWord _)

theorem Tr.lut {c : Word Term} (h : WIn X c) (lut : List Nat) : Tr X (evalLut5Uint freeScheme pc c lut) WIn :=
  Tr.evalLut5Float h _

theorem Tr.pbsNonneg {c : Word Term} (h : WIn X c) : Tr X (pbsNonneg freeScheme pc c) WIn := by
  unfold Parm.pbsNonneg
  exact (Tr.evalLut5Float h _).bind fun Y _ a ha => Tr.pure ha.addHalf

theorem Tr.pbsSqu3 {c : Word Term} (h : WIn X c) (pos : Nat) : Tr X (pbsSqu3 freeScheme pc c pos) WIn := by
  unfold Parm.pbsSqu3
  split
  · exact Tr.lut h _
  · exact Tr.pure (WIn.trivWord 0)
  · exact Tr.lut h _
  · exact Tr.lut h _
  · exact Tr.lut h _
  · exact Tr.lut h _
  · exact Tr.panic _

/-! ### Operations -/

theorem Tr.word {x : Ctxt Term} (h : CIn X x) (i : Nat) : Tr X (Parm.idx x i) WIn := Tr.idx h

theorem Tr.addSubImpl (isAdd refresh : Bool) {x y : Ctxt Term} (hx : CIn X x) (hy : CIn X y) :
    Tr X (addSubImpl freeScheme isAdd pc x y refresh) CIn := by
  unfold Parm.addSubImpl
  dsimp only
  refine Tr.ite (fun _ => Tr.pure ?_) fun _ => Tr.ite (fun _ => Tr.pure hx) fun _ => ?_
  · split
    · exact hy
    · exact hy.opposite
  · obtain ⟨wlen, hw⟩ : ∃ n, n = max (x.length - Parm.lzero x) (y.length - Parm.lzero y) := ⟨_, rfl⟩
    obtain ⟨r, hr⟩ : ∃ n, n = max (Parm.rzero x) (Parm.rzero y) := ⟨_, rfl⟩
    rw [← hw, ← hr]
    have hw1 : CIn X (if isAdd = true then
          zipInplace (Word.add freeScheme) (x.take wlen ++ List.replicate (wlen - x.length) (encryptWordTriv Term pc 0)) y
        else zipInplace (Word.sub freeScheme) (x.take wlen ++ List.replicate (wlen - x.length) (encryptWordTriv Term pc 0)) y) := by
      have h0 := (hx.take wlen).append (CIn.replicate (pc := pc) (wlen - x.length) 0)
      split
      · exact CIn.zipInplace (fun a b => a.add b) h0 hy
      · exact CIn.zipInplace (fun a b => a.sub b) h0 hy
    generalize (if isAdd = true then
          zipInplace (Word.add freeScheme) (x.take wlen ++ List.replicate (wlen - x.length) (encryptWordTriv Term pc 0)) y
        else zipInplace (Word.sub freeScheme) (x.take wlen ++ List.replicate (wlen - x.length) (encryptWordTriv Term pc 0)) y)
      = w at hw1 ⊢
    refine Tr.ite (fun _ => Tr.err _) fun _ => ?_
    refine (Tr.parFor (Q := WIn) WIn.up ?_).bind ?_
    · intro Y hY i hi
      have hw1 := CIn.up hY hw1
      refine (Tr.word (hw1.drop r) i).bind fun Z hZ wi hwi => ?_
      refine Tr.bind (P := WIn) (Tr.ite (fun _ => ?_) fun _ => Tr.pure (hwi.mulConst 3)) fun W _ a ha => Tr.lut ha _
      exact (Tr.word (CIn.up hZ hw1) _).bind fun W hW wp hwp => Tr.pure ((WIn.up hW (hwi.mulConst 3)).add hwp)
    · intro Y hY qhi hqhi
      have hq' := ((CIn.trivCt (X := Y) (pc := pc) wlen).take r).append (y := qhi) hqhi
      have hw1 := CIn.up hY hw1
      refine (Tr.seqFor (Q := WIn) WIn.up ?_).bind ?_
      · intro Z hZ i hi
        have hq' := CIn.up hZ hq'
        refine (Tr.word hq' i).bind fun W hW qi hqi => ?_
        have hs := (WIn.up (hZ.trans hW) (hw1 _ (List.getElem_mem hi))).sub (hqi.mulConst 2)
        refine Tr.ite (fun _ => ?_) fun _ => Tr.pure hs
        exact (Tr.word (CIn.up hW hq') _).bind fun V hV qp hqp => Tr.pure ((WIn.up hV hs).add hqp)
      · intro Z hZ u hu
        have hu : CIn Z u := hu
        refine Tr.bind (P := CIn) (Tr.ite (fun _ => ?_) fun _ => Tr.pure (hu.drop r)) ?_
        · refine Tr.parFor (Q := WIn) WIn.up ?_
          intro W hW i hi
          exact (Tr.word ((CIn.up hW hu).drop r) i).bind fun V _ a ha => Tr.lut ha _
        · intro W hW z hz
          have hq' := CIn.up (hZ.trans hW) hq'
          split
          · rename_i q hlast
            exact Tr.pure ((((CIn.up hW hu).take r).append hz).append (CIn.cons (hq' q (List.mem_of_getLast? hlast)) CIn.nil))
          · exact Tr.panic _

theorem Tr.ctAdd {x y : Ctxt Term} (hx : CIn X x) (hy : CIn X y) : Tr X (ctAdd freeScheme pc x y) CIn :=
  (Tr.addSubImpl true true hx hy).call
theorem Tr.ctSub {x y : Ctxt Term} (hx : CIn X x) (hy : CIn X y) : Tr X (ctSub freeScheme pc x y) CIn :=
  (Tr.addSubImpl false true hx hy).call
theorem Tr.ctAddNoisy {x y : Ctxt Term} (hx : CIn X x) (hy : CIn X y) : Tr X (ctAddNoisy freeScheme pc x y) CIn :=
  (Tr.addSubImpl true false hx hy).call
theorem Tr.ctSubNoisy {x y : Ctxt Term} (hx : CIn X x) (hy : CIn X y) : Tr X (ctSubNoisy freeScheme pc x y) CIn :=
  (Tr.addSubImpl false false hx hy).call

theorem Tr.ctAddConst {x : Ctxt Term} (hx : CIn X x) (k : Int) : Tr X (ctAddConst freeScheme pc x k) CIn := by
  refine Tr.call ?_
  unfold Parm.addConstImpl
  refine Tr.ite (fun _ => Tr.pure hx) fun _ => (Tr.clear (Pure0.i64Op _ _)).bind fun Y hY a _ => ?_
  refine Tr.ctAdd (CIn.up hY hx) fun w hw => ?_
  obtain ⟨i, _, rfl⟩ := List.mem_map.1 hw
  exact WIn.trivWord _

theorem Tr.sgnFirst {x : Ctxt Term} (hx : CIn X x) (j : Nat) {b : Word Term} (hb : WIn X b) :
    Tr X (sgnFirst freeScheme pc x j b) WIn := by
  have step : ∀ {Y : Finset Term}, X ⊆ Y → ∀ (i : Nat) {b : Word Term}, WIn Y b →
      Tr Y (if sgnGamma * j + i < x.length then do
          let xi ← Parm.idx x (sgnGamma * j + i)
          let xi := if i = 0 then xi else Word.mulConst freeScheme xi (2 ^ i : Nat)
          Pure.pure (Word.add freeScheme b xi)
        else Pure.pure b) WIn := by
    intro Y hY i b hb
    refine Tr.ite (fun _ => ?_) fun _ => Tr.pure hb
    refine (Tr.word (CIn.up hY hx) _).bind fun Z hZ xi hxi => Tr.pure ((WIn.up hZ hb).add ?_)
    split
    · exact hxi
    · exact hxi.mulConst _
  unfold Parm.sgnFirst
  refine Tr.bind (P := WIn) ?_ ?_
  · refine Tr.ite (fun _ => ?_) fun _ => Tr.pure hb
    refine (Tr.word hx _).bind fun Y hY x3 hx3 => ?_
    exact Tr.bind (P := WIn) (Tr.ite (fun _ => Tr.pure (hx3.mulConst 8)) fun _ => Tr.lut hx3 _) fun Z hZ a ha =>
      Tr.pure ((WIn.up (hY.trans hZ) hb).add ha)
  · intro Y hY b hb
    exact (step hY 0 hb).bind fun Z hZ b hb => (step (hY.trans hZ) 1 hb).bind fun W hW b hb =>
      step (hY.trans (hZ.trans hW)) 2 hb

theorem Tr.sgnNext {x : Ctxt Term} (hx : CIn X x) (j : Nat) {b : Word Term} (hb : WIn X b) :
    Tr X (sgnNext freeScheme pc x j b) WIn := by
  unfold Parm.sgnNext
  refine Tr.bind (Tr.parFor (Q := WIn) WIn.up ?_) fun Y hY s hs => Tr.pure (CIn.foldl hs (WIn.up hY hb))
  intro Y hY i hi
  exact Tr.ite (fun _ => (Tr.word (CIn.up hY hx) _).bind fun Z _ xi hxi => Tr.lut hxi _)
    fun _ => Tr.pure (CIn.trivCt _ _ (List.getElem_mem hi))

theorem Tr.sgnRecursionRaw : ∀ (fuel : Nat) {X : Finset Term} {x : Ctxt Term} (_ : CIn X x) (first : Bool),
    Tr X (sgnRecursionRaw freeScheme pc fuel x first) CIn := by
  intro fuel
  induction fuel with
  | zero =>
    intro X x hx first
    unfold Parm.sgnRecursionRaw
    exact Tr.ite (fun _ => Tr.pure (CIn.trivCt 1)) fun _ => Tr.ite (fun _ => Tr.pure hx) fun _ => Tr.panic _
  | succ fuel ih =>
    intro X x hx first
    unfold Parm.sgnRecursionRaw
    refine Tr.ite (fun _ => Tr.pure (CIn.trivCt 1)) fun _ => Tr.ite (fun _ => Tr.pure hx) fun _ => ?_
    refine (Tr.parFor (Q := WIn) WIn.up ?_).bind fun Y hY b hb => ih hb false
    intro Y hY i hi
    exact Tr.ite (fun _ => Tr.sgnFirst (CIn.up hY hx) i (CIn.trivCt _ _ (List.getElem_mem hi)))
      fun _ => Tr.sgnNext (CIn.up hY hx) i (CIn.trivCt _ _ (List.getElem_mem hi))

theorem Tr.ctSgn {x : Ctxt Term} (hx : CIn X x) : Tr X (ctSgn freeScheme pc x) CIn := by
  refine Tr.call ?_
  unfold Parm.sgnImpl
  refine Tr.ite (fun _ => Tr.pure CIn.nil) fun _ => Tr.ite (fun _ => Tr.pure hx) fun _ => ?_
  exact (Tr.sgnRecursionRaw _ hx true).bind fun Y _ r hr => (Tr.word hr 0).bind fun Z _ s hs =>
    (Tr.lut hs _).bind fun W _ s hs => Tr.pure (CIn.cons hs CIn.nil)

theorem Tr.maxImpl {x y : Ctxt Term} (hx : CIn X x) (hy : CIn X y) : Tr X (maxImpl freeScheme pc x y) CIn := by
  unfold Parm.maxImpl
  refine (Tr.ctSub hx hy).bind fun Y hY r hr => (Tr.sgnRecursionRaw _ hr true).bind fun Z hZ s hs =>
    (Tr.word hs 0).bind fun W hW s hs => (Tr.pbsNonneg hs).bind fun V hV s hs => ?_
  have hXV := hY.trans (hZ.trans (hW.trans hV))
  have hxa := (CIn.up hXV hx).append (CIn.replicate (pc := pc) (y.length - x.length) 0)
  have hya := (CIn.up hXV hy).append (CIn.replicate (pc := pc) (x.length - y.length) 0)
  refine Tr.parFor (Q := WIn) WIn.up ?_
  intro U hU i hi
  refine (Tr.word (CIn.up hU hxa) i).bind fun A hA xi hxi => (Tr.word (CIn.up (hU.trans hA) hya) i).bind fun E hE yi hyi => ?_
  refine Tr.bind (P := WIn) (Tr.ite (fun _ => Tr.pure (hyi.mulConst 6)) fun _ => Tr.lut hyi _) fun F hF t ht => ?_
  exact Tr.lut ((ht.add (WIn.up (hE.trans hF) (hxi.mulConst 2))).add (WIn.up (hU.trans (hA.trans (hE.trans hF))) hs)) _

theorem Tr.ctMax {x y : Ctxt Term} (hx : CIn X x) (hy : CIn X y) : Tr X (ctMax freeScheme pc x y) CIn :=
  (Tr.maxImpl hx hy).call
theorem Tr.ctRelu {x : Ctxt Term} (hx : CIn X x) : Tr X (ctRelu freeScheme pc x) CIn := (Tr.maxImpl CIn.nil hx).call

theorem Tr.ctRoundAt {x : Ctxt Term} (hx : CIn X x) (p : Nat) : Tr X (ctRoundAt freeScheme pc x p) CIn := by
  refine Tr.call ?_
  unfold Parm.roundAtImpl
  refine Tr.ite (fun _ => Tr.pure hx) fun _ => Tr.ite (fun _ => Tr.pure CIn.nil) fun _ => ?_
  refine (Tr.ctSgn (hx.take (p - 1))).bind fun Y hY s hs => (Tr.word (CIn.up hY hx) _).bind fun Z hZ xp hxp => ?_
  refine Tr.bind (P := WIn) ?_ fun W hW y hy => (Tr.lut hy _).bind fun V hV r hr => ?_
  · exact Tr.ite (fun _ => (Tr.word (CIn.up hZ hs) 0).bind fun W hW s hs =>
      Tr.pure ((WIn.up hW (hxp.mulConst 2)).add hs)) fun _ => Tr.pure (hxp.mulConst 2)
  · exact Tr.ctAdd (((CIn.up (hY.trans (hZ.trans (hW.trans hV))) hx).drop p).ctShift p)
      ((CIn.trivCt p).append (CIn.cons hr CIn.nil))

theorem Tr.mulLwe {x y : Word Term} (hx : WIn X x) (hy : WIn X y) : Tr X (mulLwe freeScheme pc x y) WIn := by
  have hd : ∀ w : Word Term, Pure0 (decryptMi (S := freeScheme) none w) := by
    rintro ⟨c | p, m⟩
    · exact Or.inr (Fails.bind (Fails.err _)).allFail
    · exact Pure0.bind (Pure0.pure _) fun _ => Pure0.pure _
  unfold Parm.mulLwe
  refine Tr.ite (fun _ => ?_) fun _ => Tr.ite (fun _ => ?_) fun _ => ?_
  · exact (Tr.clear (hd x)).bind fun Y hY a _ => Tr.pure ((WIn.up hY hy).mulConst _)
  · exact (Tr.clear (hd y)).bind fun Y hY a _ => Tr.pure ((WIn.up hY hx).mulConst _)
  · exact Tr.lut ((hx.mulConst 3).add hy) _

theorem Tr.fillMulary {x y : Ctxt Term} (hx : CIn X x) (hy : CIn X y) : Tr X (fillMulary freeScheme pc x y) LIn := by
  unfold Parm.fillMulary
  refine Tr.ite (fun _ => Tr.panic _) fun _ => ?_
  refine Tr.parFor (Q := CIn) CIn.up ?_
  intro Y hY j hj
  refine (Tr.word (CIn.up hY hy) j).bind fun Z hZ yj hyj => ?_
  have hrow : CIn Z ((List.replicate x.length (Parm.trivCt Term pc (2 * x.length)))[j]) := by
    simp only [List.getElem_replicate]
    exact CIn.trivCt _
  refine (Tr.parFor (Q := WIn) WIn.up ?_).bind fun W hW m hm =>
    Tr.pure ((((CIn.up hW hrow).take j).append hm).append ((CIn.up hW hrow).drop _))
  intro W hW i hi
  exact (Tr.word (CIn.up (hY.trans (hZ.trans hW)) hx) i).bind fun V hV xi hxi =>
    (Tr.mulLwe hxi (WIn.up (hW.trans hV) hyj)).expect

theorem Tr.reduceLoop : ∀ {rows : List (Ctxt Term)} {X : Finset Term}, LIn X rows → ∀ {c o : Ctxt Term}, CIn X c →
    Tr X (reduceLoop freeScheme pc rows c o) CIn
  | [], _, _, _, _, hc => Tr.pure hc
  | r :: rows, X, h, c, o, hc => by
    unfold Parm.reduceLoop
    exact (Tr.ctAdd hc (h r (by simp))).bind fun Y hY n hn =>
      Tr.reduceLoop (fun s hs => CIn.up hY (h s (by simp [hs]))) hn

theorem Tr.reduceMulsquary {rows : List (Ctxt Term)} (h : LIn X rows) : Tr X (reduceMulsquary freeScheme pc rows) CIn := by
  unfold Parm.reduceMulsquary
  exact (Tr.idx (Q := CIn) h).bind fun Y hY a ha => (Tr.idx (Q := CIn) (LIn.up hY h)).bind fun Z hZ b hb =>
    (Tr.ctAdd (CIn.up hZ ha) hb).bind fun W hW s hs =>
      Tr.reduceLoop (fun r hr => LIn.up (hY.trans (hZ.trans hW)) h r (List.mem_of_mem_drop hr)) hs

theorem Tr.mulKaratsuba {f : Ctxt Term → Ctxt Term → M (Ctxt Term)}
    (hf : ∀ {X x y}, CIn X x → CIn X y → Tr X (f x y) CIn) {x y : Ctxt Term} (hx : CIn X x) (hy : CIn X y) :
    Tr X (mulKaratsuba freeScheme pc f x y) CIn := by
  unfold Parm.mulKaratsuba
  refine Tr.ite (fun _ => Tr.panic _) fun _ => ?_
  refine Tr.bind (Tr.par2 (Q := fun Y (r : Ctxt Term × Ctxt Term × Ctxt Term) => CIn Y r.1 ∧ CIn Y r.2.1 ∧ CIn Y r.2.2)
    (P := CIn) (fun h _ g => ⟨CIn.up h g.1, CIn.up h g.2.1, CIn.up h g.2.2⟩) CIn.up ?_ ?_) ?_
  · intro Y hY
    have hx := CIn.up hY hx
    have hy := CIn.up hY hy
    refine Tr.bind (Tr.par2 CIn.up CIn.up (fun Z hZ => hf (CIn.up hZ (hx.drop _)) (CIn.up hZ (hy.drop _)))
      fun Z hZ => hf (CIn.up hZ (hx.take _)) (CIn.up hZ (hy.take _))) ?_
    rintro Z hZ ⟨a, b⟩ ⟨ha, hb⟩
    exact (Tr.ctAdd ha hb).bind fun W hW s hs => Tr.pure ⟨CIn.up hW ha, CIn.up hW hb, (CIn.trivCt _).append hs.opposite⟩
  · intro Y hY
    have hx := CIn.up hY hx
    have hy := CIn.up hY hy
    refine Tr.bind (Tr.par2 CIn.up CIn.up (fun Z hZ => Tr.ctAdd (CIn.up hZ (hx.take _)) (CIn.up hZ (hx.drop _)))
      fun Z hZ => Tr.ctAdd (CIn.up hZ (hy.take _)) (CIn.up hZ (hy.drop _))) ?_
    rintro Z hZ ⟨a, b⟩ ⟨ha, hb⟩
    exact (hf ha hb).bind fun W hW c hc => Tr.pure ((CIn.trivCt _).append hc)
  · rintro Y hY ⟨⟨a, b, n⟩, c⟩ ⟨⟨ha, hb, hn⟩, hc⟩
    refine (Tr.ctAdd hc hn).bind fun Z hZ s hs => ?_
    dsimp only at ha hb ⊢
    have ha := CIn.up hZ ha
    have hb := CIn.up hZ hb
    refine Tr.ite (fun _ => Tr.ctAdd (hb.append ha) hs) fun _ => ?_
    exact (Tr.ctAdd hb hs).bind fun W hW t ht => Tr.ctAdd ((CIn.up hW ha).ctShift _) ht

theorem Tr.mulImpl : ∀ (fuel : Nat) {X : Finset Term} {x y : Ctxt Term}, CIn X x → CIn X y →
    Tr X (mulImpl freeScheme pc fuel x y) CIn := by
  intro fuel
  induction fuel with
  | zero =>
    intro X x y hx hy
    have hxa := hx.append (CIn.replicate (pc := pc) (y.length - x.length) 0)
    have hya := hy.append (CIn.replicate (pc := pc) (x.length - y.length) 0)
    unfold Parm.mulImpl Parm.mulAlign
    dsimp only
    refine Tr.ite (fun _ => Tr.pure CIn.nil) fun _ => Tr.ite (fun _ => ?_) fun _ =>
      Tr.ite (fun _ => ?_) fun _ => Tr.ite (fun _ => Tr.panic _) fun _ => Tr.err _
    · exact (Tr.fillMulary hxa hya).bind fun Y _ m hm => Tr.idx hm
    · exact (Tr.fillMulary hxa hya).bind fun Y _ m hm => Tr.reduceMulsquary hm
  | succ fuel ih =>
    intro X x y hx hy
    have hxa := hx.append (CIn.replicate (pc := pc) (y.length - x.length) 0)
    have hya := hy.append (CIn.replicate (pc := pc) (x.length - y.length) 0)
    unfold Parm.mulImpl Parm.mulAlign
    dsimp only
    refine Tr.ite (fun _ => Tr.pure CIn.nil) fun _ => Tr.ite (fun _ => ?_) fun _ =>
      Tr.ite (fun _ => ?_) fun _ => Tr.ite (fun _ => ?_) fun _ => Tr.err _
    · exact (Tr.fillMulary hxa hya).bind fun Y _ m hm => Tr.idx hm
    · exact (Tr.fillMulary hxa hya).bind fun Y _ m hm => Tr.reduceMulsquary hm
    · exact Tr.mulKaratsuba (fun h g => (ih h g).call) hxa hya

theorem Tr.ctMul {x y : Ctxt Term} (hx : CIn X x) (hy : CIn X y) : Tr X (ctMul freeScheme pc x y) CIn :=
  (Tr.mulImpl mulFuel hx hy).call

theorem Tr.squ1word {x : Ctxt Term} (hx : CIn X x) : Tr X (squ1word freeScheme pc x) CIn := by
  unfold Parm.squ1word
  exact (Tr.word hx 0).bind fun Y _ a ha => (Tr.lut ha _).bind fun Z _ b hb => Tr.pure (CIn.cons hb CIn.nil)

theorem Tr.squ23word {x : Ctxt Term} (hx : CIn X x) : Tr X (squ23word freeScheme pc x) CIn := by
  unfold Parm.squ23word
  refine Tr.ite (fun _ => Tr.panic _) fun _ => ?_
  refine Tr.bind (P := WIn) (Tr.ite (fun _ => ?_) fun _ => ?_) fun Y hY v hv => ?_
  · exact (Tr.word hx _).bind fun Y hY a ha => (Tr.word (CIn.up hY hx) _).bind fun Z hZ b hb =>
      Tr.pure ((WIn.up hZ (ha.mulConst 2)).add hb)
  · exact (Tr.word hx _).bind fun Y hY a ha => (Tr.word (CIn.up hY hx) _).bind fun Z hZ b hb =>
      (Tr.word (CIn.up (hY.trans hZ) hx) _).bind fun W hW c hc => Tr.pure
        ((WIn.up hW (((WIn.up hZ (ha.mulConst 2)).add hb).mulConst 2)).add hc)
  · refine (Tr.parFor (Q := WIn) WIn.up fun Z hZ i _ => Tr.pbsSqu3 (WIn.up hZ hv) _).bind ?_
    intro Z hZ r hr
    have hr : CIn Z r := hr
    exact (Tr.word hr 0).bind fun W hW a ha => Tr.pure (CIn.cons ha (CIn.cons (WIn.trivWord 0) ((CIn.up hW hr).drop 1)))

theorem Tr.squDnq {f : Ctxt Term → M (Ctxt Term)} (hf : ∀ {X x}, CIn X x → Tr X (f x) CIn) {x : Ctxt Term}
    (hx : CIn X x) : Tr X (squDnq freeScheme pc f x) CIn := by
  unfold Parm.squDnq
  refine Tr.bind (Tr.par3 (Q := CIn) (P := CIn) (O := CIn) CIn.up CIn.up CIn.up (fun Y hY => hf (CIn.up hY (hx.drop _)))
    (fun Y hY => hf (CIn.up hY (hx.take _))) fun Y hY => ?_) ?_
  · exact (Tr.ctMul (CIn.up hY (hx.take _)) (CIn.up hY (hx.drop _))).bind fun Z _ c hc => Tr.pure (hc.ctShift _)
  · rintro Y hY ⟨a, b, c⟩ ⟨ha, hb, hc⟩
    dsimp only at ha hb hc ⊢
    refine Tr.ite (fun _ => Tr.ctAdd (hb.append ha) hc) fun _ => ?_
    exact (Tr.ctAdd hb hc).bind fun Z hZ t ht => Tr.ctAdd ((CIn.up hZ ha).ctShift _) ht

theorem Tr.squImpl : ∀ (fuel : Nat) {X : Finset Term} {x : Ctxt Term}, CIn X x → Tr X (squImpl freeScheme pc fuel x) CIn := by
  intro fuel
  induction fuel with
  | zero =>
    intro X x hx
    unfold Parm.squImpl
    exact Tr.ite (fun _ => Tr.pure CIn.nil) fun _ => Tr.ite (fun _ => Tr.squ1word hx) fun _ =>
      Tr.ite (fun _ => Tr.squ23word hx) fun _ => Tr.ite (fun _ => Tr.panic _) fun _ => Tr.err _
  | succ fuel ih =>
    intro X x hx
    unfold Parm.squImpl
    exact Tr.ite (fun _ => Tr.pure CIn.nil) fun _ => Tr.ite (fun _ => Tr.squ1word hx) fun _ =>
      Tr.ite (fun _ => Tr.squ23word hx) fun _ => Tr.ite (fun _ => Tr.squDnq (fun h => (ih h).call) hx) fun _ => Tr.err _

theorem Tr.ctSqu {x : Ctxt Term} (hx : CIn X x) : Tr X (ctSqu freeScheme pc x) CIn := (Tr.squImpl mulFuel hx).call

end

/-! ### Generic code over the interface -/

/-- the operations of an instance of the interface add at most one sample per bootstrap -/
structure ArithTr {T : Type} (A : Arith T) (Q : Finset Term → T → Prop) : Prop where
  up : Up Q
  zero : ∀ {X}, Q X A.zero
  opp : ∀ {X x}, Q X x → Tr X (A.opp x) Q
  shift : ∀ {X x} k, Q X x → Tr X (A.shift x k) Q
  add : ∀ {X x y}, Q X x → Q X y → Tr X (A.add x y) Q
  sub : ∀ {X x y}, Q X x → Q X y → Tr X (A.sub x y) Q
  addConst : ∀ {X x} k, Q X x → Tr X (A.addConst x k) Q
  scalarMul : ∀ {X x} k, Q X x → Tr X (A.scalarMul k x) Q
  sgn : ∀ {X x}, Q X x → Tr X (A.sgn x) Q
  max : ∀ {X x y}, Q X x → Q X y → Tr X (A.max x y) Q
  relu : ∀ {X x}, Q X x → Tr X (A.relu x) Q
  mul : ∀ {X x y}, Q X x → Q X y → Tr X (A.mul x y) Q
  squ : ∀ {X x}, Q X x → Tr X (A.squ x) Q
  roundAt : ∀ {X x} p, Q X x → Tr X (A.roundAt x p) Q

section
variable {T : Type} {A : Arith T} {Q : Finset Term → T → Prop} (H : ArithTr A Q)
include H

/-- all values of a list -/
abbrev All {T : Type} (Q : Finset Term → T → Prop) (X : Finset Term) (l : List T) : Prop := ∀ a ∈ l, Q X a

theorem ArithTr.all : Up (All Q) := fun h _ g a ha => H.up h (g a ha)

theorem ArithTr.ascStep {X : Finset Term} {v : List T} (h : All Q X v) (e : AddShift) : Tr X (ascStep A v e) (All Q) := by
  unfold Parm.ascStep
  refine (Tr.idx (Q := Q) h).bind fun Y1 h1 l hl => (H.opp hl).bind fun Y2 h2 nl hnl =>
    (Tr.idx (Q := Q) (H.all (h1.trans h2) h)).bind fun Y3 h3 r hr => (H.shift _ hr).bind fun Y4 h4 rs hrs =>
    (H.opp hrs).bind fun Y5 h5 nr hnr => ?_
  have hl := H.up (h2.trans (h3.trans (h4.trans h5))) hl
  have hnl := H.up (h3.trans (h4.trans h5)) hnl
  have hrs := H.up h5 hrs
  have hv := H.all (h1.trans (h2.trans (h3.trans (h4.trans h5)))) h
  refine Tr.bind (H.add (x := if e.lPos then l else nl) (y := if e.rPos then rs else nr) ?_ ?_) fun Z hZ a ha =>
    Tr.pure ?_
  · split <;> assumption
  · split <;> assumption
  · intro b hb
    rcases List.mem_append.1 hb with hb | hb
    · exact H.up hZ (hv b hb)
    · rw [List.mem_singleton.1 hb]; exact ha

theorem ArithTr.ascLoop : ∀ (c : Asc) {X : Finset Term} {v : List T}, All Q X v → Tr X (ascLoop A c v) (All Q)
  | [], _, _, h => Tr.pure h
  | e :: es, _, _, h => by
    unfold Parm.ascLoop
    exact (H.ascStep h e).bind fun Y hY w hw => ArithTr.ascLoop es hw

theorem ArithTr.ascEval {X : Finset Term} (c : Asc) {x : T} (h : Q X x) : Tr X (ascEval A c x) Q := by
  unfold Parm.ascEval
  refine (H.ascLoop c (v := [x]) (fun a ha => by rw [List.mem_singleton.1 ha]; exact h)).bind fun Y _ v hv => ?_
  split
  · rename_i z hz
    exact Tr.pure (hv z (List.mem_of_getLast? hz))
  · exact Tr.panic _

theorem ArithTr.instr {X : Finset Term} {r : List T} (h : All Q X r) (ins : Instr) : Tr X (ins.run A r) Q := by
  have one : ∀ {f : T → M T} (i : Nat), (∀ {X x}, Q X x → Tr X (f x) Q) → Tr X (idx r i >>= f) Q :=
    fun i hf => (Tr.idx (Q := Q) h).bind fun _ _ _ hx => hf hx
  have two : ∀ {f : T → T → M T} (i j : Nat), (∀ {X x y}, Q X x → Q X y → Tr X (f x y) Q) →
      Tr X (idx r i >>= fun x => idx r j >>= f x) Q :=
    fun i j hf => (Tr.idx (Q := Q) h).bind fun _ hY _ hx => (Tr.idx (Q := Q) (H.all hY h)).bind fun _ hZ _ hy =>
      hf (H.up hZ hx) hy
  cases ins with
  | zero => exact Tr.pure H.zero
  | opp i => exact one i H.opp
  | shift i k => exact one i (H.shift k)
  | add i j => exact two i j H.add
  | sub i j => exact two i j H.sub
  | addConst i k => exact one i (H.addConst k)
  | scalarMul k i => exact one i (H.scalarMul k)
  | sgn i => exact one i H.sgn
  | max i j => exact two i j H.max
  | relu i => exact one i H.relu
  | mul i j => exact two i j H.mul
  | squ i => exact one i H.squ
  | roundAt i p => exact one i (H.roundAt p)

theorem ArithTr.prog : ∀ (p : List Instr) {X : Finset Term} {r : List T}, All Q X r → Tr X (runProg A p r) (All Q)
  | [], _, _, h => Tr.pure h
  | i :: is, _, _, h => by
    unfold runProg
    refine (H.instr h i).bind fun Y hY z hz => ArithTr.prog is ?_
    intro b hb
    rcases List.mem_append.1 hb with hb | hb
    · exact H.up hY (h b hb)
    · rw [List.mem_singleton.1 hb]; exact hz

theorem ArithTr.affineLoop : ∀ (w : List Int) {X : Finset Term} {a : List T} {r : T}, All Q X a → Q X r →
    Tr X (affineLoop A w a r) Q
  | [], _, a, _, _, hr => by cases a <;> exact Tr.pure hr
  | _ :: _, _, [], _, _, hr => Tr.pure hr
  | k :: w, X, x :: a, r, ha, hr => by
    unfold Parm.affineLoop
    exact (H.scalarMul k (ha x (by simp))).bind fun Y hY s hs => (H.add (H.up hY hr) hs).bind fun Z hZ g hg =>
      ArithTr.affineLoop w (fun b hb => H.up (hY.trans hZ) (ha b (by simp [hb]))) hg

theorem ArithTr.affinePool {X : Finset Term} (w : List Int) (b : Int) {a : List T} (ha : All Q X a) :
    Tr X (affinePool A w a b) Q := by
  unfold Parm.affinePool
  exact (H.affineLoop w ha H.zero).bind fun Y _ r hr => H.addConst b hr

theorem ArithTr.applyWeights : ∀ (w : List Int) {X : Finset Term} {a : List T}, All Q X a →
    Tr X (applyWeights A w a) (All Q)
  | [], _, a, _ => by cases a <;> exact Tr.pure (fun _ h => by cases h)
  | _ :: _, _, [], _ => Tr.pure (fun _ h => by cases h)
  | k :: w, X, x :: a, ha => by
    unfold Parm.applyWeights
    refine (H.scalarMul k (ha x (by simp))).bind fun Y hY s hs =>
      (ArithTr.applyWeights w (fun b hb => H.up hY (ha b (by simp [hb])))).bind fun Z hZ g hg => Tr.pure ?_
    intro b hb
    rcases List.mem_cons.1 hb with rfl | hb
    · exact H.up hZ hs
    · exact hg b hb

theorem ArithTr.maxChunks : ∀ (n : Nat) {X : Finset Term} {a : List T}, a.length ≤ n → All Q X a →
    Tr X (maxChunks A a) (All Q)
  | _, _, [], _, h => by unfold Parm.maxChunks; exact Tr.pure h
  | _, _, [_], _, h => by unfold Parm.maxChunks; exact Tr.pure h
  | 0, _, _ :: _ :: _, hn, _ => by simp at hn
  | n + 1, X, x :: y :: a, hn, h => by
    unfold Parm.maxChunks
    refine (H.max (h x (by simp)) (h y (by simp))).bind fun Y hY m hm =>
      (ArithTr.maxChunks n (a := a) (by simp at hn; omega) (fun b hb => H.up hY (h b (by simp [hb])))).bind fun Z hZ t ht =>
      Tr.pure ?_
    intro b hb
    rcases List.mem_cons.1 hb with rfl | hb
    · exact H.up hZ hm
    · exact ht b hb

theorem ArithTr.maxPoolRecursion : ∀ (fuel : Nat) {X : Finset Term} {a : List T}, All Q X a →
    Tr X (maxPoolRecursion A fuel a) Q
  | _, _, [], _ => by unfold Parm.maxPoolRecursion; exact Tr.pure H.zero
  | _, _, [x], h => by unfold Parm.maxPoolRecursion; exact Tr.pure (h x (by simp))
  | 0, _, _ :: _ :: _, _ => by unfold Parm.maxPoolRecursion; exact Tr.panic _
  | fuel + 1, _, x :: y :: a, h => by
    unfold Parm.maxPoolRecursion
    exact (H.maxChunks _ (Nat.le_refl _) h).bind fun Y _ t ht => ArithTr.maxPoolRecursion fuel ht

theorem ArithTr.evalPerc {X : Finset Term} (p : Perceptron) {a : List T} (ha : All Q X a) : Tr X (evalPerc A p a) Q := by
  unfold Parm.evalPerc
  cases p.t with
  | MAX =>
    dsimp only
    unfold Parm.maxPool
    exact (H.applyWeights p.w ha).bind fun Y _ w hw => (H.maxPoolRecursion _ hw).bind fun Z _ r hr => H.addConst _ hr
  | LIN => exact H.affinePool _ _ ha
  | ACT => exact (H.affinePool _ _ ha).bind fun Y _ r hr => H.relu hr

theorem ArithTr.evalLayer : ∀ (ps : List Perceptron) {X : Finset Term} {a : List T}, All Q X a →
    Tr X (evalLayer A ps a) (All Q)
  | [], _, _, _ => Tr.pure (fun _ h => by cases h)
  | p :: ps, _, _, h => by
    unfold Parm.evalLayer
    refine (H.evalPerc p h).bind fun Y hY o ho => (ArithTr.evalLayer ps (H.all hY h)).bind fun Z hZ os hos => Tr.pure ?_
    intro b hb
    rcases List.mem_cons.1 hb with rfl | hb
    · exact H.up hZ ho
    · exact hos b hb

theorem ArithTr.evalLayers : ∀ (ls : List (List Perceptron)) {X : Finset Term} {i o : List T}, All Q X i → All Q X o →
    Tr X (evalLayers A ls i o) (All Q)
  | [], _, _, _, _, ho => Tr.pure ho
  | l :: ls, _, _, _, hi, _ => by
    unfold Parm.evalLayers
    exact (H.evalLayer l hi).bind fun Y _ o ho => ArithTr.evalLayers ls ho ho

end

/-! ### The ciphertext instance -/

section
variable (pc : Cloud)

theorem tr_ascArith : ArithTr (ascArith freeScheme pc) CIn where
  up := CIn.up
  zero := CIn.nil
  opp h := Tr.pure h.opposite
  shift k h := Tr.pure (h.ctShift k)
  add hx hy := Tr.ctAdd hx hy
  sub hx hy := Tr.ctSub hx hy
  addConst k h := Tr.ctAddConst h k
  scalarMul _ _ := Tr.panic _
  sgn h := Tr.ctSgn h
  max hx hy := Tr.ctMax hx hy
  relu h := Tr.ctRelu h
  mul hx hy := Tr.ctMul hx hy
  squ h := Tr.ctSqu h
  roundAt p h := Tr.ctRoundAt h p

theorem Tr.scalarRest {X : Finset Term} {x : Ctxt Term} (hx : CIn X x) (ws : List (Int × Nat)) :
    Tr X (scalarRest freeScheme pc x ws) CIn := by
  unfold Parm.scalarRest
  refine (Tr.parFor (Q := fun Y (kv : Nat × Ctxt Term) => CIn Y kv.2) (fun h _ g => CIn.up h g) ?_).bind ?_
  · intro Y hY i hi
    refine (Tr.clear (Pure0.mapIdx _ _)).bind fun Z hZ c _ => ?_
    exact ((tr_ascArith pc).ascEval c (CIn.up (hY.trans hZ) hx)).expect.bind fun W _ v hv => Tr.pure hv
  · intro Y hY m hm
    refine (Tr.seqFor (Q := CIn) CIn.up ?_).bind ?_
    · intro Z hZ i hi
      refine (Tr.clear (Pure0.idx _ _)).bind fun W hW w _ => ?_
      refine Tr.bind (P := CIn) ?_ fun V hV v hv => Tr.ite (fun _ => Tr.pure ?_) fun _ => Tr.pure ?_
      · unfold Parm.mapIdx
        split
        · rename_i v hv
          unfold Parm.mapGet? at hv
          obtain ⟨kv, h1, h2⟩ := Option.map_eq_some_iff.1 hv
          subst h2
          exact Tr.pure (CIn.up (hZ.trans hW) (hm kv (List.mem_of_find?_eq_some h1)))
        · exact Tr.panic _
      · exact CIn.ctShift hv.opposite _
      · exact CIn.ctShift hv _
    · intro Z hZ rows hr
      exact Tr.ite (fun _ => Tr.idx hr) fun _ => Tr.reduceMulsquary hr

theorem Tr.ctScalarMul {X : Finset Term} {x : Ctxt Term} (hx : CIn X x) (k : Int) :
    Tr X (ctScalarMul freeScheme pc k x) CIn := by
  refine Tr.call ?_
  rw [scalarMulImpl_eq]
  have hxp : CIn X (if k ≥ 0 then x else x.map (Word.opp freeScheme)) := by
    split
    · exact hx
    · exact hx.opposite
  have hi : Pure0 (i32Op pc.build (k.natAbs : Int)) := by
    unfold Parm.i32Op
    refine Pure0.ite (Pure0.pure _) ?_
    cases pc.build
    · exact Pure0.panic _
    · exact Pure0.pure _
  refine (Tr.clear hi).bind fun Y hY a _ => ?_
  refine Tr.ite (fun _ => Tr.pure CIn.nil) fun _ => Tr.ite (fun _ => Tr.pure (CIn.up hY hxp)) fun _ => ?_
  exact (Tr.clear (Pure0.windShifts _ _ _)).bind fun Z hZ ws _ => Tr.scalarRest pc (CIn.up (hY.trans hZ) hxp) ws

theorem tr_arithCt : ArithTr (arithCt freeScheme pc) CIn := by
  have h := tr_ascArith pc
  unfold Parm.arithCt
  constructor
  case scalarMul =>
    intro X x k h
    dsimp only
    exact Tr.ctScalarMul pc h k
  case up => exact h.up
  case zero => exact h.zero
  case opp => exact h.opp
  case shift => exact h.shift
  case add => exact h.add
  case sub => exact h.sub
  case addConst => exact h.addConst
  case sgn => exact h.sgn
  case max => exact h.max
  case relu => exact h.relu
  case mul => exact h.mul
  case squ => exact h.squ
  case roundAt => exact h.roundAt

end

end Parm
