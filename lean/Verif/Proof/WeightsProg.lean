import Verif.Proof.WeightsOps
import Verif.Proof.Oblivious
import Verif.Props.Schedule

/-!
# Linear weights of arbitrary programs

No independence is assumed.  What is needed besides single samples is that trivial words hold digits;
this follows from the correctness theorems, because a run on terms has a twin on valid ciphertexts.
-/

namespace Parm
namespace Wt

variable {S : Scheme} {ck : ClientKey S} {pc : Cloud} {B D : Nat}

theorem wf_of_twin {x : Ctxt Term} {x' : Ctxt S.C} {v : Int} (h : CRel (fun _ _ => True) x x') (hv : Valid ck B x' v) :
    WellFormed x := by
  obtain ⟨d, hd, _⟩ := hv
  intro w hw
  obtain ⟨i, hi, rfl⟩ := List.mem_iff_getElem.1 hw
  have hi' : i < x'.length := by rw [← h.length_eq]; exact hi
  have hr := h.get hi hi'
  simp only [List.get_eq_getElem] at hr
  obtain ⟨he, hdig⟩ := hd i hi'
  unfold WordEnc at he
  generalize x[i] = a at hr ⊢
  generalize x'[i] = a' at hr he
  cases hr with
  | ct m _ => exact ⟨he.1, fun p e => by cases e⟩
  | triv p m =>
    refine ⟨he.1, fun p' e => ⟨d i, hdig, ?_⟩⟩
    cases e
    exact he.2

/-- a valid ciphertext of the same shape -/
def twin (ck : ClientKey S) (x : Ctxt Term) : Ctxt S.C :=
  x.map fun w => match w.ct with
    | .ct _ => encryptWord ck w.msgMod 0 0
    | .triv p => ⟨.triv p, w.msgMod⟩

theorem twin_rel (x : Ctxt Term) : CRel (fun _ _ => True) x (twin ck x) := by
  unfold twin
  induction x with
  | nil => exact .nil
  | cons w x ih =>
    refine .cons ?_ ih
    obtain ⟨c, m⟩ := w
    cases c with
    | ct c => exact WRel.ct _ trivial
    | triv p => exact WRel.triv _ _

theorem twin_valid (st : Setting S ck pc B D) {x : Ctxt Term} (h : WellFormed x) : ∃ v, Valid ck B (twin ck x) v := by
  have key : ∀ i (hi : i < (twin ck x).length), ∃ d, WordEnc ck B (twin ck x)[i] d 1 ∧ IsDigit d := by
    intro i hi
    have hi' : i < x.length := by simpa [twin] using hi
    obtain ⟨h1, h2⟩ := h _ (List.getElem_mem hi')
    simp only [twin, List.getElem_map]
    generalize x[i] = w at h1 h2
    obtain ⟨c, m⟩ := w
    cases c with
    | ct c =>
      refine ⟨0, ?_, by simp [IsDigit]⟩
      have := encryptWord_spec st 0 0
      rw [st.msgMod] at this
      simp only at h1
      subst h1
      exact this
    | triv p =>
      obtain ⟨d, hd, hp⟩ := h2 p rfl
      refine ⟨d, ⟨h1, hp⟩, hd⟩
  choose! d hd using key
  exact ⟨_, d, fun i hi => hd i hi, rfl⟩

/-- an operation that gives valid results on valid ciphertexts keeps trivial words digits -/
theorem wf_op {Z : Prop} {m : M (Ctxt Term)} {m' : M (Ctxt S.C)} {Q : Ctxt S.C → Prop}
    (h : RelM Z (CRel fun _ _ => True) m m') (hy : Yields m' Q) (hq : ∀ z, Q z → ∃ v, Valid ck B z v) :
    Ensures m WellFormed := by
  rcases h with ⟨a, a', n, h1, h2, h3, _⟩ | ⟨_, h⟩
  · obtain ⟨b, k, hb, hv⟩ := hy
    obtain ⟨rfl, _⟩ := h2.unique hb
    obtain ⟨v, hv⟩ := hq _ hv
    have hw := wf_of_twin h3 hv
    intro s z s' e
    obtain ⟨r, rp, _, hr⟩ := h1 s
    rw [hr] at e
    cases e
    exact hw
  · obtain ⟨b, k, hb, _⟩ := hy
    obtain ⟨r, rp, _, hr⟩ := hb (St.init Sched.seq)
    obtain ⟨f, hf⟩ := h (St.init Sched.seq)
    rw [hr] at hf; cases hf

theorem Ensures_and {α : Type} {m : M α} {P Q : α → Prop} (h : Ensures m P) (g : Ensures m Q) :
    Ensures m fun a => P a ∧ Q a := fun s a s' e => ⟨h s a s' e, g s a s' e⟩

/-- single samples, digits, and a past satisfying `P` -/
structure Good (P : Term → Prop) (x : Ctxt Term) : Prop where
  fresh : Fresh x
  past : Past P x
  wf : WellFormed x

variable {P : Term → Prop} {x y : Ctxt Term}

/-- what must hold of `P`: all terms of linear weight at most `tolWeight` have it -/
def Covers (pc : Cloud) (P : Term → Prop) : Prop := ∀ t, L1 t.mult (tolWeight pc.params.quadWeight) → P t

theorem tolWeight_ge (q : Nat) : 8 ≤ tolWeight q := by
  unfold tolWeight; split <;> [decide; split <;> decide]

theorem Covers.le (h : Covers pc P) {k : Nat} (hk : k ≤ 8) : ∀ t, L1 t.mult k → P t :=
  fun t ht => h t (ht.mono (by have := tolWeight_ge pc.params.quadWeight; omega))

theorem Good.now (hP : Covers pc P) (h : Good P x) (i : Nat) : Now P (wd x i) :=
  ⟨h.past i, fun t e => hP.le (k := 1) (by decide) t ((h.fresh i).l1.of_ct e)⟩

theorem good_addSub (st : Setting S ck pc B D) (hP : Covers pc P) (isAdd : Bool) (hx : Good P x) (hy : Good P y) :
    Ensures (addSubImpl freeScheme isAdd pc x y true) (Good P) := by
  have h1 := addSub_L1 (hP.le (k := 8) (by decide)) pc isAdd hx.fresh hy.fresh hx.past hy.past
  obtain ⟨vx, tx⟩ := twin_valid st hx.wf
  obtain ⟨vy, ty⟩ := twin_valid st hy.wf
  have h2 := wf_op ((schemeRel_true freeScheme S).addSubImpl pc isAdd true (twin_rel (ck := ck) x) (twin_rel (ck := ck) y))
    (addSub_spec st isAdd true tx ty) fun z h => ⟨_, h.1⟩
  exact (Ensures_and h1 h2).mono fun z h => ⟨h.1.1, h.1.2, h.2⟩

theorem good_add (st : Setting S ck pc B D) (hP : Covers pc P) (hx : Good P x) (hy : Good P y) :
    Ensures (ctAdd freeScheme pc x y) (Good P) := (good_addSub st hP true hx hy).call

theorem good_sub (st : Setting S ck pc B D) (hP : Covers pc P) (hx : Good P x) (hy : Good P y) :
    Ensures (ctSub freeScheme pc x y) (Good P) := (good_addSub st hP false hx hy).call

theorem group_covers (hP : Covers pc P) {r : Ctxt Term} (fr : Fresh r) (j : Nat) (f : Term → Int) (b : Word Term)
    (hf : TopForm pc (wd r (4 * j + 3)) f)
    (hb : ∀ a, wm b a = f a + (1 * wm (wd r (4 * j)) a + (2 * wm (wd r (4 * j + 1)) a + 4 * wm (wd r (4 * j + 2)) a)))
    (t : Term) (e : b.ct = .ct t) : P t := by
  refine hP t (((group_L1 fr j hf hb).mono ?_).of_ct e)
  unfold tolWeight
  split
  · exact Nat.le_refl _
  · split <;> decide

theorem good_sgn (st : Setting S ck pc B D) (hP : Covers pc P) (hx : Good P x) :
    Ensures (ctSgn freeScheme pc x) (Good P) := by
  have h1 := (sgn_now (pc := pc) (hP.le (by decide)) (hx.now hP) hx.fresh (group_covers hP hx.fresh)).call
  obtain ⟨vx, tx⟩ := twin_valid st hx.wf
  have h2 := wf_op ((schemeRel_true freeScheme S).ctSgn pc (twin_rel (ck := ck) x)) (ctSgn_valid st tx) fun z h => ⟨_, h.1⟩
  exact (Ensures_and h1 h2).mono fun z h => ⟨h.1.2.1, h.1.1, h.2⟩

theorem good_maxImpl (st : Setting S ck pc B D) (hP : Covers pc P) (hx : Good P x) (hy : Good P y) :
    Ensures (maxImpl freeScheme pc x y) (Good P) := by
  have h1 : Ensures (maxImpl freeScheme pc x y) fun z => Past P z ∧ Fresh z := by
    refine max_now (hP.le (by decide)) hx.past hy.past hx.fresh hy.fresh ?_ ?_
    · exact (good_sub st hP hx hy).mono fun r hr => ⟨hr.past, hr.fresh, group_covers hP hr.fresh⟩
    · intro hq i g b hg _ hb t e
      refine hP t (L1.of_ct ?_ e)
      refine ((((hy.fresh i).l1.scale 6).add ((hx.fresh i).l1.scale 2)).add hg.l1).congr hb |>.mono ?_
      unfold tolWeight
      rw [if_pos hq]
      split <;> decide
  obtain ⟨vx, tx⟩ := twin_valid st hx.wf
  obtain ⟨vy, ty⟩ := twin_valid st hy.wf
  have h2 := wf_op ((schemeRel_true freeScheme S).maxImpl pc (twin_rel (ck := ck) x) (twin_rel (ck := ck) y))
    (maxImpl_valid st tx ty) fun z h => ⟨_, h.1⟩
  exact (Ensures_and h1 h2).mono fun z h => ⟨h.1.2, h.1.1, h.2⟩

theorem good_nil : Good P ([] : Ctxt Term) := ⟨gen_nil.fresh, past_nil, fun w hw => by simp at hw⟩

theorem Good.opp (hx : Good P x) : Good P (oppositeImpl freeScheme x) := by
  refine ⟨hx.fresh.opp, hx.past.opp, fun w hw => ?_⟩
  simp only [oppositeImpl, List.mem_map] at hw
  obtain ⟨v, hv, rfl⟩ := hw
  obtain ⟨h1, h2⟩ := hx.wf v hv
  obtain ⟨c, m⟩ := v
  cases c with
  | ct c => exact ⟨h1, fun p e => by cases e⟩
  | triv p =>
    refine ⟨h1, fun p' e => ?_⟩
    cases e
    obtain ⟨d, hd, hp⟩ := h2 p rfl
    refine ⟨-d, by omega, ?_⟩
    rw [hp, neg_mul, BitVec.ofInt_neg]

theorem wf_append {C : Type} {x y : Ctxt C} (hx : WellFormed x) (hy : WellFormed y) : WellFormed (x ++ y) := by
  intro w hw
  rw [List.mem_append] at hw
  exact hw.elim (hx w) (hy w)

theorem wf_triv (hm : pc.msgMod = 32) (n : Nat) : WellFormed (List.replicate n (encryptWordTriv Term pc 0)) := by
  intro w hw
  simp only [List.mem_replicate] at hw
  rw [hw.2]
  refine ⟨hm, fun p e => ⟨0, by simp, ?_⟩⟩
  simp only [encryptWordTriv, CtWord.triv.injEq] at e
  rw [← e]; simp [miToPt, miToMu]

theorem Good.shift (hm : pc.msgMod = 32) (hx : Good P x) (k : Nat) : Good P (ctShift pc x k) := by
  refine ⟨hx.fresh.shift k, hx.past.shift k, ?_⟩
  unfold ctShift
  split
  · exact hx.wf
  · exact wf_append (wf_triv hm k) hx.wf

theorem Good.take (hx : Good P x) (k : Nat) : Good P (x.take k) :=
  ⟨hx.fresh.take k, hx.past.take k, fun w hw => hx.wf w (List.mem_of_mem_take hw)⟩
theorem Good.drop (hx : Good P x) (k : Nat) : Good P (x.drop k) :=
  ⟨hx.fresh.drop k, hx.past.drop k, fun w hw => hx.wf w (List.mem_of_mem_drop hw)⟩

/-- goodness is a property of the words -/
theorem good_iff : Good P x ↔ ∀ w ∈ x, One (wm w) ∧ Hist P w ∧ (w.msgMod = 32 ∧ ∀ p, w.ct = .triv p →
    ∃ d : Int, (d = -1 ∨ d = 0 ∨ d = 1) ∧ p = BitVec.ofInt 64 (d * 2 ^ 59)) := by
  constructor
  · intro h w hw
    refine ⟨?_, past_iff.1 h.past w hw, h.wf w hw⟩
    obtain ⟨i, hi, rfl⟩ := List.mem_iff_getElem.1 hw
    have := h.fresh i
    rwa [wd_lt hi] at this
  · intro h
    refine ⟨fun i => ?_, past_iff.2 fun w hw => (h w hw).2.1, fun w hw => (h w hw).2.2⟩
    by_cases hi : i < x.length
    · rw [wd_lt hi]; exact (h _ (List.getElem_mem _)).1
    · rw [wm_triv (wd_ge_triv (by omega))]; exact One.zero

theorem Good.append (hx : Good P x) (hy : Good P y) : Good P (x ++ y) := by
  rw [good_iff] at *
  intro w hw
  rw [List.mem_append] at hw
  exact hw.elim (hx w) (hy w)

theorem good_triv (hm : pc.msgMod = 32) (n : Nat) : Good P (List.replicate n (encryptWordTriv Term pc 0)) := by
  rw [good_iff]
  intro w hw
  have := wf_triv hm n w hw
  simp only [List.mem_replicate] at hw
  rw [hw.2] at this ⊢
  exact ⟨One.zero, Hist.triv rfl, this⟩

theorem good_round (st : Setting S ck pc B D) (hP : Covers pc P) (hx : Good P x) (pos : Nat) :
    Ensures (ctRoundAt freeScheme pc x pos) (Good P) := by
  have h1 : Ensures (roundAtImpl freeScheme pc x pos) fun z => Past P z ∧ Fresh z := by
    refine round_now (hP.le (by decide)) hx.past hx.fresh pos
      ((good_sgn st hP (hx.take _)).mono fun s hs => ⟨hs.past, hs.fresh⟩) ?_
    intro w hw ow _
    refine (addSub_L1 (hP.le (k := 8) (by decide)) pc true ((hx.fresh.drop pos).shift pos) (fun i => ?_)
      ((hx.past.drop pos).shift pos) (fun i => ?_)).call.mono fun z hz => ⟨hz.2, hz.1⟩
    · rcases wd_top (pc := pc) pos w i with e | e
      · rw [e]; exact ow
      · rw [wm_triv e]; exact One.zero
    · rcases wd_top (pc := pc) pos w i with e | e
      · rw [e]; exact hw
      · exact Hist.triv e
  obtain ⟨vx, tx⟩ := twin_valid st hx.wf
  have h2 := wf_op ((schemeRel_true freeScheme S).ctRoundAt pc (twin_rel (ck := ck) x) pos) (ctRoundAt_valid st tx pos)
    fun z h => ⟨_, h.1⟩
  exact (Ensures_and h1.call h2).mono fun z h => ⟨h.1.2, h.1.1, h.2⟩

theorem wrap_digit {pc : Cloud} (hm : pc.msgMod = 32) (hb : pc.params.bitPrecision = 5) (c e : Prop) [Decidable c] [Decidable e] :
    ∃ d : Int, (d = -1 ∨ d = 0 ∨ d = 1) ∧
      miToPt pc.msgMod (wrapI32 ((if c then 0 else if e then 1 else pc.params.plaintextMask : Nat) : Int)) =
        BitVec.ofInt 64 (d * 2 ^ 59) := by
  unfold Params.plaintextMask
  rw [hm, hb]
  by_cases hc : c
  · exact ⟨0, by simp, by simp only [hc, if_true]; decide⟩
  · by_cases he : e
    · exact ⟨1, by simp, by simp only [hc, he, if_true, if_false]; decide⟩
    · exact ⟨-1, by simp, by simp only [hc, he, if_false]; decide⟩

theorem good_addConst (st : Setting S ck pc B D) (hP : Covers pc P) (hx : Good P x) (k : Int) :
    Ensures (ctAddConst freeScheme pc x k) (Good P) := by
  unfold ctAddConst addConstImpl
  refine Ensures.call (Ensures.ite (fun _ => Ensures.pure hx) fun _ => ?_)
  refine (Ensures.trivial _).bind fun kAbs _ => good_add st hP hx ?_
  rw [good_iff]
  intro w hw
  simp only [List.mem_map] at hw
  obtain ⟨i, _, rfl⟩ := hw
  refine ⟨One.zero, Hist.triv rfl, st.msgMod, fun p e => ?_⟩
  simp only [encryptWordTriv, CtWord.triv.injEq] at e
  rw [← e]
  exact wrap_digit st.msgMod st.bitPrecision _ _

/-! ### Multiplication -/

theorem One.digit {f : Term → Int} (h : One f) {d : Int} (hd : d = -1 ∨ d = 0 ∨ d = 1) : One fun a => d * f a := by
  obtain ⟨a, h1, h2⟩ := h
  refine ⟨a, ?_, fun b hb => by simp [h2 b hb]⟩
  rcases hd with rfl | rfl | rfl <;> simp <;> omega

theorem triv_decrypt {w : Word Term} (h : w.msgMod = 32 ∧ ∀ p, w.ct = .triv p →
    ∃ d : Int, (d = -1 ∨ d = 0 ∨ d = 1) ∧ p = BitVec.ofInt 64 (d * 2 ^ 59)) (ht : w.isTriv = true) :
    Ensures (decryptMi (S := freeScheme) none w) fun d => d = -1 ∨ d = 0 ∨ d = 1 := by
  obtain ⟨c, m⟩ := w
  cases c with
  | ct c => cases ht
  | triv p =>
    obtain ⟨h1, h2⟩ := h
    obtain ⟨d, hd, rfl⟩ := h2 p rfl
    simp only at h1
    subst h1
    unfold decryptMi decryptMu
    refine Ensures.bind (P := fun mu => mu = ptToMu 32 (BitVec.ofInt 64 (d * 2 ^ 59))) (Ensures.pure rfl) ?_
    rintro mu rfl
    refine Ensures.pure ?_
    rcases hd with rfl | rfl | rfl <;> decide

theorem good_mulLwe (hP : Covers pc P) {u v : Word Term}
    (hu : One (wm u) ∧ Hist P u ∧ (u.msgMod = 32 ∧ ∀ p, u.ct = .triv p →
      ∃ d : Int, (d = -1 ∨ d = 0 ∨ d = 1) ∧ p = BitVec.ofInt 64 (d * 2 ^ 59)))
    (hv : One (wm v) ∧ Hist P v ∧ (v.msgMod = 32 ∧ ∀ p, v.ct = .triv p →
      ∃ d : Int, (d = -1 ∨ d = 0 ∨ d = 1) ∧ p = BitVec.ofInt 64 (d * 2 ^ 59))) :
    Ensures (mulLwe freeScheme pc u v) fun z => One (wm z) ∧ Hist P z := by
  unfold mulLwe
  refine Ensures.ite (fun ht => (triv_decrypt hu.2.2 ht).bind fun d hd => Ensures.pure ⟨?_, hv.2.1.mulConst d⟩) fun _ => ?_
  · exact (hv.1.digit hd).congr fun a => wm_mulConst _ _ (by rcases hd with rfl | rfl | rfl <;> decide) a
  refine Ensures.ite (fun ht => (triv_decrypt hv.2.2 ht).bind fun d hd => Ensures.pure ⟨?_, hu.2.1.mulConst d⟩) fun _ => ?_
  · exact (hu.1.digit hd).congr fun a => wm_mulConst _ _ (by rcases hd with rfl | rfl | rfl <;> decide) a
  refine lutUint.mono fun z hz => ⟨hz.one, hz.hist ((hu.2.1.mulConst 3).add hv.2.1) fun t e => ?_⟩
  refine hP.le (k := 4) (by decide) t (L1.of_ct ?_ e)
  exact ((hu.1.l1.scale 3).add hv.1.l1).congr fun a => by rw [wm_add, wm_mulConst _ _ (by decide)]

/-- single samples with a past satisfying `P` -/
def Fine (P : Term → Prop) (x : Ctxt Term) : Prop := Fresh x ∧ Past P x

theorem fine_iff : Fine P x ↔ ∀ w ∈ x, One (wm w) ∧ Hist P w := by
  constructor
  · rintro ⟨h1, h2⟩ w hw
    refine ⟨?_, past_iff.1 h2 w hw⟩
    obtain ⟨i, hi, rfl⟩ := List.mem_iff_getElem.1 hw
    have := h1 i
    rwa [wd_lt hi] at this
  · intro h
    refine ⟨fun i => ?_, past_iff.2 fun w hw => (h w hw).2⟩
    by_cases hi : i < x.length
    · rw [wd_lt hi]; exact (h _ (List.getElem_mem _)).1
    · rw [wm_triv (wd_ge_triv (by omega))]; exact One.zero

theorem fine_add (hP : Covers pc P) (hx : Fine P x) (hy : Fine P y) : Ensures (ctAdd freeScheme pc x y) (Fine P) :=
  (addSub_L1 (hP.le (k := 8) (by decide)) pc true hx.1 hy.1 hx.2 hy.2).call

theorem fine_fillMulary (hP : Covers pc P) (hx : Good P x) (hy : Good P y) :
    Ensures (fillMulary freeScheme pc x y) fun m => ∀ row ∈ m, Fine P row := by
  unfold fillMulary
  refine Ensures.ite (fun _ => Ensures.panic _) fun _ => ?_
  refine (Ensures.parFor (P := fun _ row => Fine P row) ?_).mono ?_
  · intro j hj
    refine Ensures.idx.bind fun yj ⟨h1, e1⟩ => ?_
    have gy : yj ∈ y := by rw [← e1]; exact List.getElem_mem _
    refine (Ensures.parFor (P := fun _ z => One (wm z) ∧ Hist P z) ?_).bind ?_
    · intro i hi
      refine Ensures.idx.bind fun xi ⟨h2, e2⟩ => ?_
      have gx : xi ∈ x := by rw [← e2]; exact List.getElem_mem _
      exact (good_mulLwe hP (good_iff.1 hx xi gx) (good_iff.1 hy yj gy)).expect
    · rintro mid ⟨_, hm⟩
      refine Ensures.pure (fine_iff.2 fun w hw => ?_)
      have tr : ∀ w ∈ trivCt Term pc (2 * x.length), One (wm w) ∧ Hist P w := by
        intro w hw
        simp only [trivCt, List.mem_replicate] at hw
        rw [hw.2]; exact ⟨One.zero, Hist.triv rfl⟩
      simp only [List.getElem_replicate, List.mem_append] at hw
      rcases hw with (hw | hw) | hw
      · exact tr w (List.mem_of_mem_take hw)
      · obtain ⟨i, hi, rfl⟩ := List.mem_iff_getElem.1 hw
        exact hm i hi
      · exact tr w (List.mem_of_mem_drop hw)
  · rintro m ⟨_, hm⟩ row hrow
    obtain ⟨i, hi, rfl⟩ := List.mem_iff_getElem.1 hrow
    exact hm i hi

theorem fine_reduceLoop (hP : Covers pc P) : ∀ (rows : List (Ctxt Term)) {cur other : Ctxt Term},
    (∀ row ∈ rows, Fine P row) → Fine P cur → Ensures (reduceLoop freeScheme pc rows cur other) (Fine P)
  | [], cur, other, _, h => Ensures.pure h
  | row :: rows, cur, other, hr, h => by
    unfold reduceLoop
    exact (fine_add hP h (hr row (by simp))).bind fun z hz =>
      fine_reduceLoop hP rows (fun r hm => hr r (by simp [hm])) hz

theorem fine_reduce (hP : Covers pc P) {rows : List (Ctxt Term)} (hr : ∀ row ∈ rows, Fine P row) :
    Ensures (reduceMulsquary freeScheme pc rows) (Fine P) := by
  unfold reduceMulsquary
  refine Ensures.idx.bind fun m0 ⟨_, e0⟩ => Ensures.idx.bind fun m1 ⟨_, e1⟩ => ?_
  refine (fine_add hP (hr m0 (by rw [← e0]; exact List.getElem_mem _))
    (hr m1 (by rw [← e1]; exact List.getElem_mem _))).bind fun z hz => ?_
  exact fine_reduceLoop hP _ (fun row h => hr row (List.mem_of_mem_drop h)) hz

theorem fine_mulSchoolbook (hP : Covers pc P) (hx : Good P x) (hy : Good P y) :
    Ensures (mulSchoolbook freeScheme pc x y) (Fine P) := by
  unfold mulSchoolbook
  exact (fine_fillMulary hP hx hy).bind fun m hm => fine_reduce hP hm

theorem fine_mul1word (hP : Covers pc P) (hx : Good P x) (hy : Good P y) :
    Ensures (mul1word freeScheme pc x y) (Fine P) := by
  unfold mul1word
  refine (fine_fillMulary hP hx hy).bind fun m hm => Ensures.idx.mono ?_
  rintro row ⟨_, rfl⟩
  exact hm _ (List.getElem_mem _)

theorem Fine.opp (hx : Fine P x) : Fine P (x.map (Word.opp freeScheme)) := ⟨Fresh.opp hx.1, Past.opp hx.2⟩

theorem Fine.append (hx : Fine P x) (hy : Fine P y) : Fine P (x ++ y) := by
  rw [fine_iff] at *
  intro w hw
  rw [List.mem_append] at hw
  exact hw.elim (hx w) (hy w)

theorem fine_triv (n : Nat) : Fine P (trivCt Term pc n) := by
  rw [fine_iff]
  intro w hw
  simp only [trivCt, List.mem_replicate] at hw
  rw [hw.2]; exact ⟨One.zero, Hist.triv rfl⟩

theorem Good.fine (h : Good P x) : Fine P x := ⟨h.fresh, h.past⟩

theorem Fine.shift (h : Fine P x) (k : Nat) : Fine P (ctShift pc x k) := ⟨h.1.shift k, h.2.shift k⟩

theorem fine_karatsuba (st : Setting S ck pc B D) (hP : Covers pc P) {f : Ctxt Term → Ctxt Term → M (Ctxt Term)}
    (hf : ∀ a b, Good P a → Good P b → Ensures (f a b) (Fine P)) (hx : Good P x) (hy : Good P y) :
    Ensures (mulKaratsuba freeScheme pc f x y) (Fine P) := by
  unfold mulKaratsuba
  refine Ensures.ite (fun _ => Ensures.panic _) fun _ => ?_
  refine Ensures.bind (Ensures.par2 (P := fun r => Fine P r.1 ∧ Fine P r.2.1 ∧ Fine P r.2.2) (Q := Fine P) ?_ ?_) ?_
  · refine (Ensures.par2 (hf _ _ (hx.drop _) (hy.drop _)) (hf _ _ (hx.take _) (hy.take _))).bind ?_
    rintro ⟨a, b⟩ ⟨ha, hb⟩
    refine (fine_add hP ha hb).bind fun z hz => Ensures.pure ⟨ha, hb, (fine_triv _).append hz.opp⟩
  · refine (Ensures.par2 (good_add st hP (hx.take _) (hx.drop _)) (good_add st hP (hy.take _) (hy.drop _))).bind ?_
    rintro ⟨a, b⟩ ⟨ha, hb⟩
    exact (hf _ _ ha hb).bind fun z hz => Ensures.pure ((fine_triv _).append hz)
  · rintro ⟨⟨a, b, naNb⟩, c⟩ ⟨⟨ha, hb, hn⟩, hc⟩
    refine (fine_add hP hc hn).bind fun z hz => ?_
    refine Ensures.ite (fun _ => fine_add hP (hb.append ha) hz) fun _ => ?_
    exact (fine_add hP hb hz).bind fun w hw => fine_add hP (ha.shift _) hw

theorem fine_mulImpl (st : Setting S ck pc B D) (hP : Covers pc P) : ∀ (fuel : Nat) {x y : Ctxt Term}, Good P x → Good P y →
    Ensures (mulImpl freeScheme pc fuel x y) (Fine P) := by
  intro fuel
  induction fuel with
  | zero =>
    intro x y hx hy
    have hxa : Good P (mulAlign freeScheme pc x y).1 := hx.append (good_triv st.msgMod _)
    have hya : Good P (mulAlign freeScheme pc x y).2 := hy.append (good_triv st.msgMod _)
    unfold mulImpl
    refine Ensures.ite (fun _ => Ensures.pure good_nil.fine) fun _ => Ensures.ite (fun _ => fine_mul1word hP hxa hya) fun _ =>
      Ensures.ite (fun _ => fine_mulSchoolbook hP hxa hya) fun _ => Ensures.ite (fun _ => Ensures.panic _) fun _ => Ensures.err _
  | succ fuel ih =>
    intro x y hx hy
    have hxa : Good P (mulAlign freeScheme pc x y).1 := hx.append (good_triv st.msgMod _)
    have hya : Good P (mulAlign freeScheme pc x y).2 := hy.append (good_triv st.msgMod _)
    unfold mulImpl
    refine Ensures.ite (fun _ => Ensures.pure good_nil.fine) fun _ => Ensures.ite (fun _ => fine_mul1word hP hxa hya) fun _ =>
      Ensures.ite (fun _ => fine_mulSchoolbook hP hxa hya) fun _ => Ensures.ite (fun _ => ?_) fun _ => Ensures.err _
    exact fine_karatsuba st hP (fun a b ha hb => (ih ha hb).call) hxa hya

theorem good_mul (st : Setting S ck pc B D) (hP : Covers pc P) (hx : Good P x) (hy : Good P y) :
    Ensures (ctMul freeScheme pc x y) (Good P) := by
  by_cases h32 : max x.length y.length ≤ 32
  · obtain ⟨vx, tx⟩ := twin_valid st hx.wf
    obtain ⟨vy, ty⟩ := twin_valid st hy.wf
    have h2 := wf_op ((schemeRel_true freeScheme S).ctMul pc (twin_rel (ck := ck) x) (twin_rel (ck := ck) y))
      (ctMul_valid st tx ty (by simpa [twin] using h32)) fun z h => ⟨_, h.1⟩
    exact (Ensures_and (fine_mulImpl st hP mulFuel hx hy).call h2).mono fun z h => ⟨h.1.1, h.1.2, h.2⟩
  · refine Ensures.call ?_
    have hl : (mulAlign freeScheme pc x y).1.length = max x.length y.length := by
      simp [mulAlign]; omega
    unfold mulImpl
    refine Ensures.ite (fun h => by simp only [mulAlign] at hl; rw [hl] at h; omega) fun _ => Ensures.ite (fun h => by simp only [mulAlign] at hl; rw [hl] at h; omega) fun _ =>
      Ensures.ite (fun h => by simp only [mulAlign] at hl; rw [hl] at h; omega) fun _ => Ensures.ite (fun h => by simp only [mulAlign] at hl; rw [hl] at h; omega) fun _ => Ensures.err _

/-! ### Squaring -/

theorem fine_squ23 (hP : Covers pc P) (hx : Good P x) : Ensures (squ23word freeScheme pc x) (Fine P) := by
  unfold squ23word
  refine Ensures.ite (fun _ => Ensures.panic _) fun _ => ?_
  have fx := hx.fresh
  have px := hx.past
  refine Ensures.bind (P := fun v => Hist P v ∧ L1 (wm v) 7) ?_ ?_
  · refine Ensures.ite (fun _ => ?_) fun _ => ?_
    · refine Ensures.idx.bind fun x1 ⟨h1, e1⟩ => Ensures.idx.bind fun x0 ⟨h0, e0⟩ => Ensures.pure ?_
      rw [← wd_lt h1] at e1
      rw [← wd_lt h0] at e0
      subst e1 e0
      refine ⟨((px 1).mulConst 2).add (px 0), L1.mono (B := 3) ?_ (by decide)⟩
      refine (((fx 1).l1.scale 2).add (fx 0).l1).congr fun a => ?_
      rw [wm_add, wm_mulConst _ _ (by decide)]
    · refine Ensures.idx.bind fun x2 ⟨h2, e2⟩ => Ensures.idx.bind fun x1 ⟨h1, e1⟩ =>
        Ensures.idx.bind fun x0 ⟨h0, e0⟩ => Ensures.pure ?_
      rw [← wd_lt h2] at e2
      rw [← wd_lt h1] at e1
      rw [← wd_lt h0] at e0
      subst e2 e1 e0
      refine ⟨((((px 2).mulConst 2).add (px 1)).mulConst 2).add (px 0), ?_⟩
      refine ((((fx 2).l1.scale 4).add ((fx 1).l1.scale 2)).add (fx 0).l1).congr fun a => ?_
      rw [wm_add, wm_mulConst _ _ (by decide), wm_add, wm_mulConst _ _ (by decide)]; ring
  · rintro v ⟨hv, qv⟩
    refine (Ensures.parFor (P := fun _ z => One (wm z) ∧ Hist P z) ?_).bind ?_
    · intro i hi
      have hl : ∀ lut, Ensures (evalLut5Uint freeScheme pc v lut) (fun z => One (wm z) ∧ Hist P z) := fun lut =>
        lutUint.mono fun z hz => ⟨hz.one, hz.hist hv fun t e => hP.le (k := 7) (by decide) t (qv.of_ct e)⟩
      unfold pbsSqu3
      split
      · exact hl _
      · exact Ensures.pure ⟨One.zero, Hist.triv rfl⟩
      · exact hl _
      · exact hl _
      · exact hl _
      · exact hl _
      · exact Ensures.panic _
    · rintro res ⟨_, hr⟩
      have hmem : ∀ w ∈ res, One (wm w) ∧ Hist P w := by
        intro w hw
        obtain ⟨i, hi, rfl⟩ := List.mem_iff_getElem.1 hw
        exact hr i hi
      refine Ensures.idx.bind fun r0 ⟨h0, e0⟩ => Ensures.pure (fine_iff.2 fun w hw => ?_)
      simp only [List.mem_cons] at hw
      rcases hw with rfl | rfl | hw
      · rw [← e0]; exact hmem _ (List.getElem_mem _)
      · exact ⟨One.zero, Hist.triv rfl⟩
      · exact hmem w (List.mem_of_mem_drop hw)

theorem fine_squ1 (hP : Covers pc P) (hx : Good P x) : Ensures (squ1word freeScheme pc x) (Fine P) := by
  unfold squ1word
  refine Ensures.idx.bind fun x0 ⟨h0, e0⟩ => ?_
  rw [← wd_lt h0] at e0
  subst e0
  refine lutUint.bind fun z hz => Ensures.pure (fine_iff.2 fun w hw => ?_)
  simp only [singleCt, List.mem_singleton] at hw
  subst hw
  exact ⟨hz.one, hz.hist (hx.past 0) fun t e => hP.le (k := 1) (by decide) t ((hx.fresh 0).l1.of_ct e)⟩

theorem fine_squDnq (st : Setting S ck pc B D) (hP : Covers pc P) {f : Ctxt Term → M (Ctxt Term)}
    (hf : ∀ a, Good P a → Ensures (f a) (Fine P)) (hx : Good P x) : Ensures (squDnq freeScheme pc f x) (Fine P) := by
  unfold squDnq
  refine (Ensures.par3 (hf _ (hx.drop _)) (hf _ (hx.take _)) (R := Fine P) ?_).bind ?_
  · exact (good_mul st hP (hx.take _) (hx.drop _)).bind fun z hz => Ensures.pure (hz.fine.shift _)
  · rintro ⟨a, b, c⟩ ⟨ha, hb, hc⟩
    refine Ensures.ite (fun _ => fine_add hP (hb.append ha) hc) fun _ => ?_
    exact (fine_add hP hb hc).bind fun w hw => fine_add hP (ha.shift _) hw

theorem fine_squImpl (st : Setting S ck pc B D) (hP : Covers pc P) : ∀ (fuel : Nat) {x : Ctxt Term}, Good P x →
    Ensures (squImpl freeScheme pc fuel x) (Fine P) := by
  intro fuel
  induction fuel with
  | zero =>
    intro x hx
    unfold squImpl
    exact Ensures.ite (fun _ => Ensures.pure good_nil.fine) fun _ => Ensures.ite (fun _ => fine_squ1 hP hx) fun _ =>
      Ensures.ite (fun _ => fine_squ23 hP hx) fun _ => Ensures.ite (fun _ => Ensures.panic _) fun _ => Ensures.err _
  | succ fuel ih =>
    intro x hx
    unfold squImpl
    exact Ensures.ite (fun _ => Ensures.pure good_nil.fine) fun _ => Ensures.ite (fun _ => fine_squ1 hP hx) fun _ =>
      Ensures.ite (fun _ => fine_squ23 hP hx) fun _ => Ensures.ite (fun _ => fine_squDnq st hP (fun a ha => (ih ha).call) hx)
      fun _ => Ensures.err _

theorem good_squ (st : Setting S ck pc B D) (hP : Covers pc P) (hx : Good P x) :
    Ensures (ctSqu freeScheme pc x) (Good P) := by
  by_cases h32 : x.length ≤ 32
  · obtain ⟨vx, tx⟩ := twin_valid st hx.wf
    have h2 := wf_op ((schemeRel_true freeScheme S).ctSqu pc (twin_rel (ck := ck) x))
      (ctSqu_valid st tx (by simpa [twin] using h32)) fun z h => ⟨_, h.1⟩
    exact (Ensures_and (fine_squImpl st hP mulFuel hx).call h2).mono fun z h => ⟨h.1.1, h.1.2, h.2⟩
  · refine Ensures.call ?_
    unfold squImpl
    exact Ensures.ite (fun h => by omega) fun _ => Ensures.ite (fun h => by omega) fun _ =>
      Ensures.ite (fun h => by omega) fun _ => Ensures.ite (fun h => by omega) fun _ => Ensures.err _

/-! ### Scalar multiplication -/

theorem good_ascLoop (st : Setting S ck pc B D) (hP : Covers pc P) : ∀ (c : Asc) {vals : List (Ctxt Term)},
    (∀ v ∈ vals, Good P v) → Ensures (ascLoop (ascArith freeScheme pc) c vals) fun r => ∀ v ∈ r, Good P v
  | [], vals, h => Ensures.pure h
  | e :: es, vals, h => by
    unfold ascLoop
    refine Ensures.bind (P := fun r => ∀ v ∈ r, Good P v) ?_ fun r hr => good_ascLoop st hP es hr
    unfold ascStep
    refine Ensures.idx.bind fun l ⟨_, el⟩ => ?_
    have hl : Good P l := by rw [← el]; exact h _ (List.getElem_mem _)
    refine Ensures.bind (P := fun v => Good P v) (Ensures.pure hl.opp) fun nl hnl => ?_
    refine Ensures.idx.bind fun r ⟨_, er⟩ => ?_
    have hr : Good P r := by rw [← er]; exact h _ (List.getElem_mem _)
    refine Ensures.bind (P := fun v => Good P v) (Ensures.pure (hr.shift st.msgMod _)) fun rs hrs => ?_
    refine Ensures.bind (P := fun v => Good P v) (Ensures.pure hrs.opp) fun nr hnr => ?_
    refine Ensures.bind (P := fun v => Good P v) (good_add st hP ?_ ?_) fun z hz => Ensures.pure ?_
    · split
      · exact hl
      · exact hnl
    · split
      · exact hrs
      · exact hnr
    · intro v hv
      rw [List.mem_append, List.mem_singleton] at hv
      rcases hv with hv | rfl
      · exact h v hv
      · exact hz

theorem good_ascEval (st : Setting S ck pc B D) (hP : Covers pc P) (c : Asc) (hx : Good P x) :
    Ensures (ascEval (ascArith freeScheme pc) c x) (Good P) := by
  unfold ascEval
  refine (good_ascLoop st hP c (vals := [x]) (by simpa using hx)).bind fun r hr => ?_
  split
  · rename_i v e
    exact Ensures.pure (hr v (List.mem_of_getLast? e))
  · exact Ensures.panic _

theorem Ensures_mapIdx {V : Type} {m : List (Nat × V)} {k : Nat} :
    Ensures (mapIdx m k) fun v => ∃ k', (k', v) ∈ m := by
  unfold mapIdx mapGet?
  cases h : m.find? fun e => e.1 == k with
  | none => exact Ensures.panic _
  | some e => exact Ensures.pure ⟨e.1, List.mem_of_find?_eq_some h⟩

theorem good_reduceLoop (st : Setting S ck pc B D) (hP : Covers pc P) : ∀ (rows : List (Ctxt Term)) {cur other : Ctxt Term},
    (∀ row ∈ rows, Good P row) → Good P cur → Ensures (reduceLoop freeScheme pc rows cur other) (Good P)
  | [], cur, other, _, h => Ensures.pure h
  | row :: rows, cur, other, hr, h => by
    unfold reduceLoop
    exact (good_add st hP h (hr row (by simp))).bind fun z hz =>
      good_reduceLoop st hP rows (fun r hm => hr r (by simp [hm])) hz

theorem good_reduce (st : Setting S ck pc B D) (hP : Covers pc P) {rows : List (Ctxt Term)} (hr : ∀ row ∈ rows, Good P row) :
    Ensures (reduceMulsquary freeScheme pc rows) (Good P) := by
  unfold reduceMulsquary
  refine Ensures.idx.bind fun m0 ⟨_, e0⟩ => Ensures.idx.bind fun m1 ⟨_, e1⟩ => ?_
  refine (good_add st hP (hr m0 (by rw [← e0]; exact List.getElem_mem _))
    (hr m1 (by rw [← e1]; exact List.getElem_mem _))).bind fun z hz => ?_
  exact good_reduceLoop st hP _ (fun row h => hr row (List.mem_of_mem_drop h)) hz

theorem good_scalarMul (st : Setting S ck pc B D) (hP : Covers pc P) (k : Int) (hx : Good P x) :
    Ensures (ctScalarMul freeScheme pc k x) (Good P) := by
  unfold ctScalarMul scalarMulImpl
  have hxp : Good P (if k ≥ 0 then x else x.map (Word.opp freeScheme)) := by
    split
    · exact hx
    · exact hx.opp
  refine Ensures.call ((Ensures.trivial _).bind fun kAbs _ => ?_)
  refine Ensures.ite (fun _ => Ensures.pure good_nil) fun _ => Ensures.ite (fun _ => Ensures.pure hxp) fun _ => ?_
  refine (Ensures.trivial _).bind fun ws _ => ?_
  refine (Ensures.parFor (P := fun _ kv => Good P kv.2) ?_).bind ?_
  · intro i hi
    exact (Ensures.trivial _).bind fun c _ => (good_ascEval st hP c hxp).expect.bind fun v hv => Ensures.pure hv
  · rintro map ⟨_, hm⟩
    have hm' : ∀ k' v, (k', v) ∈ map → Good P v := by
      intro k' v h
      obtain ⟨i, hi, e⟩ := List.mem_iff_getElem.1 h
      have := hm i hi
      rwa [e] at this
    refine (Ensures.seqFor (P := fun _ v => Good P v) ?_).bind ?_
    · intro i hi
      refine (Ensures.trivial _).bind fun wsi _ => Ensures_mapIdx.bind ?_
      rintro v ⟨k', hv⟩
      have hv := hm' k' v hv
      exact Ensures.ite (fun _ => Ensures.pure (hv.opp.shift st.msgMod _)) fun _ => Ensures.pure (hv.shift st.msgMod _)
    · rintro rows ⟨_, hr⟩
      have hr' : ∀ row ∈ rows, Good P row := by
        intro row h
        obtain ⟨i, hi, rfl⟩ := List.mem_iff_getElem.1 h
        exact hr i hi
      refine Ensures.ite (fun _ => Ensures.idx.mono ?_) fun _ => good_reduce st hP hr'
      rintro row ⟨_, rfl⟩
      exact hr' _ (List.getElem_mem _)

/-! ### Programs -/

theorem good_instr (st : Setting S ck pc B D) (hP : Covers pc P) {r : List (Ctxt Term)} (hr : ∀ x ∈ r, Good P x)
    (ins : Instr) : Ensures (ins.run (arithCt freeScheme pc) r) (Good P) := by
  have one : ∀ {f : Ctxt Term → M (Ctxt Term)} (i : Nat), (∀ x, Good P x → Ensures (f x) (Good P)) →
      Ensures (idx r i >>= f) (Good P) := by
    intro f i hf
    refine Ensures.idx.bind ?_
    rintro x ⟨_, rfl⟩
    exact hf _ (hr _ (List.getElem_mem _))
  cases ins with
  | zero => exact Ensures.pure good_nil
  | opp i => exact one i fun x hx => Ensures.pure hx.opp
  | shift i k => exact one i fun x hx => Ensures.pure (hx.shift st.msgMod k)
  | add i j => exact one i fun x hx => one j fun y hy => good_add st hP hx hy
  | sub i j => exact one i fun x hx => one j fun y hy => good_sub st hP hx hy
  | addConst i k => exact one i fun x hx => good_addConst st hP hx k
  | scalarMul k i =>
    refine one i fun x hx => ?_
    rw [arithCt_scalarMul]
    exact good_scalarMul st hP k hx
  | sgn i => exact one i fun x hx => good_sgn st hP hx
  | max i j => exact one i fun x hx => one j fun y hy => (good_maxImpl st hP hx hy).call
  | relu i => exact one i fun x hx => (good_maxImpl st hP good_nil hx).call
  | mul i j => exact one i fun x hx => one j fun y hy => good_mul st hP hx hy
  | squ i => exact one i fun x hx => good_squ st hP hx
  | roundAt i p => exact one i fun x hx => good_round st hP hx p

theorem good_prog (st : Setting S ck pc B D) (hP : Covers pc P) : ∀ (p : List Instr) {r : List (Ctxt Term)},
    (∀ x ∈ r, Good P x) → Ensures (runProg (arithCt freeScheme pc) p r) fun zs => ∀ z ∈ zs, Good P z
  | [], r, h => Ensures.pure h
  | i :: is, r, h => by
    unfold runProg
    refine (good_instr st hP h i).bind fun z hz => good_prog st hP is ?_
    intro x hx
    rw [List.mem_append, List.mem_singleton] at hx
    rcases hx with hx | rfl
    · exact h x hx
    · exact hz

end Wt
end Parm
