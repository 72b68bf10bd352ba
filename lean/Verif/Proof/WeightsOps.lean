import Verif.Proof.WeightsSgn
import Verif.Model.ScalarMul

/-!
# Quadratic weights of the operations on independent samples
-/

namespace Parm
namespace Wt

variable {P : Term → Prop} {pc : Cloud} {x y : Ctxt Term}

theorem independent_gen (h : Independent x) : Gen x := by
  have hw : ∀ i, (wd x i).isTriv = true ∨ ∃ k, (wd x i).ct = .ct (.input k) := by
    intro i
    by_cases hi : i < x.length
    · cases ht : (wd x i).isTriv with
      | true => exact .inl rfl
      | false =>
        right
        rw [wd_lt hi] at ht ⊢
        exact h.1 _ (List.getElem_mem _) ht
    · exact .inl (wd_ge_triv (by omega))
  refine ⟨fun i => ?_, fun i j hij => ?_, fun i acc t => ?_, fun i ht => ?_⟩
  · rcases hw i with ht | ⟨k, e⟩
    · rw [wm_triv ht]; exact One.zero
    · rw [wm_ct e]
      exact ⟨.input k, by simp [Term.mult], fun b hb => by simp [Term.mult, hb]⟩
  · rcases hw i with ht | ⟨k, e⟩
    · rw [wm_triv ht]; exact Disj.zero
    rcases hw j with ht | ⟨l, f⟩
    · rw [wm_triv ht]; exact Disj.zero.symm
    have hi : i < x.length := by
      by_contra hi; rw [wd_ge (by omega)] at e; cases e
    have hj : j < x.length := by
      by_contra hj; rw [wd_ge (by omega)] at f; cases f
    have hkl : k ≠ l := by
      rintro rfl
      rw [wd_lt hi] at e
      rw [wd_lt hj] at f
      exact hij (h.2 i j hi hj _ e f)
    intro a
    rw [wm_ct e, wm_ct f]
    simp only [Term.mult]
    by_cases ha : a = .input k
    · right; rw [if_neg]; rw [ha]; intro e; injection e with e; exact hkl e
    · left; rw [if_neg ha]
  · rcases hw i with ht | ⟨k, e⟩
    · rw [wm_triv ht]
    · rw [wm_ct e]; simp [Term.mult]
  · rcases hw i with ht' | ⟨k, e⟩
    · rw [ht'] at ht; cases ht
    · exact ⟨.input k, by rw [wm_ct e]; simp [Term.mult]⟩

theorem wd_append_left {i : Nat} (hi : i < x.length) : wd (x ++ y) i = wd x i := by
  rw [wd_lt (by simp; omega), List.getElem_append_left hi, wd_lt hi]

theorem wd_append_right (i : Nat) : wd (x ++ y) (x.length + i) = wd y i := by
  unfold wd
  simp only [List.getD]
  rw [List.getElem?_append_right (by omega)]
  simp

theorem independent_apart (h : Independent (x ++ y)) : Gen x ∧ Gen y ∧ Apart x y := by
  have g := independent_gen h
  refine ⟨independent_gen ⟨fun w hw => h.1 w (by simp [hw]), fun i j hi hj t e f => ?_⟩,
    independent_gen ⟨fun w hw => h.1 w (by simp [hw]), fun i j hi hj t e f => ?_⟩, fun i j => ?_⟩
  · exact h.2 i j (by simp; omega) (by simp; omega) t (by rwa [List.getElem_append_left hi])
      (by rwa [List.getElem_append_left hj])
  · have := h.2 (x.length + i) (x.length + j) (by simp; omega) (by simp; omega) t
      (by rw [List.getElem_append_right (by omega)]; simpa using e)
      (by rw [List.getElem_append_right (by omega)]; simpa using f)
    omega
  · by_cases hi : i < x.length
    · have := g.sep i (x.length + j) (by omega)
      rwa [wd_append_left hi, wd_append_right] at this
    · rw [wm_triv (wd_ge_triv (by omega))]; exact Disj.zero

theorem independent_past (h : Independent x) : Past P x := by
  rw [past_iff]
  intro w hw t e
  obtain ⟨i, hi⟩ := h.1 w hw (not_triv_of_ct e)
  rw [e] at hi
  injection hi with hi
  subst hi
  intro u hu
  simp [Term.booted] at hu

theorem Past.all {z : Ctxt Term} (h : Past P z) : AllBooted P z := fun w hw => past_iff.1 h w hw

/-- addition when all words of both operands are different samples -/
theorem addSub_joint (hP : ∀ t, Q2 t.mult 22 → P t) (pc : Cloud) (isAdd : Bool) (hx : Fresh x) (hy : Fresh y)
    (sx : Sep x) (sy : Sep y) (sxy : Apart x y) (px : Past P x) (py : Past P y) :
    Ensures (addSubImpl freeScheme isAdd pc x y true) fun z => Past P z ∧ Fresh z := by
  refine (addSub_shape pc isAdd true x y).mono ?_
  rintro z (⟨_, rfl⟩ | ⟨_, rfl⟩ | ⟨n, r, w, q, h⟩)
  · cases isAdd
    · exact ⟨py.opp, hy.opp⟩
    · exact ⟨py, hy⟩
  · exact ⟨px, hx⟩
  · refine ⟨h.past px py (fun i hi t e => hP t (((h.carryQ20 hx hy sx sy sxy i hi).mono (by decide)).of_ct e))
      fun _ i hi t e => hP t ((h.refreshQ22 hx hy sxy i hi).of_ct e), h.fresh hx hy⟩

/-- addition of client samples: also, the words of the sum are different samples -/
theorem addSub_gen (hP : ∀ t, Q2 t.mult 22 → P t) (pc : Cloud) (isAdd : Bool) (gx : Gen x) (gy : Gen y)
    (sxy : Apart x y) (px : Past P x) (py : Past P y) :
    Ensures (addSubImpl freeScheme isAdd pc x y true) fun z => Past P z ∧ Fresh z ∧ Sep z ∧ NoChild z := by
  refine (addSub_shape pc isAdd true x y).mono ?_
  rintro z (⟨_, rfl⟩ | ⟨_, rfl⟩ | ⟨n, r, w, q, h⟩)
  · cases isAdd
    · exact ⟨py.opp, gy.fresh.opp, gy.sep.opp, gy.opp.noChild⟩
    · exact ⟨py, gy.fresh, gy.sep, gy.noChild⟩
  · exact ⟨px, gx.fresh, gx.sep, gx.noChild⟩
  · refine ⟨h.past px py
      (fun i hi t e => hP t (((h.carryQ20 gx.fresh gy.fresh gx.sep gy.sep sxy i hi).mono (by decide)).of_ct e))
      fun _ i hi t e => hP t ((h.refreshQ22 gx.fresh gy.fresh sxy i hi).of_ct e), h.fresh gx.fresh gy.fresh,
      h.sep gx gy sxy, h.noChild gx gy sxy⟩

/-- refresh input for client samples -/
theorem AddShape.refreshQ11 {isAdd refresh : Bool} {z : Ctxt Term} {n r : Nat} {w q : Nat → Word Term}
    (h : AddShape pc isAdd refresh x y z n r w q) (gx : Gen x) (gy : Gen y) (sxy : Apart x y) (i : Nat) (hi : i < n) :
    Q2 (wm (afterCarry w q i)) 11 := by
  have h1 := (gx.fresh i).q2
  have h2 := (gy.fresh i).q2.scale (sg isAdd)
  rw [sg_abs] at h2
  have hw : Q2 (wm (w i)) 2 := (h1.disj h2 ((sxy i i).symm.scale _).symm).congr (h.sum i hi)
  have hq : Q2 (fun a => -2 * wm (q i) a + if 0 < i then wm (q (i - 1)) a else 0) 9 :=
    (((h.qOne i hi).l1.scale (-2)).add ((h.qOne (i - 1) (by omega)).l1.if (0 < i))).q2
  have qb : ∀ i, i < n → ∀ a, wm (q i) a ≠ 0 → ∃ acc t, a = .boot acc t := by
    intro i hi a ha
    by_cases hr : r ≤ i
    · exact (h.qHigh i hr hi).boot a ha
    · rw [wm_triv (h.qLow i (by omega))] at ha; exact absurd rfl ha
  refine (hw.disj hq ?_).congr (wm_afterCarry w q i)
  refine Disj.symm (Disj.add (Disj.scale _ ?_) (Disj.if _ ?_))
  · exact (One.ext_disj (h.sumExt gx gy hi) (qb i hi)).symm
  · exact (One.ext_disj (h.sumExt gx gy hi) (qb (i - 1) (by omega))).symm

/-- addition of client samples bootstraps nothing heavier than 20 -/
theorem addSub_gen20 (hP : ∀ t, Q2 t.mult 20 → P t) (pc : Cloud) (isAdd refresh : Bool) (gx : Gen x) (gy : Gen y)
    (sxy : Apart x y) (px : Past P x) (py : Past P y) :
    Ensures (addSubImpl freeScheme isAdd pc x y refresh) (Past P) := by
  refine (addSub_shape pc isAdd refresh x y).mono ?_
  rintro z (⟨_, rfl⟩ | ⟨_, rfl⟩ | ⟨n, r, w, q, h⟩)
  · cases isAdd
    · exact py.opp
    · exact py
  · exact px
  · exact h.past px py
      (fun i hi t e => hP t ((h.carryQ20 gx.fresh gy.fresh gx.sep gy.sep sxy i hi).of_ct e))
      fun _ i hi t e => hP t (((h.refreshQ11 gx gy sxy i hi).mono (by decide)).of_ct e)

theorem sgn_gen (hP : ∀ t, Q2 t.mult (if 85 ≤ pc.params.quadWeight then 85 else 22) → P t) (px : Past P x)
    (fx : Fresh x) (sx : Sep x) (nx : NoChild x) :
    Ensures (sgnImpl freeScheme pc x) fun s => Past P s ∧ Fresh s := by
  have h4 : ∀ t, L1 t.mult 4 → P t := fun t h => hP t (h.q2.mono (by split <;> decide))
  refine (sgn_now h4 (fun i => ⟨px i, fun t e => h4 t (((fx i).l1.mono (by decide)).of_ct e)⟩) fx ?_).mono
    fun s h => ⟨h.1, h.2.1⟩
  intro j f b hf hb t e
  exact hP t ((group_Q2 fx sx nx j hf hb).of_ct e)

/-- weight of the heaviest word that may be bootstrapped, by the guards of the code -/
def guardQ (pc : Cloud) : Nat :=
  if 85 ≤ pc.params.quadWeight then 85 else if 41 ≤ pc.params.quadWeight then 41 else 22

theorem max_gen (hP : ∀ t, Q2 t.mult (guardQ pc) → P t) (gx : Gen x) (gy : Gen y) (sxy : Apart x y)
    (px : Past P x) (py : Past P y) : Ensures (maxImpl freeScheme pc x y) fun z => Past P z ∧ Fresh z := by
  have hge : 22 ≤ guardQ pc := by unfold guardQ; split <;> [decide; split <;> decide]
  have h4 : ∀ t, L1 t.mult 4 → P t := fun t h => hP t (h.q2.mono (by omega))
  refine max_now h4 px py gx.fresh gy.fresh ?_ ?_
  · refine ((addSub_gen (fun t h => hP t (h.mono hge)) pc false gx gy sxy px py).call).mono ?_
    rintro r ⟨pr, fr, sr, nr⟩
    refine ⟨pr, fr, fun j f b hf hb t e => hP t (((group_Q2 fr sr nr j hf hb).mono ?_).of_ct e)⟩
    unfold guardQ
    split
    · exact Nat.le_refl _
    · split <;> decide
  · intro hq i g b hg hgb hb t e
    refine hP t (Q2.of_ct (Q2.mono ?_ (show 41 ≤ guardQ pc by unfold guardQ; rw [if_pos hq]; split <;> decide)) e)
    refine (((gy.fresh i).q2.scale 6).disj ((gx.fresh i).q2.scale 2) ?_ |>.disj hg.q2 ?_).congr hb
    · exact Disj.scale _ (Disj.symm (Disj.scale _ (sxy i i)))
    · exact Disj.add (Disj.scale _ (One.ext_disj (gy.ext i) hgb)) (Disj.scale _ (One.ext_disj (gx.ext i) hgb))

theorem Gen.take (h : Gen x) (k : Nat) : Gen (x.take k) where
  fresh := h.fresh.take k
  sep := h.sep.take k
  ext i acc t := by
    rw [wd_take]; split
    · exact h.ext i acc t
    · rfl
  live i ht := by
    rw [wd_take] at ht ⊢
    split at ht
    · rename_i hi; rw [if_pos hi]; exact h.live i ht
    · cases ht

theorem gen_nil : Gen ([] : Ctxt Term) where
  fresh i := by rw [wm_triv (wd_ge_triv (by simp))]; exact One.zero
  sep i j _ := by rw [wm_triv (wd_ge_triv (by simp))]; exact Disj.zero
  ext i acc t := by rw [wm_triv (wd_ge_triv (by simp))]
  live i ht := by rw [wd_ge_triv (by simp)] at ht; cases ht

theorem past_nil : Past P ([] : Ctxt Term) := past_iff.2 (by simp)

theorem apart_nil : Apart ([] : Ctxt Term) x := fun i j => by
  rw [wm_triv (w := wd [] i) (wd_ge_triv (by simp))]; exact Disj.zero

theorem round_gen (hP : ∀ t, Q2 t.mult (if 85 ≤ pc.params.quadWeight then 85 else 22) → P t) (gx : Gen x)
    (px : Past P x) (pos : Nat) : Ensures (roundAtImpl freeScheme pc x pos) fun z => Past P z ∧ Fresh z := by
  have h22 : ∀ t, Q2 t.mult 22 → P t := fun t h => hP t (h.mono (by split <;> decide))
  have h4 : ∀ t, L1 t.mult 4 → P t := fun t h => h22 t (h.q2.mono (by decide))
  have gt := gx.take (pos - 1)
  refine round_now h4 px gx.fresh pos (sgn_gen hP (px.take _) gt.fresh gt.sep gt.noChild).call ?_
  intro w hw ow bw
  refine (addSub_joint h22 pc true ((gx.fresh.drop pos).shift pos) ?_ ((gx.sep.drop pos).shift pos) ?_ ?_
    ((px.drop pos).shift pos) ?_).call
  · intro i
    rcases wd_top (pc := pc) pos w i with e | e
    · rw [e]; exact ow
    · rw [wm_triv e]; exact One.zero
  · intro i j hij
    by_cases hi : i = pos
    · rw [wm_triv (w := wd (trivCt Term pc pos ++ [w]) j) ?_]
      · exact Disj.zero.symm
      · by_cases hj : j < pos
        · rw [wd_lt (by simp [trivCt]; omega), List.getElem_append_left (by simpa [trivCt] using hj)]
          simp [trivCt]; rfl
        · exact wd_ge_triv (by simp [trivCt]; omega)
    · rw [wm_triv (w := wd (trivCt Term pc pos ++ [w]) i) ?_]
      · exact Disj.zero
      · by_cases hi' : i < pos
        · rw [wd_lt (by simp [trivCt]; omega), List.getElem_append_left (by simpa [trivCt] using hi')]
          simp [trivCt]; rfl
        · exact wd_ge_triv (by simp [trivCt]; omega)
  · intro i j
    rw [(wd_shift (pc := pc) (x.drop pos) pos i).1]
    split
    · exact Disj.zero
    · rw [wd_drop]
      rcases wd_top (pc := pc) pos w j with e | e
      · rw [e]; exact One.ext_disj (gx.ext _) bw
      · rw [wm_triv e]; exact Disj.zero.symm
  · intro i
    rcases wd_top (pc := pc) pos w i with e | e
    · rw [e]; exact hw
    · exact Hist.triv e

theorem addTriv_gen (hP : ∀ t, Q2 t.mult 10 → P t) (gx : Gen x) (px : Past P x) (ht : ∀ i, (wd y i).isTriv = true) :
    Ensures (addSubImpl freeScheme true pc x y true) fun z => Past P z ∧ Fresh z := by
  have fy : Fresh y := fun i => by rw [wm_triv (ht i)]; exact One.zero
  have py : Past P y := fun i => Hist.triv (ht i)
  refine (addSub_shape pc true true x y).mono ?_
  rintro z (⟨_, rfl⟩ | ⟨_, rfl⟩ | ⟨n, r, w, q, h⟩)
  · exact ⟨py, fy⟩
  · exact ⟨px, gx.fresh⟩
  have hw : ∀ i, i < n → ∀ a, wm (w i) a = wm (wd x i) a := fun i hi a => by
    rw [h.sum i hi, wm_triv (ht i)]
    simp
  refine ⟨h.past px py (fun i hi t e => hP t (Q2.of_ct ?_ e)) fun _ i hi t e => hP t (Q2.of_ct ?_ e), h.fresh gx.fresh fy⟩
  · by_cases hri : r < i
    · refine (sum3 (gx.fresh i) (gx.fresh (i - 1)) (gx.sep i (i - 1) (by omega)) (r < i)).congr fun a => ?_
      rw [wm_carryIn, hw i hi, hw (i - 1) (by omega)]
    · refine (((gx.fresh i).q2.scale 3).mono (by decide)).congr fun a => ?_
      rw [wm_carryIn, hw i hi]
      simp only [hri, if_false, add_zero]
  · have hq : Q2 (fun a => -2 * wm (q i) a + if 0 < i then wm (q (i - 1)) a else 0) 9 :=
      (((h.qOne i hi).l1.scale (-2)).add ((h.qOne (i - 1) (by omega)).l1.if (0 < i))).q2
    have hb : ∀ i, i < n → Disj (wm (wd x i)) (wm (q i)) ∧ ∀ j, Disj (wm (wd x j)) (wm (q i)) := by
      intro i hi
      have : ∀ j, Disj (wm (wd x j)) (wm (q i)) := fun j => by
        by_cases h1 : r ≤ i
        · exact One.ext_disj (gx.ext j) (h.qHigh i h1 hi).boot
        · rw [wm_triv (h.qLow i (by omega))]; exact Disj.zero.symm
      exact ⟨this i, this⟩
    have hd : Disj (wm (wd x i)) fun a => -2 * wm (q i) a + if 0 < i then wm (q (i - 1)) a else 0 :=
      (Disj.add ((hb i hi).1.symm.scale (-2)) (((hb (i - 1) (by omega)).2 i).symm.if (0 < i))).symm
    refine (((gx.fresh i).q2.disj hq hd).mono (by decide)).congr fun a => ?_
    rw [wm_afterCarry, hw i hi]

/-- a constant is added as trivial words -/
theorem addConst_gen (hP : ∀ t, Q2 t.mult 10 → P t) (gx : Gen x) (px : Past P x) (k : Int) :
    Ensures (addConstImpl freeScheme pc x k) fun z => Past P z ∧ Fresh z := by
  unfold addConstImpl
  refine Ensures.ite (fun _ => Ensures.pure ⟨px, gx.fresh⟩) fun _ => ?_
  refine (Ensures.trivial _).bind fun kAbs _ => ?_
  have ht : ∀ (l : List Nat) (f : Nat → Int) (i : Nat), (wd (l.map fun i => encryptWordTriv Term pc (f i)) i).isTriv = true := by
    intro l f i
    by_cases hi : i < l.length
    · rw [wd_lt (by simpa using hi)]; simp; rfl
    · exact wd_ge_triv (by simp; omega)
  exact (addTriv_gen hP gx px fun i => ht _ _ i).call

/-- products of words -/
theorem mulLwe_gen (hP : ∀ t, Q2 t.mult 10 → P t) {u v : Word Term} (hu : Hist P u) (hv : Hist P v) (ou : One (wm u))
    (ov : One (wm v)) (d : Disj (wm u) (wm v)) : Ensures (mulLwe freeScheme pc u v) (Hist P) := by
  unfold mulLwe
  refine Ensures.ite (fun _ => (Ensures.trivial _).bind fun k _ => Ensures.pure (hv.mulConst k)) fun _ => ?_
  refine Ensures.ite (fun _ => (Ensures.trivial _).bind fun k _ => Ensures.pure (hu.mulConst k)) fun _ => ?_
  refine lutUint.mono fun z hz => hz.hist ((hu.mulConst 3).add hv) fun t e => hP t (Q2.of_ct ?_ e)
  refine ((ou.q2.scale 3).disj ov.q2 (d.scale 3)).congr fun a => ?_
  rw [wm_add, wm_mulConst _ _ (by decide)]

theorem mul1_gen (hP : ∀ t, Q2 t.mult 10 → P t) (fx : Fresh x) (fy : Fresh y) (sxy : Apart x y) (px : Past P x)
    (py : Past P y) : Ensures (mul1word freeScheme pc x y) (Past P) := by
  unfold mul1word
  refine Ensures.bind (P := fun m => ∀ row ∈ m, ∀ w ∈ row, Hist P w) ?_ ?_
  · unfold fillMulary
    refine Ensures.ite (fun _ => Ensures.panic _) fun _ => ?_
    refine (Ensures.parFor (P := fun _ row => ∀ w ∈ row, Hist P w) ?_).mono ?_
    · intro j hj
      refine Ensures.idx.bind fun yj ⟨h1, e1⟩ => ?_
      rw [← wd_lt h1] at e1
      subst e1
      refine (Ensures.parFor (P := fun _ => Hist P) ?_).bind ?_
      · intro i hi
        refine Ensures.idx.bind fun xi ⟨h2, e2⟩ => ?_
        rw [← wd_lt h2] at e2
        subst e2
        exact (mulLwe_gen hP (px i) (py j) (fx i) (fy j) (sxy i j)).expect
      · rintro mid ⟨_, hm⟩
        refine Ensures.pure fun w hw => ?_
        have tr : ∀ w ∈ trivCt Term pc (2 * x.length), Hist P w := by
          intro w hw
          simp only [trivCt, List.mem_replicate] at hw
          rw [hw.2]; exact Hist.triv rfl
        simp only [List.getElem_replicate, List.mem_append] at hw
        rcases hw with (hw | hw) | hw
        · exact tr w (List.mem_of_mem_take hw)
        · obtain ⟨i, hi, rfl⟩ := List.mem_iff_getElem.1 hw
          exact hm i hi
        · exact tr w (List.mem_of_mem_drop hw)
    · rintro m ⟨_, hm⟩ row hrow
      obtain ⟨i, hi, rfl⟩ := List.mem_iff_getElem.1 hrow
      exact hm i hi
  · intro m hm
    refine Ensures.idx.mono ?_
    rintro row ⟨hi, rfl⟩
    exact past_iff.2 (hm _ (List.getElem_mem _))

theorem squ1_gen (hP : ∀ t, Q2 t.mult 21 → P t) (fx : Fresh x) (px : Past P x) :
    Ensures (squ1word freeScheme pc x) (Past P) := by
  unfold squ1word
  refine Ensures.idx.bind fun x0 ⟨h0, e0⟩ => ?_
  rw [← wd_lt h0] at e0
  subst e0
  refine lutUint.bind fun z hz => Ensures.pure (past_iff.2 fun w hw => ?_)
  simp only [singleCt, List.mem_singleton] at hw
  subst hw
  exact hz.hist (px 0) fun t e => hP t (((fx 0).q2.mono (by decide)).of_ct e)

theorem squ23_gen (hP : ∀ t, Q2 t.mult 21 → P t) (fx : Fresh x) (sx : Sep x) (px : Past P x) :
    Ensures (squ23word freeScheme pc x) (Past P) := by
  unfold squ23word
  refine Ensures.ite (fun _ => Ensures.panic _) fun _ => ?_
  refine Ensures.bind (P := fun v => Hist P v ∧ Q2 (wm v) 21) ?_ ?_
  · refine Ensures.ite (fun _ => ?_) fun _ => ?_
    · refine Ensures.idx.bind fun x1 ⟨h1, e1⟩ => Ensures.idx.bind fun x0 ⟨h0, e0⟩ => Ensures.pure ?_
      rw [← wd_lt h1] at e1
      rw [← wd_lt h0] at e0
      subst e1 e0
      refine ⟨((px 1).mulConst 2).add (px 0), Q2.mono (B := 5) ?_ (by decide)⟩
      refine (((fx 1).q2.scale 2).disj (fx 0).q2 ((sx 1 0 (by decide)).scale 2)).congr fun a => ?_
      rw [wm_add, wm_mulConst _ _ (by decide)]
    · refine Ensures.idx.bind fun x2 ⟨h2, e2⟩ => Ensures.idx.bind fun x1 ⟨h1, e1⟩ =>
        Ensures.idx.bind fun x0 ⟨h0, e0⟩ => Ensures.pure ?_
      rw [← wd_lt h2] at e2
      rw [← wd_lt h1] at e1
      rw [← wd_lt h0] at e0
      subst e2 e1 e0
      refine ⟨((((px 2).mulConst 2).add (px 1)).mulConst 2).add (px 0), ?_⟩
      refine ((((fx 2).q2.scale 4).disj ((fx 1).q2.scale 2) ?_).disj (fx 0).q2 ?_).congr fun a => ?_
      · exact Disj.scale _ (Disj.symm (Disj.scale _ (sx 1 2 (by decide))))
      · exact Disj.add (Disj.scale _ (sx 2 0 (by decide))) (Disj.scale _ (sx 1 0 (by decide)))
      · rw [wm_add, wm_mulConst _ _ (by decide), wm_add, wm_mulConst _ _ (by decide)]; ring
  · rintro v ⟨hv, qv⟩
    refine (Ensures.parFor (P := fun _ => Hist P) ?_).bind ?_
    · intro i hi
      have hl : ∀ lut, Ensures (evalLut5Uint freeScheme pc v lut) (Hist P) := fun lut =>
        lutUint.mono fun z hz => hz.hist hv fun t e => hP t (qv.of_ct e)
      unfold pbsSqu3
      split
      · exact hl _
      · exact Ensures.pure (Hist.triv rfl)
      · exact hl _
      · exact hl _
      · exact hl _
      · exact hl _
      · exact Ensures.panic _
    · rintro res ⟨_, hr⟩
      have hmem : ∀ w ∈ res, Hist P w := by
        intro w hw
        obtain ⟨i, hi, rfl⟩ := List.mem_iff_getElem.1 hw
        exact hr i hi
      refine Ensures.idx.bind fun r0 ⟨h0, e0⟩ => Ensures.pure (past_iff.2 fun w hw => ?_)
      simp only [List.mem_cons] at hw
      rcases hw with rfl | rfl | hw
      · rw [← e0]; exact hmem _ (List.getElem_mem _)
      · exact Hist.triv rfl
      · exact hmem w (List.mem_of_mem_drop hw)

end Wt
end Parm
