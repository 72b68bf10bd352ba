import Verif.Proof.WeightsAdd

/-!
# The words of a sum of client samples are different samples
-/

namespace Parm
namespace Wt

/-- only samples from outside -/
def Ext (f : Term → Int) : Prop := ∀ acc t, f (.boot acc t) = 0

/-- Encrypted words are, up to sign, samples given from outside, and all different. -/
structure Gen (x : Ctxt Term) : Prop where
  fresh : Fresh x
  sep : Sep x
  ext : ∀ i, Ext (wm (wd x i))
  live : ∀ i, (wd x i).isTriv = false → ∃ a, (wm (wd x i) a).natAbs = 1

/-- No word is a bootstrap of one of the words. -/
def NoChild (x : Ctxt Term) : Prop :=
  ∀ i j t acc, (wd x j).ct = .ct t → wm (wd x i) (.boot acc t) = 0

theorem Gen.noChild {x : Ctxt Term} (h : Gen x) : NoChild x := fun i _ _ _ _ => h.ext i _ _

theorem Gen.opp {x : Ctxt Term} (h : Gen x) : Gen (oppositeImpl freeScheme x) where
  fresh := h.fresh.opp
  sep := h.sep.opp
  ext i acc t := by rw [wm_wd_opp, h.ext i acc t]; rfl
  live i ht := by
    by_cases hi : i < x.length
    · rw [wd_opp i hi, isTriv_opp] at ht
      obtain ⟨a, ha⟩ := h.live i ht
      exact ⟨a, by rw [wm_wd_opp]; simpa using ha⟩
    · rw [wd_ge_triv (by simpa [oppositeImpl] using hi)] at ht; cases ht

section
variable {pc : Cloud} {isAdd : Bool} {x y z : Ctxt Term} {n r : Nat} {w q : Nat → Word Term}

theorem Disj.zero_of {f g : Term → Int} (h : Disj f g) {a : Term} (ha : f a ≠ 0) : g a = 0 := (h a).resolve_left ha

/-- every encrypted sum of words has a sample of its own -/
theorem AddShape.own (h : AddShape pc isAdd true x y z n r w q) (gx : Gen x) (gy : Gen y) (sxy : Apart x y)
    {i : Nat} (hi : i < n) (ht : (w i).isTriv = false) :
    ∃ a, (wm (w i) a).natAbs = 1 ∧ ∀ j, j < n → j ≠ i → wm (w j) a = 0 := by
  rw [h.sumTriv i hi] at ht
  have : (wd x i).isTriv = false ∨ (wd y i).isTriv = false := by
    cases h1 : (wd x i).isTriv <;> cases h2 : (wd y i).isTriv <;> simp [h1, h2] at ht ⊢
  rcases this with ht | ht
  · obtain ⟨a, ha⟩ := gx.live i ht
    have hne : wm (wd x i) a ≠ 0 := by intro e; rw [e] at ha; cases ha
    refine ⟨a, ?_, fun j hj hji => ?_⟩
    · rw [h.sum i hi, (sxy i i).zero_of hne]; simpa using ha
    · rw [h.sum j hj, (sxy i j).zero_of hne, (gx.sep i j (Ne.symm hji)).zero_of hne]; simp
  · obtain ⟨a, ha⟩ := gy.live i ht
    have hne : wm (wd y i) a ≠ 0 := by intro e; rw [e] at ha; cases ha
    refine ⟨a, ?_, fun j hj hji => ?_⟩
    · rw [h.sum i hi, (sxy i i).symm.zero_of hne]
      have := sg_abs isAdd
      simp only [sg] at this
      rw [Int.zero_add, Int.natAbs_mul, this, ha]
    · rw [h.sum j hj, (sxy j i).symm.zero_of hne, (gy.sep i j (Ne.symm hji)).zero_of hne]; simp

theorem AddShape.sumExt {refresh : Bool} (h : AddShape pc isAdd refresh x y z n r w q) (gx : Gen x) (gy : Gen y) {i : Nat} (hi : i < n) :
    Ext (wm (w i)) := by
  intro acc t
  rw [h.sum i hi, gx.ext i acc t, gy.ext i acc t]; simp

theorem isTriv_carryIn (r : Nat) (w : Nat → Word Term) (i : Nat) :
    (carryIn r w i).isTriv = ((w i).isTriv && (!decide (r < i) || (w (i - 1)).isTriv)) := by
  unfold carryIn
  split
  · rename_i h; rw [isTriv_add, isTriv_mulConst]; simp [h]
  · rename_i h; rw [isTriv_mulConst]; simp [h]

theorem isTriv_afterCarry (w q : Nat → Word Term) (i : Nat) :
    (afterCarry w q i).isTriv = ((w i).isTriv && (q i).isTriv && (!decide (0 < i) || (q (i - 1)).isTriv)) := by
  unfold afterCarry
  split
  · rename_i h; rw [isTriv_add, isTriv_sub, isTriv_mulConst]; simp [h]
  · rename_i h; rw [isTriv_sub, isTriv_mulConst]; simp [h]

/-- an input of a carry bootstrap has a sample owned by a word with carry -/
theorem AddShape.carryOwn (h : AddShape pc isAdd true x y z n r w q) (gx : Gen x) (gy : Gen y) (sxy : Apart x y)
    {j : Nat} (hr : r ≤ j) (hj : j < n) (ht : (carryIn r w j).isTriv = false) :
    ∃ a, wm (carryIn r w j) a ≠ 0 ∧ (∀ i, i < j → i < n → r ≤ i → wm (carryIn r w i) a ≠ wm (carryIn r w j) a) ∧
      ∀ i, i < r → wm (w i) a = 0 := by
  rw [isTriv_carryIn] at ht
  by_cases hw : (w j).isTriv = true
  · have hrj : r < j ∧ (w (j - 1)).isTriv = false := by
      rw [hw] at ht
      by_cases hrj : r < j
      · simp [hrj] at ht; exact ⟨hrj, ht⟩
      · simp [hrj] at ht
    obtain ⟨a, h1, h2⟩ := h.own gx gy sxy (i := j - 1) (by omega) hrj.2
    have ej : wm (carryIn r w j) a = wm (w (j - 1)) a := by
      rw [wm_carryIn, h2 j hj (by omega), if_pos hrj.1]; omega
    refine ⟨a, by rw [ej]; omega, fun i hij hi hri => ?_, fun i hi => h2 i (by omega) (by omega)⟩
    rw [ej, wm_carryIn]
    have e1 : (if r < i then wm (w (i - 1)) a else 0) = 0 := by
      split
      · exact h2 (i - 1) (by omega) (by omega)
      · rfl
    rw [e1]
    by_cases hij' : i = j - 1
    · rw [hij']; omega
    · rw [h2 i hi hij']; omega
  · have hw' : (w j).isTriv = false := by simpa using hw
    obtain ⟨a, h1, h2⟩ := h.own gx gy sxy (i := j) hj hw'
    have ej : wm (carryIn r w j) a = 3 * wm (w j) a := by
      rw [wm_carryIn]
      split
      · rw [h2 (j - 1) (by omega) (by omega)]; omega
      · omega
    refine ⟨a, by rw [ej]; omega, fun i hij hi hri => ?_, fun i hi => h2 i (by omega) (by omega)⟩
    rw [ej, wm_carryIn, h2 i hi (by omega)]
    have e1 : (if r < i then wm (w (i - 1)) a else 0) = 0 := by
      split
      · exact h2 (i - 1) (by omega) (by omega)
      · rfl
    rw [e1]; omega

/-- the accumulator of the carries -/
abbrev accC (pc : Cloud) := accOf pc (lut2 lutF4)

theorem ct_of_not_triv {C : Type} {v : Word C} (h : v.isTriv = false) : ∃ t, v.ct = .ct t := by
  rcases isTriv_or v with h' | h'
  · rw [h'] at h; cases h
  · exact h'

/-- an encrypted carry, and the term it is the bootstrap of -/
theorem AddShape.carryTerm (h : AddShape pc isAdd true x y z n r w q) {i : Nat} (hi : i < n)
    (ht : (q i).isTriv = false) : r ≤ i ∧ ∃ u, (carryIn r w i).ct = .ct u ∧ (q i).ct = .ct (.boot (accC pc) u) := by
  have hr : r ≤ i := by
    by_contra hr
    rw [h.qLow i (by omega)] at ht; cases ht
  refine ⟨hr, ?_⟩
  rcases h.qHigh i hr hi with h1 | ⟨_, h1⟩
  · exact h1
  · rw [h1] at ht; cases ht

/-- different positions have different carries -/
theorem AddShape.carryNe (h : AddShape pc isAdd true x y z n r w q) (gx : Gen x) (gy : Gen y) (sxy : Apart x y)
    {i j : Nat} (hi : i < n) (hj : j < n) (hij : i ≠ j) {u : Term} (hu : (q i).ct = .ct u) : wm (q j) u = 0 := by
  by_cases ht : (q j).isTriv = true
  · rw [wm_triv ht]
  have ht : (q j).isTriv = false := by simpa using ht
  obtain ⟨hrj, v, hv1, hv2⟩ := h.carryTerm hj ht
  obtain ⟨hri, v', hv1', hv2'⟩ := h.carryTerm hi (not_triv_of_ct hu)
  rw [hu] at hv2'
  injection hv2' with hv2'
  subst hv2'
  rw [wm_ct hv2]
  simp only [Term.mult]
  rw [if_neg]
  intro e
  injection e with _ e
  subst e
  have key : ∀ i j, i < j → i < n → j < n → r ≤ i → r ≤ j → (carryIn r w i).ct = .ct v' →
      (carryIn r w j).ct = .ct v' → False := by
    intro i j hij hi hj hri hrj e1 e2
    obtain ⟨a, _, h2, _⟩ := h.carryOwn gx gy sxy hrj hj (not_triv_of_ct e2)
    exact h2 i hij hi hri (by rw [wm_ct e1, wm_ct e2])
  rcases Nat.lt_or_gt_of_ne hij with hl | hl
  · exact key i j hl hi hj hri hrj hv1' hv1
  · exact key j i hl hj hi hrj hri hv1 hv1'

theorem wm_self {v : Word Term} {acc : List (BitVec 64)} {u : Term} (h : v.ct = .ct (.boot acc u)) :
    wm v (.boot acc u) = 1 := by
  rw [wm_ct h]; simp [Term.mult]

/-- an encrypted word after adding the carries has a carry of its own -/
theorem AddShape.refreshOwn (h : AddShape pc isAdd true x y z n r w q) (gx : Gen x) (gy : Gen y) (sxy : Apart x y)
    {i : Nat} (hr : r ≤ i) (hi : i < n) (ht : (afterCarry w q i).isTriv = false) :
    ∃ u, wm (afterCarry w q i) (.boot (accC pc) u) ≠ 0 ∧
      ∀ j, i < j → j < n → wm (afterCarry w q j) (.boot (accC pc) u) ≠ wm (afterCarry w q i) (.boot (accC pc) u) := by
  by_cases hq : (q i).isTriv = true
  · have hw : (w i).isTriv = true := by
      by_contra hw
      have hw : (w i).isTriv = false := by simpa using hw
      have hc : (carryIn r w i).isTriv = false := by rw [isTriv_carryIn, hw]; rfl
      rcases h.qHigh i hr hi with ⟨u, _, h1⟩ | ⟨h1, _⟩
      · rw [not_triv_of_ct h1] at hq; cases hq
      · rw [h1] at hc; cases hc
    rw [isTriv_afterCarry, hq, hw] at ht
    have hp : 0 < i ∧ (q (i - 1)).isTriv = false := by
      by_cases hp : 0 < i
      · simp [hp] at ht; exact ⟨hp, ht⟩
      · simp [hp] at ht
    obtain ⟨_, u, _, hu⟩ := h.carryTerm (i := i - 1) (by omega) hp.2
    have e : wm (afterCarry w q i) (.boot (accC pc) u) = 1 := by
      rw [wm_afterCarry, h.sumExt gx gy hi, wm_triv hq, if_pos hp.1, wm_self hu]; rfl
    refine ⟨u, by rw [e]; decide, fun j hij hj => ?_⟩
    rw [e, wm_afterCarry, h.sumExt gx gy hj, h.carryNe gx gy sxy (i := i - 1) (by omega) hj (by omega) hu,
      if_pos (by omega), h.carryNe gx gy sxy (i := i - 1) (j := j - 1) (by omega) (by omega) (by omega) hu]
    decide
  · have hq : (q i).isTriv = false := by simpa using hq
    obtain ⟨_, u, _, hu⟩ := h.carryTerm hi hq
    have e : wm (afterCarry w q i) (.boot (accC pc) u) = -2 := by
      rw [wm_afterCarry, h.sumExt gx gy hi, wm_self hu]
      split
      · rw [h.carryNe gx gy sxy (i := i) (j := i - 1) hi (by omega) (by omega) hu]; rfl
      · rfl
    refine ⟨u, by rw [e]; decide, fun j hij hj => ?_⟩
    rw [e, wm_afterCarry, h.sumExt gx gy hj, h.carryNe gx gy sxy hi hj (by omega) hu, if_pos (by omega)]
    by_cases hji : j - 1 = i
    · rw [hji, wm_self hu]; decide
    · rw [h.carryNe gx gy sxy (i := i) (j := j - 1) hi (by omega) (by omega) hu]; decide

/-- terms made by adding words are not bootstraps -/
theorem afterCarry_not_boot {w q : Nat → Word Term} {i : Nat} {acc : List (BitVec 64)} {u : Term} :
    (afterCarry w q i).ct ≠ .ct (.boot acc u) := by
  unfold afterCarry
  have : ∀ a b : Word Term, (Word.add freeScheme a b).ct ≠ .ct (.boot acc u) := by
    intro a b
    rcases a with ⟨_ | _, m⟩ <;> rcases b with ⟨_ | _, m'⟩ <;> simp [Word.add]
  split
  · exact this _ _
  · exact this _ _

theorem carryIn_not_boot {r : Nat} {w : Nat → Word Term} {i : Nat} {acc : List (BitVec 64)} {u : Term} :
    (carryIn r w i).ct ≠ .ct (.boot acc u) := by
  unfold carryIn
  split
  · generalize Word.mulConst freeScheme (w i) 3 = a
    generalize w (i - 1) = b
    rcases a with ⟨_ | _, m⟩ <;> rcases b with ⟨_ | _, m'⟩ <;> simp [Word.add]
  · generalize w i = a
    rcases a with ⟨_ | _, m⟩ <;> simp [Word.mulConst]

/-- the shapes of a word of a refreshed sum -/
theorem AddShape.wordCases (h : AddShape pc isAdd true x y z n r w q) (i : Nat) :
    (wd z i).isTriv = true ∨
    (i < r ∧ i < n ∧ wd z i = afterCarry w q i ∧ ∀ a, wm (wd z i) a = wm (w i) a) ∨
    (r ≤ i ∧ i < n ∧ ∃ t, (afterCarry w q i).ct = .ct t ∧ (wd z i).ct = .ct (.boot (accOf pc (lut2 lutId)) t)) ∨
    (i = n ∧ ∃ u, (carryIn r w (n - 1)).ct = .ct u ∧ (wd z i).ct = .ct (.boot (accC pc) u)) := by
  have hlt := h.lt
  by_cases hz : i < n
  · by_cases hri : r ≤ i
    · have := h.zHigh i hri hz
      simp only [if_true] at this
      rcases this with h1 | h1
      · exact .inr (.inr (.inl ⟨hri, hz, h1⟩))
      · exact .inl h1.2
    · refine .inr (.inl ⟨by omega, hz, h.zLow i (by omega), fun a => ?_⟩)
      rw [h.zLow i (by omega), wm_afterCarry, wm_triv (h.qLow i (by omega)), wm_triv (h.qLow (i - 1) (by omega))]
      simp
  · by_cases hn : i = n
    · subst hn
      rw [h.top]
      rcases isTriv_or (q (i - 1)) with ht | ⟨t, ht⟩
      · exact .inl ht
      · exact .inr (.inr (.inr ⟨rfl, (h.carryTerm (by omega) (not_triv_of_ct ht)).2⟩))
    · exact .inl (wd_ge_triv (by rw [h.len]; omega))

theorem disj_boot {v v' : Word Term} {t t' : Term} (h : v.ct = .ct t) (h' : v'.ct = .ct t') (hb : ∃ acc u, t = .boot acc u)
    (hb' : ∃ acc u, t' = .boot acc u) (hne : t ≠ t') : Disj (wm v) (wm v') := by
  obtain ⟨acc, u, rfl⟩ := hb
  obtain ⟨acc', u', rfl⟩ := hb'
  intro a
  rw [wm_ct h, wm_ct h']
  simp only [Term.mult]
  by_cases ha : a = .boot acc u
  · right; rw [if_neg]; rw [ha]; exact hne
  · left; rw [if_neg ha]

theorem disj_ext {v v' : Word Term} {acc : List (BitVec 64)} {u : Term} (h : Ext (wm v)) (h' : v'.ct = .ct (.boot acc u)) :
    Disj (wm v) (wm v') := by
  intro a
  rw [wm_ct h']
  simp only [Term.mult]
  by_cases ha : a = .boot acc u
  · left; rw [ha]; exact h _ _
  · right; rw [if_neg ha]

theorem AddShape.sep (h : AddShape pc isAdd true x y z n r w q) (gx : Gen x) (gy : Gen y) (sxy : Apart x y) : Sep z := by
  have hlt := h.lt
  have sumSep : ∀ i j, i < n → j < n → i ≠ j → Disj (wm (w i)) (wm (w j)) := by
    intro i j hi hj hij
    refine Disj.congr ?_ (h.sum i hi) (h.sum j hj)
    refine Disj.add (Disj.symm (Disj.add (gx.sep j i (Ne.symm hij)) (Disj.scale _ (sxy i j).symm)))
      (Disj.symm (Disj.add (Disj.symm (Disj.scale _ (sxy j i).symm)) (Disj.scale _ (Disj.symm (Disj.scale _ (gy.sep i j hij))))))
  have key : ∀ i j, i < j → Disj (wm (wd z i)) (wm (wd z j)) := by
    intro i j hij
    rcases h.wordCases i with hi | ⟨hi, hin, _, ei⟩ | ⟨hi, hin, t, et, ei⟩ | ⟨rfl, u, eu, ei⟩
    · rw [wm_triv hi]; exact Disj.zero
    · have he : Ext (wm (wd z i)) := fun acc t => by rw [ei]; exact h.sumExt gx gy hin acc t
      rcases h.wordCases j with hj | ⟨hj, hjn, _, ej⟩ | ⟨hj, hjn, t, et, ej⟩ | ⟨rfl, u, eu, ej⟩
      · rw [wm_triv hj]; exact Disj.zero.symm
      · exact (sumSep i j hin hjn (by omega)).congr ei ej
      · exact disj_ext he ej
      · exact disj_ext he ej
    · have own := h.refreshOwn gx gy sxy hi hin (not_triv_of_ct et)
      rcases h.wordCases j with hj | ⟨hj, hjn, _, ej⟩ | ⟨hj, hjn, t', et', ej⟩ | ⟨rfl, u, eu, ej⟩
      · rw [wm_triv hj]; exact Disj.zero.symm
      · omega
      · refine disj_boot ei ej ⟨_, _, rfl⟩ ⟨_, _, rfl⟩ ?_
        intro e
        injection e with _ e
        subst e
        obtain ⟨u, _, h2⟩ := own
        exact h2 j hij hjn (by rw [wm_ct et, wm_ct et'])
      · refine disj_boot ei ej ⟨_, _, rfl⟩ ⟨_, _, rfl⟩ ?_
        intro e
        injection e with _ e
        subst e
        obtain ⟨u, h1, _⟩ := own
        apply h1
        rw [wm_ct et, ← wm_ct eu, wm_carryIn, h.sumExt gx gy (by omega)]
        split
        · rw [h.sumExt gx gy (by omega)]; rfl
        · rfl
    · rw [wm_triv (w := wd z j) (wd_ge_triv (by rw [h.len]; omega))]; exact Disj.zero.symm
  intro i j hij
  rcases Nat.lt_or_gt_of_ne hij with hl | hl
  · exact key i j hl
  · exact (key j i hl).symm

theorem AddShape.noChild (h : AddShape pc isAdd true x y z n r w q) (gx : Gen x) (gy : Gen y) (sxy : Apart x y) :
    NoChild z := by
  have hlt := h.lt
  intro i j t acc et
  have hj : (∃ acc u, t = .boot acc u) ∨ (j < r ∧ j < n ∧ ∀ a, t.mult a = wm (w j) a) := by
    rcases h.wordCases j with hj | ⟨hj, hjn, _, ej⟩ | ⟨hj, hjn, t', et', ej⟩ | ⟨rfl, u, eu, ej⟩
    · rw [not_triv_of_ct et] at hj; cases hj
    · right; exact ⟨hj, hjn, fun a => by rw [← ej, wm_ct et]⟩
    · left; rw [et] at ej; injection ej with ej; exact ⟨_, _, ej⟩
    · left; rw [et] at ej; injection ej with ej; exact ⟨_, _, ej⟩
  rcases h.wordCases i with hi | ⟨hi, hin, _, ei⟩ | ⟨hi, hin, s, es, ei⟩ | ⟨rfl, u, eu, ei⟩
  · rw [wm_triv hi]
  · rw [ei]; exact h.sumExt gx gy hin _ _
  · rw [wm_ct ei]
    simp only [Term.mult]
    rw [if_neg]
    intro e
    injection e with _ e
    subst e
    rcases hj with ⟨acc', u, rfl⟩ | ⟨hj, hjn, ej⟩
    · exact afterCarry_not_boot es
    · obtain ⟨u, h1, _⟩ := h.refreshOwn gx gy sxy hi hin (not_triv_of_ct es)
      apply h1
      rw [wm_ct es, ej]; exact h.sumExt gx gy hjn _ _
  · rw [wm_ct ei]
    simp only [Term.mult]
    rw [if_neg]
    intro e
    injection e with _ e
    subst e
    rcases hj with ⟨acc', u, rfl⟩ | ⟨hj, hjn, ej⟩
    · exact carryIn_not_boot eu
    · obtain ⟨a, h1, _, h3⟩ := h.carryOwn gx gy sxy (j := i - 1) (by omega) (by omega) (not_triv_of_ct eu)
      apply h1
      rw [wm_ct eu, ej, h3 j hj]

end

end Wt
end Parm
