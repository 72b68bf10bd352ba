import Verif.Proof.Merged
import Verif.Proof.WeightsOps

/-!
# Weights over equal ciphertexts of the operations on independent samples
-/

namespace Parm
namespace Mg
open Wt

theorem isSample_of_mult {a : Term} : ∀ {t : Term}, t.mult a ≠ 0 → a ∈ t.samples
  | .input i, h => by
    unfold Term.samples
    by_contra hc
    exact h (by simp only [Finset.mem_singleton] at hc; simp [Term.mult, hc])
  | .boot acc t, h => by
    unfold Term.samples
    by_contra hc
    exact h (by simp only [Finset.mem_singleton] at hc; simp [Term.mult, hc])
  | .add s t, h => by
    unfold Term.samples
    simp only [Term.mult] at h
    by_cases hs : s.mult a = 0
    · exact Finset.mem_union_right _ (isSample_of_mult (t := t) (by intro ht; exact h (by rw [hs, ht]; rfl)))
    · exact Finset.mem_union_left _ (isSample_of_mult hs)
  | .neg t, h => by
    unfold Term.samples
    exact isSample_of_mult (t := t) fun h0 => h (by simp [Term.mult, h0])
  | .mulC t k, h => by
    unfold Term.samples
    exact isSample_of_mult (t := t) fun h0 => h (by simp [Term.mult, h0])
  | .addPt t p, h => by
    unfold Term.samples
    exact isSample_of_mult (t := t) fun h0 => h (by simpa [Term.mult] using h0)

theorem sample_of_mult {t a : Term} (h : t.mult a ≠ 0) : IsSample a := isSample_of_mem (isSample_of_mult h)

theorem sid_odd {a : Term} (h : IsSample a) {k : Nat} (e : sid a = 2 * k + 1) : ∃ acc t, a = .boot acc t := by
  rcases h with ⟨i, rfl⟩ | h
  · simp only [sid] at e; omega
  · exact h

theorem sid_even {a : Term} (h : IsSample a) {k : Nat} (e : sid a = 2 * k) : a = .input k := by
  rcases h with ⟨i, rfl⟩ | ⟨acc, t, rfl⟩
  · simp only [sid] at e; rw [show i = k by omega]
  · simp only [sid] at e; omega

/-- different samples with a multiplicity are different ciphertexts -/
def Few (f : Term → Int) : Prop := ∀ a b, f a ≠ 0 → f b ≠ 0 → sid a = sid b → a = b

theorem few_of {t : Term} (b0 : Term) (h : ∀ a, t.mult a ≠ 0 → (∃ i, a = .input i) ∨ a = b0) : Few t.mult := by
  intro a b ha hb e
  have sa := sample_of_mult ha
  have sb := sample_of_mult hb
  rcases h a ha with ⟨i, rfl⟩ | rfl
  · exact (sid_even sb (by rw [← e]; rfl)).symm
  · rcases h b hb with ⟨i, rfl⟩ | rfl
    · exact sid_even sa (by rw [e]; rfl)
    · rfl

/-- Weight of a combination of different ciphertexts and of some that may be the same. -/
theorem merged_split {t : Term} {f g : Term → Int} {B C : Nat} (hm : ∀ a, t.mult a = f a + g a) (hf : Q2 f B)
    (hg : L1 g C) (hi : Few f) (hd : ∀ a b, f a ≠ 0 → g b ≠ 0 → sid a ≠ sid b) : t.mergedWeight ≤ B + C ^ 2 := by
  classical
  have hs : t.comb.1.support ⊆ t.samples.image sid := by
    intro k hk
    by_contra hc
    refine (Finsupp.mem_support_iff.1 hk) ?_
    rw [comb_apply]
    refine Finset.sum_eq_zero fun a ha => ?_
    obtain ⟨h1, rfl⟩ := Finset.mem_filter.1 ha
    exact absurd (Finset.mem_image_of_mem _ h1) hc
  unfold Term.mergedWeight
  refine (Finset.sum_le_sum_of_subset hs).trans ?_
  have h1 : ∀ k ∈ t.samples.image sid, (t.comb.1 k).natAbs ^ 2 ≤
      (∑ a ∈ t.samples with sid a = k, (f a).natAbs ^ 2) + (∑ a ∈ t.samples with sid a = k, (g a).natAbs) ^ 2 := by
    intro k _
    rw [comb_apply]
    by_cases hk : ∃ a ∈ t.samples.filter (fun a => sid a = k), f a ≠ 0
    · obtain ⟨a, ha, fa⟩ := hk
      have e : ∑ b ∈ t.samples with sid b = k, t.mult b = f a := by
        rw [Finset.sum_eq_single a]
        · rw [hm]
          have : g a = 0 := by by_contra hga; exact hd a a fa hga rfl
          rw [this, add_zero]
        · intro b hb hba
          have hab : sid a = sid b := by rw [(Finset.mem_filter.1 ha).2, (Finset.mem_filter.1 hb).2]
          have h3 : f b = 0 := by by_contra hfb; exact hba (hi b a hfb fa hab.symm)
          have h4 : g b = 0 := by by_contra hgb; exact hd a b fa hgb hab
          rw [hm, h3, h4, add_zero]
        · intro h; exact absurd ha h
      rw [e]
      exact (Finset.single_le_sum (f := fun a => (f a).natAbs ^ 2) (fun _ _ => Nat.zero_le _) ha).trans (Nat.le_add_right _ _)
    · refine le_trans (Nat.pow_le_pow_left ?_ 2) (Nat.le_add_left _ _)
      refine (Int.natAbs_sum_le _ _).trans (Finset.sum_le_sum fun a ha => ?_)
      have : f a = 0 := by by_contra hfa; exact hk ⟨a, ha, hfa⟩
      rw [hm, this, zero_add]
  refine (Finset.sum_le_sum h1).trans ?_
  rw [Finset.sum_add_distrib]
  refine Nat.add_le_add ?_ ?_
  · rw [Finset.sum_fiberwise_of_maps_to (g := sid) fun a ha => Finset.mem_image_of_mem _ ha]
    exact hf _
  · refine (Finset.sum_sq_le_sq_sum_of_nonneg fun _ _ => Nat.zero_le _).trans (Nat.pow_le_pow_left ?_ 2)
    rw [Finset.sum_fiberwise_of_maps_to (g := sid) fun a ha => Finset.mem_image_of_mem _ ha]
    exact hg _

theorem merged_few {t : Term} {B : Nat} (h : Q2 t.mult B) (hf : Few t.mult) : t.mergedWeight ≤ B := by
  have := merged_split (t := t) (g := fun _ => 0) (fun a => by simp) h L1.zero hf (fun a b _ h => absurd rfl h)
  simpa using this

theorem merged_L1 {t : Term} {B : Nat} (h : L1 t.mult B) : t.mergedWeight ≤ B ^ 2 := by
  have := merged_split (t := t) (f := fun _ => 0) (fun a => by simp) Q2.zero h (fun a b h => absurd rfl h)
    (fun a b h => absurd rfl h)
  simpa using this

/-! ## Multiplicities of ciphertexts -/

/-- multiplicity of the ciphertext `k` in a word -/
noncomputable def wk (w : Word Term) (k : Nat) : Int :=
  match w.ct with
  | .ct t => t.comb.1 k
  | .triv _ => 0

theorem wk_ct {w : Word Term} {t : Term} (h : w.ct = .ct t) (k : Nat) : wk w k = t.comb.1 k := by
  simp [wk, h]

theorem wk_eq (w : Word Term) : ∃ t : Term, (∀ a, wm w a = t.mult a) ∧ (∀ j, wk w j = t.comb.1 j) := by
  rcases h : w.ct with t | p
  · exact ⟨t, fun a => by rw [wm_ct h], fun j => wk_ct h j⟩
  · refine ⟨.mulC (.input 0) 0, fun a => ?_, fun j => ?_⟩
    · simp [wm, h, Term.mult]
    · simp [wk, h, comb_mulC]

/-- on inputs both multiplicities agree -/
theorem wk_input (w : Word Term) (i : Nat) : wk w (2 * i) = wm w (.input i) := by
  obtain ⟨t, h1, h2⟩ := wk_eq w
  rw [h1, h2, comb_apply, Finset.sum_filter]
  by_cases h : Term.input i ∈ t.samples
  · rw [Finset.sum_eq_single (.input i)]
    · simp [sid]
    · intro b hb hne
      rw [if_neg]
      intro e
      exact hne (sid_even (isSample_of_mem hb) e)
    · intro h'; exact absurd h h'
  · have : t.mult (.input i) = 0 := by by_contra hc; exact h (isSample_of_mult hc)
    rw [this]
    refine Finset.sum_eq_zero fun b hb => ?_
    rw [if_neg]
    intro e
    exact h (sid_even (isSample_of_mem hb) e ▸ hb)

theorem wk_ext {w : Word Term} (h : Ext (wm w)) (k : Nat) : wk w (2 * k + 1) = 0 := by
  obtain ⟨t, h1, h2⟩ := wk_eq w
  rw [h2, comb_apply]
  refine Finset.sum_eq_zero fun b hb => ?_
  obtain ⟨h3, h4⟩ := Finset.mem_filter.1 hb
  obtain ⟨acc, u, rfl⟩ := sid_odd (isSample_of_mem h3) h4
  rw [← h1]
  exact h acc u

@[simp] theorem wk_add (x y : Word Term) (k : Nat) : wk (Word.add freeScheme x y) k = wk x k + wk y k := by
  rcases x with ⟨_ | _, m⟩ <;> rcases y with ⟨_ | _, m'⟩ <;> simp [Word.add, wk, freeScheme, comb_add, comb_addPt]

@[simp] theorem wk_opp (x : Word Term) (k : Nat) : wk (Word.opp freeScheme x) k = - wk x k := by
  rcases x with ⟨_ | _, m⟩ <;> simp [Word.opp, wk, freeScheme, comb_neg]

@[simp] theorem wk_sub (x y : Word Term) (k : Nat) : wk (Word.sub freeScheme x y) k = wk x k - wk y k := by
  rw [Word.sub, wk_add, wk_opp]; omega

theorem wk_mul2 (x : Word Term) (k : Nat) : wk (Word.mulConst freeScheme x 2) k = 2 * wk x k := by
  have e2 : (BitVec.ofInt 64 (wrapI32 ((2 : Int).natAbs : Int))).toInt = 2 := by decide
  rcases x with ⟨t | p, m⟩
  · simp only [Word.mulConst, wk, freeScheme, show ¬ ((2 : Int) < 0) by decide, if_false, comb_mulC, e2]
    rw [Prod.smul_fst, Finsupp.smul_apply, smul_eq_mul]
  · simp [Word.mulConst, wk]

theorem wk_triv {w : Word Term} (h : w.isTriv = true) (k : Nat) : wk w k = 0 := by
  rcases w with ⟨_ | _, m⟩
  · simp [Word.isTriv] at h
  · rfl

theorem wk_afterCarry (w q : Nat → Word Term) (i k : Nat) :
    wk (afterCarry w q i) k = wk (w i) k + (-2 * wk (q i) k + if 0 < i then wk (q (i - 1)) k else 0) := by
  unfold afterCarry
  split
  · rw [wk_add, wk_sub, wk_mul2]; ring
  · rw [wk_sub, wk_mul2]; ring

theorem wk_boot {v : Word Term} {acc : List (BitVec 64)} {u : Term} (h : v.ct = .ct (.boot acc u)) (k : Nat) :
    wk v k = if sid (.boot acc u) = k then 1 else 0 := by
  rw [wk_ct h, comb_of_isSample (.inr ⟨acc, u, rfl⟩), Finsupp.single_apply]

theorem sid_boot {acc acc' : List (BitVec 64)} {u u' : Term} (h : sid (.boot acc u) = sid (.boot acc' u')) :
    acc = acc' ∧ u.comb = u'.comb := by
  simp only [sid] at h
  have := lookupNo_injective (a₁ := (acc, u.comb)) (a₂ := (acc', u'.comb)) (by omega)
  injection this with e1 e2
  exact ⟨e1, e2⟩

theorem wk_ext_boot {w : Word Term} (h : Ext (wm w)) (acc : List (BitVec 64)) (u : Term) : wk w (sid (.boot acc u)) = 0 :=
  wk_ext h _

theorem input_of_ext {w : Word Term} (h : Ext (wm w)) {a : Term} (ha : wm w a ≠ 0) : ∃ i, a = .input i := by
  obtain ⟨t, h1, _⟩ := wk_eq w
  have hs := sample_of_mult (t := t) (a := a) (by rw [← h1]; exact ha)
  rcases hs with h' | ⟨acc, u, rfl⟩
  · exact h'
  · exact absurd (h acc u) ha

theorem wk_congr {v v' : Word Term} {t t' : Term} (h : v.ct = .ct t) (h' : v'.ct = .ct t') (e : t.comb = t'.comb) (k : Nat) :
    wk v k = wk v' k := by
  rw [wk_ct h, wk_ct h', e]

section
variable {pc : Cloud} {isAdd : Bool} {x y z : Ctxt Term} {n r : Nat} {w q : Nat → Word Term}

theorem carryIn_ext {refresh : Bool} (h : AddShape pc isAdd refresh x y z n r w q) (gx : Gen x) (gy : Gen y) {i : Nat} (hi : i < n) :
    Ext (wm (Wt.carryIn r w i)) := by
  intro acc t
  rw [wm_carryIn, h.sumExt gx gy hi acc t]
  split
  · rw [h.sumExt gx gy (by omega) acc t]; rfl
  · rfl

/-- different positions have different carries, also as ciphertexts -/
theorem carryNe (h : AddShape pc isAdd true x y z n r w q) (gx : Gen x) (gy : Gen y) (sxy : Apart x y)
    {i j : Nat} (hi : i < n) (hj : j < n) (hij : i ≠ j) {u : Term} (hu : (q i).ct = .ct u) : wk (q j) (sid u) = 0 := by
  by_cases ht : (q j).isTriv = true
  · exact wk_triv ht _
  have ht : (q j).isTriv = false := by simpa using ht
  obtain ⟨hrj, v, hv1, hv2⟩ := h.carryTerm hj ht
  obtain ⟨hri, v', hv1', hv2'⟩ := h.carryTerm hi (not_triv_of_ct hu)
  rw [hu] at hv2'
  injection hv2' with hv2'
  subst hv2'
  rw [wk_boot hv2, if_neg]
  intro e
  obtain ⟨_, e⟩ := sid_boot e
  have key : ∀ i j, i < j → i < n → j < n → r ≤ i → r ≤ j → (∀ k, wk (Wt.carryIn r w i) k = wk (Wt.carryIn r w j) k) →
      (Wt.carryIn r w j).isTriv = false → False := by
    intro i j hij hi hj hri hrj e1 e2
    obtain ⟨a, h1, h2, _⟩ := h.carryOwn gx gy sxy hrj hj e2
    obtain ⟨k, rfl⟩ := input_of_ext (carryIn_ext h gx gy hj) h1
    exact h2 i hij hi hri (by rw [← wk_input, ← wk_input, e1])
  rcases Nat.lt_or_gt_of_ne hij with hl | hl
  · exact key i j hl hi hj hri hrj (wk_congr hv1' hv1 e.symm) (not_triv_of_ct hv1)
  · exact key j i hl hj hi hrj hri (wk_congr hv1 hv1' e) (not_triv_of_ct hv1')

/-- an encrypted word after adding the carries has a carry of its own, also as ciphertexts -/
theorem refreshOwn (h : AddShape pc isAdd true x y z n r w q) (gx : Gen x) (gy : Gen y) (sxy : Apart x y)
    {i : Nat} (hr : r ≤ i) (hi : i < n) (ht : (afterCarry w q i).isTriv = false) :
    ∃ k u v, k < n ∧ (q k).ct = .ct (.boot (accC pc) u) ∧ wk (afterCarry w q i) (sid (.boot (accC pc) u)) = v ∧
      v ≠ 0 ∧ (v = 1 → k + 1 < n) ∧
      ∀ j, i < j → j < n → wk (afterCarry w q j) (sid (.boot (accC pc) u)) ≠ v := by
  by_cases hq : (q i).isTriv = true
  · have hw : (w i).isTriv = true := by
      by_contra hw
      have hw : (w i).isTriv = false := by simpa using hw
      have hc : (Wt.carryIn r w i).isTriv = false := by rw [isTriv_carryIn, hw]; rfl
      rcases h.qHigh i hr hi with ⟨u, _, h1⟩ | ⟨h1, _⟩
      · rw [not_triv_of_ct h1] at hq; cases hq
      · rw [h1] at hc; cases hc
    rw [isTriv_afterCarry, hq, hw] at ht
    have hp : 0 < i ∧ (q (i - 1)).isTriv = false := by
      by_cases hp : 0 < i
      · simp [hp] at ht; exact ⟨hp, ht⟩
      · simp [hp] at ht
    obtain ⟨_, u, _, hu⟩ := h.carryTerm (i := i - 1) (by omega) hp.2
    have e : wk (afterCarry w q i) (sid (.boot (accC pc) u)) = 1 := by
      rw [wk_afterCarry, wk_ext_boot (h.sumExt gx gy hi), wk_triv hq, if_pos hp.1, wk_boot hu]; simp
    refine ⟨i - 1, u, 1, by omega, hu, e, by decide, fun _ => by omega, fun j hij hj => ?_⟩
    rw [wk_afterCarry, wk_ext_boot (h.sumExt gx gy hj), carryNe h gx gy sxy (i := i - 1) (by omega) hj (by omega) hu,
      if_pos (by omega), carryNe h gx gy sxy (i := i - 1) (j := j - 1) (by omega) (by omega) (by omega) hu]
    decide
  · have hq : (q i).isTriv = false := by simpa using hq
    obtain ⟨_, u, _, hu⟩ := h.carryTerm hi hq
    have e : wk (afterCarry w q i) (sid (.boot (accC pc) u)) = -2 := by
      rw [wk_afterCarry, wk_ext_boot (h.sumExt gx gy hi), wk_boot hu, if_pos rfl]
      split
      · rw [carryNe h gx gy sxy (i := i) (j := i - 1) hi (by omega) (by omega) hu]; rfl
      · rfl
    refine ⟨i, u, -2, hi, hu, e, by decide, fun h => absurd h (by decide), fun j hij hj => ?_⟩
    rw [wk_afterCarry, wk_ext_boot (h.sumExt gx gy hj), carryNe h gx gy sxy hi hj (by omega) hu, if_pos (by omega)]
    by_cases hji : j - 1 = i
    · rw [hji, wk_boot hu, if_pos rfl]; decide
    · rw [carryNe h gx gy sxy (i := i) (j := j - 1) hi (by omega) (by omega) hu]; decide

/-- words are different ciphertexts -/
def SepK (z : Ctxt Term) : Prop := ∀ i j, i ≠ j → ∀ a b, wm (wd z i) a ≠ 0 → wm (wd z j) b ≠ 0 → sid a ≠ sid b

/-- no word is the ciphertext of a bootstrap of a word -/
def NoChildK (z : Ctxt Term) : Prop :=
  ∀ i j t acc a, (wd z j).ct = .ct t → wm (wd z i) a ≠ 0 → sid a ≠ sid (.boot acc t)

theorem Gen.sepK (h : Gen x) : SepK x := by
  intro i j hij a b ha hb e
  obtain ⟨k, rfl⟩ := input_of_ext (h.ext i) ha
  obtain ⟨l, rfl⟩ := input_of_ext (h.ext j) hb
  simp only [sid] at e
  obtain rfl : k = l := by omega
  exact (h.sep i j hij _).elim ha hb

theorem Gen.noChildK (h : Gen x) : NoChildK x := by
  intro i j t acc a _ ha e
  obtain ⟨k, rfl⟩ := input_of_ext (h.ext i) ha
  simp only [sid] at e
  omega

theorem only_boot {v : Word Term} {acc : List (BitVec 64)} {u a : Term} (h : v.ct = .ct (.boot acc u)) (ha : wm v a ≠ 0) :
    a = .boot acc u := by
  rw [wm_ct h] at ha
  simp only [Term.mult] at ha
  by_contra hc
  exact ha (if_neg hc)

theorem sepK (h : AddShape pc isAdd true x y z n r w q) (gx : Gen x) (gy : Gen y) (sxy : Apart x y) : SepK z := by
  have hlt := h.lt
  have key : ∀ i j, i < j → ∀ a b, wm (wd z i) a ≠ 0 → wm (wd z j) b ≠ 0 → sid a ≠ sid b := by
    intro i j hij a b ha hb e
    rcases h.wordCases i with hi | ⟨hi, hin, _, ei⟩ | ⟨hi, hin, t, et, ei⟩ | ⟨rfl, u, eu, ei⟩
    · rw [wm_triv hi] at ha; exact ha rfl
    · have he : Ext (wm (wd z i)) := fun acc t => by rw [ei]; exact h.sumExt gx gy hin acc t
      obtain ⟨k, rfl⟩ := input_of_ext he ha
      rcases h.wordCases j with hj | ⟨hj, hjn, _, ej⟩ | ⟨hj, hjn, t, et, ej⟩ | ⟨rfl, u, eu, ej⟩
      · rw [wm_triv hj] at hb; exact hb rfl
      · have he' : Ext (wm (wd z j)) := fun acc t => by rw [ej]; exact h.sumExt gx gy hjn acc t
        obtain ⟨l, rfl⟩ := input_of_ext he' hb
        simp only [sid] at e
        obtain rfl : k = l := by omega
        exact (h.sep gx gy sxy i j (by omega) _).elim ha hb
      · rw [only_boot ej hb] at e; simp only [sid] at e; omega
      · rw [only_boot ej hb] at e; simp only [sid] at e; omega
    · obtain ⟨k, u, v, _, _, h1, h2, _, h3⟩ := refreshOwn h gx gy sxy hi hin (not_triv_of_ct et)
      rw [only_boot ei ha] at e
      rcases h.wordCases j with hj | ⟨hj, hjn, _, ej⟩ | ⟨hj, hjn, t', et', ej⟩ | ⟨rfl, u', eu, ej⟩
      · rw [wm_triv hj] at hb; exact hb rfl
      · omega
      · rw [only_boot ej hb] at e
        exact h3 j hij hjn (by rw [← h1, wk_congr et et' (sid_boot e).2])
      · rw [only_boot ej hb] at e
        apply h2
        rw [← h1, wk_congr et eu (sid_boot e).2]
        exact wk_ext_boot (carryIn_ext h gx gy (by omega)) _ _
    · rw [wm_triv (w := wd z j) (wd_ge_triv (by rw [h.len]; omega))] at hb; exact hb rfl
  intro i j hij a b ha hb
  rcases Nat.lt_or_gt_of_ne hij with hl | hl
  · exact key i j hl a b ha hb
  · exact (key j i hl b a hb ha).symm

theorem noChildK (h : AddShape pc isAdd true x y z n r w q) (gx : Gen x) (gy : Gen y) (sxy : Apart x y) : NoChildK z := by
  have hlt := h.lt
  intro i j t acc a et ha e
  rcases h.wordCases i with hi | ⟨hi, hin, _, ei⟩ | ⟨hi, hin, s, es, ei⟩ | ⟨rfl, u, eu, ei⟩
  · rw [wm_triv hi] at ha; exact ha rfl
  · have he : Ext (wm (wd z i)) := fun acc t => by rw [ei]; exact h.sumExt gx gy hin acc t
    obtain ⟨k, rfl⟩ := input_of_ext he ha
    simp only [sid] at e; omega
  · rw [only_boot ei ha] at e
    have ec := wk_congr es et (sid_boot e).2
    obtain ⟨k, u, v, hk, hu, h1, h2, h4, h3⟩ := refreshOwn h gx gy sxy hi hin (not_triv_of_ct es)
    rw [ec] at h1
    rcases h.wordCases j with hj | ⟨hj, hjn, _, ej⟩ | ⟨hj, hjn, t', et', ej⟩ | ⟨rfl, u', eu', ej⟩
    · rw [not_triv_of_ct et] at hj; cases hj
    · refine h2 (h1.symm.trans (wk_ext_boot ?_ _ _))
      intro acc t; rw [ej]; exact h.sumExt gx gy hjn acc t
    · rw [wk_boot ej] at h1
      split at h1
      · rename_i e2
        obtain ⟨_, u2, hu2, hu3⟩ := h.carryTerm hk (not_triv_of_ct hu)
        rw [hu] at hu3
        injection hu3 with hu3
        injection hu3 with _ hu3
        subst hu3
        obtain ⟨_, u4, v4, _, _, g1, g2, _⟩ := refreshOwn h gx gy sxy hj hjn (not_triv_of_ct et')
        apply g2
        rw [← g1, wk_congr et' hu2 (sid_boot e2).2]
        exact wk_ext_boot (carryIn_ext h gx gy hk) _ _
      · exact h2 h1.symm
    · rw [wk_boot ej] at h1
      split at h1
      · rename_i e2
        have := carryNe h gx gy sxy (i := k) (j := j - 1) hk (by omega) (by have := h4 h1.symm; omega) hu
        rw [← h.top, wk_boot ej, if_pos e2] at this
        cases this
      · exact h2 h1.symm
  · rw [only_boot ei ha] at e
    have ec := wk_congr eu et (sid_boot e).2
    rcases h.wordCases j with hj | ⟨hj, hjn, _, ej⟩ | ⟨hj, hjn, t', et', ej⟩ | ⟨hj, u', eu', ej⟩
    · rw [not_triv_of_ct et] at hj; cases hj
    · obtain ⟨b, h1, _, h3⟩ := h.carryOwn gx gy sxy (j := i - 1) (by omega) (by omega) (not_triv_of_ct eu)
      obtain ⟨k, rfl⟩ := input_of_ext (carryIn_ext h gx gy (by omega)) h1
      apply h1
      rw [← wk_input, ec, wk_input, ej, h3 j hj]
    · have := ec (sid (.boot (accOf pc (lut2 lutId)) t'))
      rw [wk_ext_boot (carryIn_ext h gx gy (by omega)), wk_boot ej, if_pos rfl] at this
      cases this
    · have := ec (sid (.boot (accC pc) u'))
      rw [wk_ext_boot (carryIn_ext h gx gy (by omega)), wk_boot ej, if_pos rfl] at this
      cases this

end

variable {P : Term → Prop} {pc : Cloud} {x y : Ctxt Term}

/-- groups of four words of which no two are the same ciphertext -/
theorem group_few (hx : Fresh x) (sx : SepK x) (nx : NoChildK x) (j : Nat) {f : Term → Int} {b : Word Term} {t : Term}
    (hf : TopForm pc (wd x (4 * j + 3)) f)
    (hb : ∀ a, wm b a = f a + (1 * wm (wd x (4 * j)) a + (2 * wm (wd x (4 * j + 1)) a + 4 * wm (wd x (4 * j + 2)) a)))
    (e : b.ct = .ct t) : Few t.mult := by
  have one : ∀ i a b, wm (wd x i) a ≠ 0 → wm (wd x i) b ≠ 0 → a = b := by
    intro i a b ha hb
    obtain ⟨c, _, h⟩ := hx i
    rw [show a = c by by_contra hc; exact ha (h a hc), show b = c by by_contra hc; exact hb (h b hc)]
  have same : ∀ i k a b, wm (wd x i) a ≠ 0 → wm (wd x k) b ≠ 0 → sid a = sid b → a = b := by
    intro i k a b ha hb hab
    by_cases hik : i = k
    · subst hik; exact one i a b ha hb
    · exact absurd hab (sx i k hik a b ha hb)
  have cases : ∀ a, t.mult a ≠ 0 → f a ≠ 0 ∨ ∃ i, wm (wd x i) a ≠ 0 := by
    intro a ha
    rw [← wm_ct e, hb] at ha
    by_contra hc
    push Not at hc
    exact ha (by rw [hc.1, hc.2, hc.2, hc.2]; rfl)
  intro a c ha hc hac
  unfold TopForm at hf
  by_cases hq : 85 ≤ pc.params.quadWeight
  · rw [if_pos hq] at hf
    have w : ∀ a, t.mult a ≠ 0 → ∃ i, wm (wd x i) a ≠ 0 := by
      intro a ha
      rcases cases a ha with h | h
      · exact ⟨4 * j + 3, fun h0 => h (by rw [hf, h0]; rfl)⟩
      · exact h
    obtain ⟨i, hi⟩ := w a ha
    obtain ⟨k, hk⟩ := w c hc
    exact same i k a c hi hk hac
  · rw [if_neg hq] at hf
    rcases cases a ha with h1 | ⟨i, h1⟩ <;> rcases cases c hc with h2 | ⟨k, h2⟩
    · obtain ⟨d, _, h⟩ := hf.1
      rw [show a = d by by_contra hc; exact h1 (h a hc), show c = d by by_contra hc; exact h2 (h c hc)]
    · obtain ⟨acc, u, rfl, eu⟩ := hf.2 a h1
      exact absurd hac.symm (nx k _ u acc c eu h2)
    · obtain ⟨acc, u, rfl, eu⟩ := hf.2 c h2
      exact absurd hac (nx i _ u acc a eu h1)
    · exact same i k a c h1 h2 hac

/-- input of a carry of client samples -/
theorem carry_le {isAdd refresh : Bool} {z : Ctxt Term} {n r : Nat} {w q : Nat → Word Term}
    (h : AddShape pc isAdd refresh x y z n r w q) (gx : Gen x) (gy : Gen y) (sxy : Apart x y) {i : Nat} (hi : i < n) {t : Term}
    (e : (Wt.carryIn r w i).ct = .ct t) : t.mergedWeight ≤ 20 := by
  refine merged_few ((h.carryQ20 gx.fresh gy.fresh gx.sep gy.sep sxy i hi).of_ct e) (few_of t fun a ha => .inl ?_)
  rw [← wm_ct e] at ha
  exact input_of_ext (carryIn_ext h gx gy hi) ha

theorem sumBoots {isAdd refresh : Bool} {z : Ctxt Term} {n r : Nat} {w q : Nat → Word Term}
    (h : AddShape pc isAdd refresh x y z n r w q) {i : Nat} (hi : i < n) {a : Term} (ha : wm (q i) a ≠ 0) :
    ∃ acc t, a = .boot acc t := by
  by_cases hr : r ≤ i
  · exact (h.qHigh i hr hi).boot a ha
  · rw [wm_triv (h.qLow i (by omega))] at ha; exact absurd rfl ha

/-- input of a refresh -/
theorem refresh_gen {isAdd refresh : Bool} {z : Ctxt Term} {n r : Nat} {w q : Nat → Word Term}
    (h : AddShape pc isAdd refresh x y z n r w q) (gx : Gen x) (gy : Gen y) {i B : Nat} (hw : Q2 (wm (w i)) B) (hi : i < n)
    {t : Term} (e : (afterCarry w q i).ct = .ct t) : t.mergedWeight ≤ B + 9 := by
  have hq : L1 (fun a => -2 * wm (q i) a + if 0 < i then wm (q (i - 1)) a else 0) 3 :=
    ((h.qOne i hi).l1.scale (-2)).add ((h.qOne (i - 1) (by omega)).l1.if (0 < i))
  refine merged_split (fun a => by rw [← wm_ct e]; exact wm_afterCarry w q i a) hw hq ?_ ?_
  · intro a b ha hb hab
    obtain ⟨k, rfl⟩ := input_of_ext (h.sumExt gx gy hi) ha
    obtain ⟨l, rfl⟩ := input_of_ext (h.sumExt gx gy hi) hb
    simp only [sid] at hab
    rw [show k = l by omega]
  · intro a b ha hb hab
    obtain ⟨k, rfl⟩ := input_of_ext (h.sumExt gx gy hi) ha
    have : ∃ acc t, b = .boot acc t := by
      by_cases h0 : wm (q i) b = 0
      · rw [h0] at hb
        split at hb
        · exact sumBoots h (i := i - 1) (by omega) (by simpa using hb)
        · simp at hb
      · exact sumBoots h hi h0
    obtain ⟨acc, u, rfl⟩ := this
    simp only [sid] at hab
    omega

theorem refresh_le {isAdd refresh : Bool} {z : Ctxt Term} {n r : Nat} {w q : Nat → Word Term}
    (h : AddShape pc isAdd refresh x y z n r w q) (gx : Gen x) (gy : Gen y) (sxy : Apart x y) {i : Nat} (hi : i < n) {t : Term}
    (e : (afterCarry w q i).ct = .ct t) : t.mergedWeight ≤ 11 := by
  have h1 := (gx.fresh i).q2
  have h2 := (gy.fresh i).q2.scale (sg isAdd)
  rw [sg_abs] at h2
  exact refresh_gen h gx gy ((h1.disj h2 ((sxy i i).symm.scale _).symm).congr (h.sum i hi)) hi e

/-- addition of client samples -/
theorem addSub_merged (hP : ∀ t : Term, t.mergedWeight ≤ 20 → P t) (pc : Cloud) (isAdd refresh : Bool) (gx : Gen x) (gy : Gen y)
    (sxy : Apart x y) (px : Past P x) (py : Past P y) :
    Ensures (addSubImpl freeScheme isAdd pc x y refresh) fun z => Past P z ∧
      (refresh = true → Fresh z ∧ Sep z ∧ NoChild z ∧ SepK z ∧ NoChildK z) := by
  refine (addSub_shape pc isAdd refresh x y).mono ?_
  rintro z (⟨_, rfl⟩ | ⟨_, rfl⟩ | ⟨n, r, w, q, h⟩)
  · cases isAdd
    · exact ⟨py.opp, fun _ => ⟨gy.fresh.opp, gy.sep.opp, gy.opp.noChild, Gen.sepK gy.opp, Gen.noChildK gy.opp⟩⟩
    · exact ⟨py, fun _ => ⟨gy.fresh, gy.sep, gy.noChild, Gen.sepK gy, Gen.noChildK gy⟩⟩
  · exact ⟨px, fun _ => ⟨gx.fresh, gx.sep, gx.noChild, Gen.sepK gx, Gen.noChildK gx⟩⟩
  · refine ⟨h.past px py (fun i hi t e => hP t (carry_le h gx gy sxy hi e))
      fun _ i hi t e => hP t ((refresh_le h gx gy sxy hi e).trans (by decide)), ?_⟩
    rintro rfl
    exact ⟨h.fresh gx.fresh gy.fresh, h.sep gx gy sxy, h.noChild gx gy sxy, sepK h gx gy sxy, noChildK h gx gy sxy⟩

theorem sgn_merged (hP : ∀ t : Term, t.mergedWeight ≤ (if 85 ≤ pc.params.quadWeight then 85 else 22) → P t) (px : Past P x)
    (gx : Gen x) : Ensures (sgnImpl freeScheme pc x) fun s => Past P s ∧ Fresh s := by
  have h4 : ∀ t : Term, L1 t.mult 4 → P t := fun t h => hP t ((merged_L1 h).trans (by split <;> decide))
  refine (sgn_now h4 (fun i => ⟨px i, fun t e => h4 t (((gx.fresh i).l1.mono (by decide)).of_ct e)⟩) gx.fresh ?_).mono
    fun s h => ⟨h.1, h.2.1⟩
  intro j f b hf hb t e
  exact hP t (merged_few ((group_Q2 gx.fresh gx.sep gx.noChild j hf hb).of_ct e)
    (group_few gx.fresh (Gen.sepK gx) (Gen.noChildK gx) j hf hb e))

theorem max_merged (hP : ∀ t : Term, t.mergedWeight ≤ guardQ pc → P t) (gx : Gen x) (gy : Gen y) (sxy : Apart x y)
    (px : Past P x) (py : Past P y) : Ensures (maxImpl freeScheme pc x y) fun z => Past P z ∧ Fresh z := by
  have hge : 22 ≤ guardQ pc := by unfold guardQ; split <;> [decide; split <;> decide]
  have h4 : ∀ t : Term, L1 t.mult 4 → P t := fun t h => hP t ((merged_L1 h).trans (by omega))
  refine max_now h4 px py gx.fresh gy.fresh ?_ ?_
  · refine ((addSub_merged (fun t h => hP t (h.trans (by omega))) pc false true gx gy sxy px py).call).mono ?_
    rintro r ⟨pr, hr⟩
    obtain ⟨fr, sr, nr, skr, nkr⟩ := hr rfl
    refine ⟨pr, fr, fun j f b hf hb t e => hP t ((merged_few ((group_Q2 fr sr nr j hf hb).of_ct e)
      (group_few fr skr nkr j hf hb e)).trans ?_)⟩
    unfold guardQ
    split
    · exact Nat.le_refl _
    · split <;> decide
  · intro hq i g b hg hgb hb t e
    have hQ : Q2 (wm b) 41 := by
      refine (((gy.fresh i).q2.scale 6).disj ((gx.fresh i).q2.scale 2) ?_ |>.disj hg.q2 ?_).congr hb
      · exact Disj.scale _ (Disj.symm (Disj.scale _ (sxy i i)))
      · exact Disj.add (Disj.scale _ (One.ext_disj (gy.ext i) hgb)) (Disj.scale _ (One.ext_disj (gx.ext i) hgb))
    refine hP t ((merged_few (hQ.of_ct e) ?_).trans (show 41 ≤ guardQ pc by unfold guardQ; rw [if_pos hq]; split <;> decide))
    obtain ⟨c, _, hc⟩ := hg
    refine few_of c fun a ha => ?_
    rw [← wm_ct e, hb] at ha
    by_cases h1 : wm (wd y i) a = 0
    · by_cases h2 : wm (wd x i) a = 0
      · right
        by_contra hac
        exact ha (by rw [h1, h2, hc a hac]; rfl)
      · exact .inl (input_of_ext (gx.ext i) h2)
    · exact .inl (input_of_ext (gy.ext i) h1)

/-- addition of client samples and of a ciphertext with a single encrypted word, a bootstrap -/
theorem addOne_merged (hP : ∀ t : Term, t.mergedWeight ≤ 20 → P t) (pc : Cloud) (fx : Fresh x) (sx : Sep x) (ex : ∀ i, Ext (wm (wd x i))) (fy : Fresh y) (sy : Sep y)
    (sxy : Apart x y) {c : Term} (hc : ∃ acc u, c = .boot acc u) (hy : ∀ i a, wm (wd y i) a ≠ 0 → a = c)
    (px : Past P x) (py : Past P y) :
    Ensures (addSubImpl freeScheme true pc x y true) fun z => Past P z ∧ Fresh z := by
  refine (addSub_shape pc true true x y).mono ?_
  rintro z (⟨_, rfl⟩ | ⟨_, rfl⟩ | ⟨n, r, w, q, h⟩)
  · exact ⟨py, fy⟩
  · exact ⟨px, fx⟩
  · have sum : ∀ i, i < n → ∀ a, wm (w i) a ≠ 0 → (∃ k, a = .input k) ∨ a = c := by
      intro i hi a ha
      rw [h.sum i hi] at ha
      by_cases h1 : wm (wd x i) a = 0
      · exact .inr (hy i a fun h2 => ha (by rw [h1, h2]; rfl))
      · exact .inl (input_of_ext (ex i) h1)
    refine ⟨h.past px py (fun i hi t e => hP t ?_) (fun _ i hi t e => hP t ?_), h.fresh fx fy⟩
    · refine merged_few ((h.carryQ20 fx fy sx sy sxy i hi).of_ct e) (few_of c fun a ha => ?_)
      rw [← wm_ct e, wm_carryIn] at ha
      by_cases h1 : wm (w i) a = 0
      · rw [h1] at ha
        split at ha
        · exact sum (i - 1) (by omega) a (by simpa using ha)
        · simp at ha
      · exact sum i hi a h1
    · have hg : L1 (fun a => wm (wd y i) a + (-2 * wm (q i) a + if 0 < i then wm (q (i - 1)) a else 0)) 4 :=
        (fy i).l1.add (((h.qOne i hi).l1.scale (-2)).add ((h.qOne (i - 1) (by omega)).l1.if (0 < i)))
      refine le_trans (merged_split (f := wm (wd x i)) (fun a => ?_) (fx i).q2 hg ?_ ?_) (by decide : 1 + 4 ^ 2 ≤ 20)
      · rw [← wm_ct e, wm_afterCarry, h.sum i hi]; simp; ring
      · intro a b ha hb hab
        obtain ⟨k, rfl⟩ := input_of_ext (ex i) ha
        obtain ⟨l, rfl⟩ := input_of_ext (ex i) hb
        simp only [sid] at hab
        rw [show k = l by omega]
      · intro a b ha hb hab
        obtain ⟨k, rfl⟩ := input_of_ext (ex i) ha
        have : ∃ acc t, b = .boot acc t := by
          by_cases h1 : wm (wd y i) b = 0
          · by_cases h0 : wm (q i) b = 0
            · rw [h0, h1] at hb
              split at hb
              · exact sumBoots h (i := i - 1) (by omega) (by simpa using hb)
              · simp at hb
            · exact sumBoots h hi h0
          · rw [hy i b h1]; exact hc
        obtain ⟨acc, u, rfl⟩ := this
        simp only [sid] at hab
        omega

theorem round_merged (hP : ∀ t : Term, t.mergedWeight ≤ (if 85 ≤ pc.params.quadWeight then 85 else 22) → P t) (gx : Gen x)
    (px : Past P x) (pos : Nat) : Ensures (roundAtImpl freeScheme pc x pos) fun z => Past P z ∧ Fresh z := by
  have h20 : ∀ t : Term, t.mergedWeight ≤ 20 → P t := fun t h => hP t (h.trans (by split <;> decide))
  have h4 : ∀ t : Term, L1 t.mult 4 → P t := fun t h => h20 t ((merged_L1 h).trans (by decide))
  have gt := gx.take (pos - 1)
  refine round_now h4 px gx.fresh pos (sgn_merged hP (px.take _) gt).call ?_
  intro w hw ow bw
  have ex : ∀ i, Ext (wm (wd (ctShift pc (x.drop pos) pos) i)) := by
    intro i acc t
    rw [(wd_shift (pc := pc) (x.drop pos) pos i).1]
    split
    · rfl
    · rw [wd_drop]; exact gx.ext _ acc t
  obtain ⟨c, hc, oc⟩ : ∃ c, (∃ acc u, c = Term.boot acc u) ∧ ∀ a, wm w a ≠ 0 → a = c := by
    obtain ⟨c, _, hc⟩ := ow
    by_cases h0 : wm w c = 0
    · refine ⟨.boot [] (.input 0), ⟨_, _, rfl⟩, fun a ha => ?_⟩
      by_cases hac : a = c
      · subst hac; exact absurd h0 ha
      · exact absurd (hc a hac) ha
    · exact ⟨c, bw c h0, fun a ha => by by_contra hac; exact ha (hc a hac)⟩
  refine (addOne_merged h20 pc ((gx.fresh.drop pos).shift pos) ((gx.sep.drop pos).shift pos) ex (c := c) ?_ ?_ ?_ hc ?_ ((px.drop pos).shift pos) ?_).call
  · intro i
    rcases wd_top (pc := pc) pos w i with e | e
    · rw [e]; exact ow
    · rw [wm_triv e]; exact One.zero
  · intro i j hij
    by_cases hi : i = pos
    · rw [wm_triv (w := wd (trivCt Term pc pos ++ [w]) j) ?_]
      · exact Disj.zero.symm
      · by_cases hj : j < pos
        · rw [wd_lt (by simp [trivCt]; omega), List.getElem_append_left (by simpa [trivCt] using hj)]
          simp [trivCt]; rfl
        · exact wd_ge_triv (by simp [trivCt]; omega)
    · rw [wm_triv (w := wd (trivCt Term pc pos ++ [w]) i) ?_]
      · exact Disj.zero
      · by_cases hi' : i < pos
        · rw [wd_lt (by simp [trivCt]; omega), List.getElem_append_left (by simpa [trivCt] using hi')]
          simp [trivCt]; rfl
        · exact wd_ge_triv (by simp [trivCt]; omega)
  · intro i j
    rcases wd_top (pc := pc) pos w j with e | e
    · rw [e]; exact One.ext_disj (ex _) bw
    · rw [wm_triv e]; exact Disj.zero.symm
  · intro i a ha
    rcases wd_top (pc := pc) pos w i with e | e
    · rw [e] at ha; exact oc a ha
    · rw [wm_triv e] at ha; exact absurd rfl ha
  · intro i
    rcases wd_top (pc := pc) pos w i with e | e
    · rw [e]; exact hw
    · exact Hist.triv e

/-- addition of trivial words -/
theorem addTriv_merged (hP : ∀ t : Term, t.mergedWeight ≤ 10 → P t) (gx : Gen x) (px : Past P x) (ht : ∀ i, (wd y i).isTriv = true) :
    Ensures (addSubImpl freeScheme true pc x y true) (Past P) := by
  have gy : Gen y := ⟨fun i => by rw [wm_triv (ht i)]; exact One.zero, fun i j _ => by rw [wm_triv (ht i)]; exact Disj.zero,
    fun i acc t => by rw [wm_triv (ht i)], fun i h => by rw [ht] at h; cases h⟩
  have py : Past P y := fun i => Hist.triv (ht i)
  have sxy : Apart x y := fun i j => by rw [wm_triv (w := wd y j) (ht j)]; exact Disj.zero.symm
  refine (addSub_shape pc true true x y).mono ?_
  rintro z (⟨_, rfl⟩ | ⟨_, rfl⟩ | ⟨n, r, w, q, h⟩)
  · exact py
  · exact px
  have hw : ∀ i, i < n → ∀ a, wm (w i) a = wm (wd x i) a := fun i hi a => by
    rw [h.sum i hi, wm_triv (ht i)]
    simp
  refine h.past px py (fun i hi t e => hP t ?_) fun _ i hi t e => hP t ?_
  · refine merged_few (Q2.of_ct (B := 10) ?_ e) (few_of t fun a ha => .inl ?_)
    · by_cases hri : r < i
      · refine (sum3 (gx.fresh i) (gx.fresh (i - 1)) (gx.sep i (i - 1) (by omega)) (r < i)).congr fun a => ?_
        rw [wm_carryIn, hw i hi, hw (i - 1) (by omega)]
      · refine (((gx.fresh i).q2.scale 3).mono (by decide)).congr fun a => ?_
        rw [wm_carryIn, hw i hi]
        simp only [hri, if_false, add_zero]
    · rw [← wm_ct e] at ha
      exact input_of_ext (carryIn_ext h gx gy hi) ha
  · exact refresh_gen h gx gy ((gx.fresh i).q2.congr (hw i hi)) hi e

/-- a constant is added as trivial words -/
theorem addConst_merged (hP : ∀ t : Term, t.mergedWeight ≤ 10 → P t) (gx : Gen x) (px : Past P x) (k : Int) :
    Ensures (addConstImpl freeScheme pc x k) (Past P) := by
  unfold addConstImpl
  refine Ensures.ite (fun _ => Ensures.pure px) fun _ => ?_
  refine (Ensures.trivial _).bind fun kAbs _ => ?_
  have ht : ∀ (l : List Nat) (f : Nat → Int) (i : Nat), (wd (l.map fun i => encryptWordTriv Term pc (f i)) i).isTriv = true := by
    intro l f i
    by_cases hi : i < l.length
    · rw [wd_lt (by simpa using hi)]; simp; rfl
    · exact wd_ge_triv (by simp; omega)
  exact (addTriv_merged hP gx px fun i => ht _ _ i).call

end Mg
end Parm
