import Verif.Props.Weights
import Verif.Proof.WeightsRows

/-!
# Property C39: products and squares of operands with trivial zeros

Shifted ciphertexts have trivial zeros below.  Schoolbook multiplication keeps within the weight wherever the zeros are.  In Karatsuba's algorithm and in the division of a square into halves, a half that
consists of zeros makes intermediate results coincide, and a word is bootstrapped to which the same sample contributes twice.
-/

namespace Parm

/-- **C39** fails for a product of one encrypted word and another one shifted left by 15: a word of weight 26 is bootstrapped. -/
theorem C39_mul_zeros_exceeds :
    ¬ Boots (fun t => t.quadWeight ≤ 25) (ctMul freeScheme (cloudQ 22) (inputs 0 1) (ctShift (cloudQ 22) (inputs 1 1) 15)) := by
  intro h
  obtain ⟨t, ht, e⟩ := h.weights (26, 8) (List.mem_of_getElem? (i := 5267) (by decide +kernel))
  simp only [Prod.mk.injEq] at e
  omega

/-- ten words, two of them encrypted: `a·2^5 + b·2^9` -/
def sparse : Ctxt Term :=
  List.replicate 5 (encryptWordTriv Term (cloudQ 22) 0) ++ inputs 0 1 ++ List.replicate 3 (encryptWordTriv Term (cloudQ 22) 0) ++ inputs 1 1

/-- **C39** fails for the square of `a·2^5 + b·2^9`. -/
theorem C39_squ_zeros_exceeds : ¬ Boots (fun t => t.quadWeight ≤ 25) (ctSqu freeScheme (cloudQ 22) sparse) := by
  intro h
  obtain ⟨t, ht, e⟩ := h.weights (26, 8) (List.mem_of_getElem? (i := 73) (by decide +kernel))
  simp only [Prod.mk.injEq] at e
  omega

open Wt in
private theorem ct_pad {pc : Cloud} {x : Ctxt Term} {k i : Nat} {t : Term}
    (h : (wd (x ++ List.replicate k (encryptWordTriv Term pc 0)) i).ct = .ct t) : (wd x i).ct = .ct t := by
  by_cases hi : i < x.length
  · rwa [wd_append_left hi] at h
  · exfalso
    have ht : (wd (x ++ List.replicate k (encryptWordTriv Term pc 0)) i).isTriv = true := by
      have := wd_append_right (x := x) (y := List.replicate k (encryptWordTriv Term pc 0)) (i - x.length)
      rw [show x.length + (i - x.length) = i by omega] at this
      rw [this]
      by_cases h2 : i - x.length < k
      · rw [wd_lt (by simpa using h2), List.getElem_replicate]; rfl
      · exact wd_ge_triv (by simpa using h2)
    rw [not_triv_of_ct h] at ht
    cases ht

open Wt in
private theorem sparse_align {pc : Cloud} {x y : Ctxt Term} (hm : pc.msgMod = 32) (h : Independent (x ++ y))
    (hz : ∀ w ∈ x ++ y, w.isTriv = true → w = encryptWordTriv Term pc 0) (k l : Nat) :
    Sparse (x ++ List.replicate k (encryptWordTriv Term pc 0)) (y ++ List.replicate l (encryptWordTriv Term pc 0)) := by
  have zero : ∀ w : Word Term, w = encryptWordTriv Term pc 0 → w.ct = .triv 0 ∧ w.msgMod = 32 := by
    rintro _ rfl
    refine ⟨?_, hm⟩
    simp only [encryptWordTriv, hm]
    congr 1
  have lt : ∀ (x : Ctxt Term) i t, (wd x i).ct = .ct t → ∃ hi : i < x.length, x[i].ct = .ct t := by
    intro x i t e
    by_cases hi : i < x.length
    · exact ⟨hi, by rwa [wd_lt hi] at e⟩
    · rw [wd_ge (by omega)] at e; cases e
  have gx : ∀ i t, (wd x i).ct = .ct t → ∃ hi : i < (x ++ y).length, (x ++ y)[i].ct = .ct t ∧ i < x.length := by
    intro i t e
    obtain ⟨hi, e⟩ := lt x i t e
    exact ⟨by simp; omega, by rwa [List.getElem_append_left hi], hi⟩
  have gy : ∀ i t, (wd y i).ct = .ct t → ∃ hi : x.length + i < (x ++ y).length, (x ++ y)[x.length + i].ct = .ct t := by
    intro i t e
    obtain ⟨hi, e⟩ := lt y i t e
    refine ⟨by simp; omega, ?_⟩
    rw [List.getElem_append_right (by omega)]
    simpa using e
  have pad : ∀ (x : Ctxt Term) (k : Nat), (∀ w ∈ x, w.isTriv = true → w = encryptWordTriv Term pc 0) →
      ∀ w ∈ x ++ List.replicate k (encryptWordTriv Term pc 0), w.isTriv = true → w.ct = .triv 0 ∧ w.msgMod = 32 := by
    intro x k hx w hw ht
    rw [List.mem_append] at hw
    rcases hw with hw | hw
    · exact zero w (hx w hw ht)
    · exact zero w (List.eq_of_mem_replicate hw)
  refine ⟨fun i hi => ?_, fun i hi => ?_, fun i i' t e e' => ?_, fun i i' t e e' => ?_, fun i j t e e' => ?_,
    pad x k fun w hw => hz w (by simp [hw]), pad y l fun w hw => hz w (by simp [hw])⟩
  · obtain ⟨t, e⟩ := ct_of_not_triv hi
    obtain ⟨h1, h2, _⟩ := gx i t (ct_pad e)
    obtain ⟨a, ha⟩ := h.1 _ (List.getElem_mem h1) (not_triv_of_ct h2)
    rw [h2] at ha
    injection ha with ha
    exact ⟨a, by rw [e, ha]⟩
  · obtain ⟨t, e⟩ := ct_of_not_triv hi
    obtain ⟨h1, h2⟩ := gy i t (ct_pad e)
    obtain ⟨a, ha⟩ := h.1 _ (List.getElem_mem h1) (not_triv_of_ct h2)
    rw [h2] at ha
    injection ha with ha
    exact ⟨a, by rw [e, ha]⟩
  · obtain ⟨h1, h2, _⟩ := gx i t (ct_pad e)
    obtain ⟨h3, h4, _⟩ := gx i' t (ct_pad e')
    exact h.2 i i' h1 h3 t h2 h4
  · obtain ⟨h1, h2⟩ := gy i t (ct_pad e)
    obtain ⟨h3, h4⟩ := gy i' t (ct_pad e')
    have := h.2 _ _ h1 h3 t h2 h4
    omega
  · obtain ⟨h1, h2, h5⟩ := gx i t (ct_pad e)
    obtain ⟨h3, h4⟩ := gy j t (ct_pad e')
    have := h.2 _ _ h1 h3 t h2 h4
    omega

open Wt in
private theorem bounds {P : Term → Prop} {m : M (Ctxt Term)} (h : Ensures m (Past P)) : Boots P m :=
  fun s z s' e => (h s z s' e).all

open Wt in
/-- **C39.** A product of up to 15 (or 17) words, any of which may be trivial zeros instead of different samples, bootstraps no word
of a quadratic weight above 20. -/
theorem C39_mul_zeros {pc : Cloud} {x y : Ctxt Term} (hm : pc.msgMod = 32) (h : Independent (x ++ y))
    (hz : ∀ w ∈ x ++ y, w.isTriv = true → w = encryptWordTriv Term pc 0)
    (hl : max x.length y.length < 16 ∨ max x.length y.length = 17) :
    Boots (fun t => t.quadWeight ≤ 20) (ctMul freeScheme pc x y) := by
  by_cases h1 : x.length ≤ 1 ∧ y.length ≤ 1
  · exact (C39_mul_one_word pc h h1.1 h1.2).mono fun t ht => le_trans ht (by decide)
  refine bounds (Ensures.call ?_)
  have hw : (x ++ List.replicate (y.length - x.length) (encryptWordTriv Term pc 0)).length = max x.length y.length := by
    simp; omega
  unfold mulImpl
  refine Ensures.ite (fun h0 => absurd (hw.symm.trans h0) (by omega)) fun h0 => Ensures.ite (fun h2 => absurd (hw.symm.trans h2) (by omega)) fun h2 => Ensures.ite (fun _ => ?_)
    fun h3 => absurd hl (hw ▸ h3)
  exact schoolbook_rows (fun t ht => Term.quadWeight_le ht) pc (sparse_align hm h hz _ _) (by simp; omega)

private theorem independent_insert {pc : Cloud} {u v : Ctxt Term} (h : Independent (u ++ v)) (k : Nat) :
    Independent (u ++ trivCt Term pc k ++ v) := by
  have key : ∀ i (hi : i < (u ++ trivCt Term pc k ++ v).length) t, (u ++ trivCt Term pc k ++ v)[i].ct = .ct t →
      (i < u.length ∧ ∃ h : i < (u ++ v).length, (u ++ v)[i].ct = .ct t) ∨
      (u.length + k ≤ i ∧ ∃ h : i - k < (u ++ v).length, (u ++ v)[i - k].ct = .ct t) := by
    intro i hi t e
    simp only [List.length_append, trivCt, List.length_replicate] at hi
    by_cases h1 : i < u.length
    · refine .inl ⟨h1, by simp; omega, ?_⟩
      rw [List.getElem_append_left (by simp [trivCt]; omega), List.getElem_append_left h1] at e
      rwa [List.getElem_append_left h1]
    · by_cases h2 : i < u.length + k
      · rw [List.getElem_append_left (by simp [trivCt]; omega), List.getElem_append_right (by omega)] at e
        simp [trivCt, encryptWordTriv] at e
      · refine .inr ⟨by omega, by simp; omega, ?_⟩
        rw [List.getElem_append_right (by simp [trivCt]; omega)] at e
        rw [List.getElem_append_right (by omega)]
        rw [← e]
        congr 2
        simp [trivCt]; omega
  refine ⟨fun w hw ht => ?_, fun i j hi hj t e e' => ?_⟩
  · simp only [List.mem_append] at hw
    rcases hw with (hw | hw) | hw
    · exact h.1 w (by simp [hw]) ht
    · rw [List.eq_of_mem_replicate hw] at ht; cases ht
    · exact h.1 w (by simp [hw]) ht
  · rcases key i hi t e with ⟨h1, h2, h3⟩ | ⟨h1, h2, h3⟩ <;> rcases key j hj t e' with ⟨g1, g2, g3⟩ | ⟨g1, g2, g3⟩ <;>
      have := h.2 _ _ h2 g2 t h3 g3 <;> omega

/-- **C39.** A product of encrypted operands that were shifted to the left, of up to 15 (or 17) words together with the zeros below, bootstraps
no word of a quadratic weight above 20. -/
theorem C39_mul_shifted {pc : Cloud} {x y : Ctxt Term} (hm : pc.msgMod = 32) (h : Independent (x ++ y))
    (hs : ∀ w ∈ x ++ y, w.isTriv = false) (a b : Nat)
    (hl : max (a + x.length) (b + y.length) < 16 ∨ max (a + x.length) (b + y.length) = 17) :
    Boots (fun t => t.quadWeight ≤ 20) (ctMul freeScheme pc (ctShift pc x a) (ctShift pc y b)) := by
  have e : ∀ (x : Ctxt Term) k, ctShift pc x k = trivCt Term pc k ++ x := by
    intro x k
    unfold ctShift
    split
    · rename_i h; rw [h]; rfl
    · rfl
  have tl : ∀ k, (trivCt Term pc k).length = k := fun k => by simp [trivCt]
  rw [e, e]
  refine C39_mul_zeros hm ?_ ?_ (by simpa only [List.length_append, tl] using hl)
  · have h1 : Independent (trivCt Term pc a ++ x ++ y) := by
      have := independent_insert (pc := pc) (u := []) (v := x ++ y) h a
      rwa [List.nil_append, ← List.append_assoc] at this
    have h2 := independent_insert (pc := pc) h1 b
    rwa [List.append_assoc] at h2
  · intro w hw ht
    simp only [List.mem_append] at hw hs
    rcases hw with (hw | hw) | (hw | hw)
    · exact List.eq_of_mem_replicate hw
    · rw [hs w (.inl hw)] at ht; cases ht
    · exact List.eq_of_mem_replicate hw
    · rw [hs w (.inr hw)] at ht; cases ht

/-- `a·2^3` (three words) times `b·2^12` (five words) -/
example : Boots (fun t => t.quadWeight ≤ 20)
    (ctMul freeScheme (cloudQ 22) (ctShift (cloudQ 22) (inputs 0 3) 3) (ctShift (cloudQ 22) (inputs 3 5) 12)) := by
  refine C39_mul_shifted rfl (inputs_independent 0 3 3 5 (by norm_num)) ?_ 3 12 (by decide)
  intro w hw
  simp only [List.mem_append, inputs, List.mem_map] at hw
  rcases hw with ⟨i, _, rfl⟩ | ⟨i, _, rfl⟩ <;> rfl

end Parm
