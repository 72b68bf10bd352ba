import Verif.Props.MergedOps
import Verif.Proof.Merged
import Mathlib.Algebra.BigOperators.Ring.Finset
import Mathlib.Tactic.Ring

/-!
# Property C80: what the weight over different ciphertexts is of the noise

If the errors of different ciphertexts are uncorrelated and have variance `V`, then the error of a combination has variance
`mergedWeight · V`.
-/

namespace Parm

/-- **C80.** Let the phase of ciphertext `k` be a message and an error that depends on chance (`Ω`, with weights `p`), errors
of different ciphertexts be uncorrelated, and each have second moment `V`.  Then the phase of a word is a message and an error
of second moment `mergedWeight · V`. -/
theorem C80_variance {S : Scheme} [AddCommGroup S.C] (hS : Lawful S) (phase : S.C →+ BitVec 64) {Ω K : Type} [Fintype Ω]
    [CommRing K] (p : Ω → K) (V : K) (ρ : Ω → Nat → S.C) (t : Term) (msg : Nat → BitVec 64) (err : Nat → Ω → ℤ)
    (hp : ∀ a ∈ t.samples, ∀ k, a.comb.1 = Finsupp.single k 1 → ∀ ω, phase (a.eval S (ρ ω)) = msg k + (err k ω : ℤ))
    (hc : ∀ k ∈ t.comb.1.support, ∀ l ∈ t.comb.1.support, k ≠ l → ∑ ω, p ω * (err k ω * err l ω) = 0)
    (hv : ∀ k ∈ t.comb.1.support, ∑ ω, p ω * (err k ω * err k ω) = V) :
    ∃ (M : BitVec 64) (E : Ω → ℤ), (∀ ω, phase (t.eval S (ρ ω)) = M + (E ω : ℤ)) ∧
      ∑ ω, p ω * (E ω * E ω) = t.mergedWeight * V := by
  classical
  obtain ⟨pt, hpt⟩ := hS.addPt
  refine ⟨∑ k ∈ t.comb.1.support, t.comb.1 k • msg k + phase (pt t.comb.2),
    fun ω => ∑ k ∈ t.comb.1.support, t.comb.1 k * err k ω, fun ω => ?_, ?_⟩
  · have lin := Mg.linear_sum (fun t => phase (t.eval S (ρ ω))) (phase.comp pt)
      (fun s t => by rw [← map_add]; exact congrArg phase (hS.add _ _)) (fun t => by rw [← map_neg]; exact congrArg phase (hS.neg _))
      (fun t k => by rw [← map_zsmul]; exact congrArg phase (hS.mulC _ _))
      (fun t q => by rw [AddMonoidHom.comp_apply, ← map_add]; exact congrArg phase (hpt _ _)) t t.samples (Finset.Subset.refl _)
    have hs : t.comb.1.support ⊆ t.samples.image Mg.sid := by
      intro k hk
      by_contra hc
      refine (Finsupp.mem_support_iff.1 hk) ?_
      rw [Mg.comb_apply]
      refine Finset.sum_eq_zero fun a ha => ?_
      obtain ⟨h1, rfl⟩ := Finset.mem_filter.1 ha
      exact absurd (Finset.mem_image_of_mem _ h1) hc
    have key : ∑ a ∈ t.samples, t.mult a • phase (a.eval S (ρ ω)) =
        ∑ k ∈ t.comb.1.support, t.comb.1 k • (msg k + ((err k ω : ℤ) : BitVec 64)) := by
      rw [Finset.sum_subset hs fun k _ hk => by rw [Finsupp.notMem_support_iff.1 hk, zero_smul],
        ← Finset.sum_fiberwise_of_maps_to (g := Mg.sid) (t := t.samples.image Mg.sid) fun a ha => Finset.mem_image_of_mem _ ha]
      refine Finset.sum_congr rfl fun k _ => ?_
      rw [Mg.comb_apply, Finset.sum_smul]
      refine Finset.sum_congr rfl fun a ha => ?_
      obtain ⟨h1, h2⟩ := Finset.mem_filter.1 ha
      rw [hp a h1 k (by rw [Mg.comb_of_isSample (Mg.isSample_of_mem h1), h2]) ω]
    rw [lin, key, AddMonoidHom.comp_apply]
    simp only [smul_add, Finset.sum_add_distrib, zsmul_eq_mul]
    push_cast
    abel
  · have h1 : ∀ ω, (((∑ k ∈ t.comb.1.support, t.comb.1 k * err k ω : ℤ) : K) * ((∑ k ∈ t.comb.1.support, t.comb.1 k * err k ω : ℤ) : K))
        = ∑ k ∈ t.comb.1.support, ∑ l ∈ t.comb.1.support, (t.comb.1 k : K) * t.comb.1 l * (err k ω * err l ω) := by
      intro ω
      push_cast
      rw [Finset.sum_mul_sum]
      refine Finset.sum_congr rfl fun k _ => Finset.sum_congr rfl fun l _ => by ring
    have h2 : ∑ ω, p ω * (((∑ k ∈ t.comb.1.support, t.comb.1 k * err k ω : ℤ) : K) * ((∑ k ∈ t.comb.1.support, t.comb.1 k * err k ω : ℤ) : K))
        = ∑ k ∈ t.comb.1.support, ∑ l ∈ t.comb.1.support, (t.comb.1 k : K) * t.comb.1 l * ∑ ω, p ω * (err k ω * err l ω) := by
      simp only [h1, Finset.mul_sum]
      rw [Finset.sum_comm]
      refine Finset.sum_congr rfl fun k _ => ?_
      rw [Finset.sum_comm]
      refine Finset.sum_congr rfl fun l _ => Finset.sum_congr rfl fun ω _ => by ring
    rw [h2]
    unfold Term.mergedWeight
    push_cast
    rw [Finset.sum_mul]
    refine Finset.sum_congr rfl fun k hk => ?_
    rw [Finset.sum_eq_single k (fun l h' hl => by rw [hc k hk l h' (Ne.symm hl), mul_zero]) (fun h => absurd hk h), hv k hk]
    have : ((t.comb.1 k).natAbs : K) ^ 2 = (t.comb.1 k : K) * t.comb.1 k := by
      rw [← Int.cast_natCast, Int.natCast_natAbs, ← Int.cast_pow, sq_abs, pow_two, Int.cast_mul]
    rw [this]

/-! A case: `3 x + y` with errors `±1`, phases that are the ciphertexts themselves -/

private abbrev plain : Scheme where
  C := BitVec 64
  add a b := a + b
  neg a := -a
  mulC a k := k.toInt • a
  addPt a p := a + p
  pbs _ a := a

private theorem plain_lawful : Lawful plain where
  add _ _ := rfl
  neg _ := rfl
  mulC _ _ := rfl
  addPt := ⟨AddMonoidHom.id _, fun _ _ => rfl⟩

private def coin (b : Bool) : ℤ := if b then 1 else -1

example : ∃ (M : BitVec 64) (E : Bool × Bool → ℤ),
    (∀ ω : Bool × Bool, (5 + (coin ω.1 : BitVec 64)) * 3 + (7 + (coin ω.2 : BitVec 64)) = M + (E ω : ℤ)) ∧
    ∑ ω, (1 / 4 : ℚ) * (E ω * E ω) = 10 := by
  have hs : ((Term.mulC (.input 0) 3).add (.input 1)).comb.1 = Finsupp.single 0 3 + Finsupp.single 2 1 := by
    rw [Mg.comb_add, Mg.comb_mulC, Mg.comb_input, Mg.comb_input, show (3 : BitVec 64).toInt = 3 by decide]
    simp
  have hsup : ((Term.mulC (.input 0) 3).add (.input 1)).comb.1.support ⊆ {0, 2} := by
    rw [hs]
    intro k hk
    by_contra hc
    simp only [Finset.mem_insert, Finset.mem_singleton, not_or] at hc
    apply Finsupp.mem_support_iff.1 hk
    rw [Finsupp.add_apply, Finsupp.single_apply, Finsupp.single_apply, if_neg (by omega), if_neg (by omega), add_zero]
  have hw : ((Term.mulC (.input 0) 3).add (.input 1)).mergedWeight = 10 := by
    unfold Term.mergedWeight
    rw [Finset.sum_subset hsup fun k _ hk => by rw [Finsupp.notMem_support_iff.1 hk]; rfl, hs]
    simp [Finsupp.single_apply]
  obtain ⟨M, E, h1, h2⟩ := C80_variance plain_lawful (AddMonoidHom.id _) (Ω := Bool × Bool) (fun _ => (1 / 4 : ℚ)) 1
    (fun ω i => if i = 0 then 5 + (coin ω.1 : BitVec 64) else 7 + (coin ω.2 : BitVec 64)) ((Term.mulC (.input 0) 3).add (.input 1))
    (fun k => if k = 0 then 5 else 7) (fun k ω => if k = 0 then coin ω.1 else coin ω.2)
    (fun a ha k hk ω => by
      have : a = .input 0 ∨ a = .input 1 := by simpa [Term.samples] using ha
      rcases this with rfl | rfl
      · rw [Mg.comb_input] at hk
        obtain rfl := (Finsupp.single_left_inj one_ne_zero).1 hk
        rfl
      · rw [Mg.comb_input] at hk
        obtain rfl := (Finsupp.single_left_inj one_ne_zero).1 hk
        rfl)
    (fun k hk l hl hkl => by
      have h1 := hsup hk
      have h2 := hsup hl
      simp only [Finset.mem_insert, Finset.mem_singleton] at h1 h2
      rcases h1 with rfl | rfl <;> rcases h2 with rfl | rfl
      · exact absurd rfl hkl
      · decide +kernel
      · decide +kernel
      · exact absurd rfl hkl)
    (fun k hk => by
      have h1 := hsup hk
      simp only [Finset.mem_insert, Finset.mem_singleton] at h1
      rcases h1 with rfl | rfl <;> decide +kernel)
  refine ⟨M, E, fun ω => ?_, by rw [h2, hw]; norm_num⟩
  rw [← h1 ω]
  simp only [AddMonoidHom.id_apply, Term.eval, if_true, if_neg (show ¬ (1 = 0) by decide)]
  rw [show (3 : BitVec 64).toInt = 3 by decide, zsmul_eq_mul, mul_comm]
  rfl

end Parm
