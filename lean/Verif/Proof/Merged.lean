import Verif.SpecMerged
import Verif.Proof.Weights
import Mathlib.Algebra.BigOperators.Group.Finset.Sigma
import Mathlib.Algebra.BigOperators.Finsupp.Basic
import Mathlib.Algebra.Order.BigOperators.Ring.Finset
import Mathlib.Algebra.Module.BigOperators
import Mathlib.Algebra.Order.BigOperators.Group.Finset
import Mathlib.Tactic.Abel

/-!
# Combinations of samples

A term is the same ciphertext as another in every lawful scheme iff both are the same combination.
-/

namespace Parm
namespace Mg

theorem comb_input (i : Nat) : (Term.input i).comb = (Finsupp.single (2 * i) 1, 0) := rfl
theorem comb_boot (acc : List (BitVec 64)) (t : Term) :
    (Term.boot acc t).comb = (Finsupp.single (2 * lookupNo (acc, t.comb) + 1) 1, 0) := rfl
theorem comb_add (s t : Term) : (Term.add s t).comb = s.comb + t.comb := rfl
theorem comb_neg (t : Term) : (Term.neg t).comb = - t.comb := rfl
theorem comb_mulC (t : Term) (k : BitVec 64) : (Term.mulC t k).comb = k.toInt • t.comb := rfl
theorem comb_addPt (t : Term) (p : BitVec 64) : (Term.addPt t p).comb = t.comb + (0, p) := rfl

/-- number of a sample -/
noncomputable def sid : Term → ℕ
  | .input i => 2 * i
  | .boot acc t => 2 * lookupNo (acc, t.comb) + 1
  | _ => 0

/-- an input or a bootstrap -/
def IsSample (a : Term) : Prop := (∃ i, a = .input i) ∨ ∃ acc t, a = .boot acc t

theorem isSample_of_mem {a : Term} : ∀ {t : Term}, a ∈ t.samples → IsSample a
  | .input i, h => by
    unfold Term.samples at h
    exact .inl ⟨i, by simpa using h⟩
  | .boot acc t, h => by
    unfold Term.samples at h
    exact .inr ⟨acc, t, by simpa using h⟩
  | .add s t, h => by
    unfold Term.samples at h
    exact (Finset.mem_union.1 h).elim isSample_of_mem isSample_of_mem
  | .neg t, h => isSample_of_mem (t := t) (by unfold Term.samples at h; exact h)
  | .mulC t _, h => isSample_of_mem (t := t) (by unfold Term.samples at h; exact h)
  | .addPt t _, h => isSample_of_mem (t := t) (by unfold Term.samples at h; exact h)

theorem size_of_mem {a : Term} : ∀ {t : Term}, a ∈ t.samples → sizeOf a ≤ sizeOf t
  | .input i, h => by
    unfold Term.samples at h
    rw [Finset.mem_singleton.1 h]
  | .boot acc t, h => by
    unfold Term.samples at h
    rw [Finset.mem_singleton.1 h]
  | .add s t, h => by
    unfold Term.samples at h
    rcases Finset.mem_union.1 h with h | h
    · have := size_of_mem h; simp only [Term.add.sizeOf_spec]; omega
    · have := size_of_mem h; simp only [Term.add.sizeOf_spec]; omega
  | .neg t, h => by
    have := size_of_mem (t := t) (by unfold Term.samples at h; exact h)
    simp only [Term.neg.sizeOf_spec]; omega
  | .mulC t _, h => by
    have := size_of_mem (t := t) (by unfold Term.samples at h; exact h)
    simp only [Term.mulC.sizeOf_spec]; omega
  | .addPt t _, h => by
    have := size_of_mem (t := t) (by unfold Term.samples at h; exact h)
    simp only [Term.addPt.sizeOf_spec]; omega

/-- a value that is linear in the samples -/
theorem linear_sum {G : Type*} [AddCommGroup G] (v : Term → G) (e : BitVec 64 →+ G)
    (hadd : ∀ s t, v (.add s t) = v s + v t) (hneg : ∀ t, v (.neg t) = - v t)
    (hmul : ∀ t k, v (.mulC t k) = k.toInt • v t) (hpt : ∀ t p, v (.addPt t p) = v t + e p) :
    ∀ (t : Term) (F : Finset Term), t.samples ⊆ F → v t = ∑ a ∈ F, t.mult a • v a + e t.comb.2 := by
  intro t
  induction t with
  | input i =>
    intro F hF
    rw [Finset.sum_eq_single (.input i)]
    · rw [comb_input, show e (0 : BitVec 64) = 0 from map_zero e]; simp [Term.mult]
    · intro b _ hb
      simp [Term.mult, hb]
    · intro h
      exact absurd (hF (by unfold Term.samples; simp)) h
  | boot acc t _ =>
    intro F hF
    rw [Finset.sum_eq_single (.boot acc t)]
    · rw [comb_boot, show e (0 : BitVec 64) = 0 from map_zero e]; simp [Term.mult]
    · intro b _ hb
      simp [Term.mult, hb]
    · intro h
      exact absurd (hF (by unfold Term.samples; simp)) h
  | add s t hs ht =>
    intro F hF
    unfold Term.samples at hF
    rw [hadd, hs F (Finset.union_subset_left hF), ht F (Finset.union_subset_right hF), comb_add, Prod.snd_add, map_add]
    simp only [Term.mult, add_smul, Finset.sum_add_distrib]
    abel
  | neg t ht =>
    intro F hF
    rw [hneg, ht F hF, comb_neg, Prod.snd_neg, map_neg]
    simp only [Term.mult, neg_smul, Finset.sum_neg_distrib]
    abel
  | mulC t k ht =>
    intro F hF
    rw [hmul, ht F hF, comb_mulC, Prod.smul_snd, map_zsmul, smul_add, Finset.smul_sum]
    simp only [Term.mult, mul_smul]
  | addPt t p ht =>
    intro F hF
    rw [hpt, ht F hF, comb_addPt, Prod.snd_add, map_add, add_assoc]
    simp only [Term.mult]

theorem comb_of_isSample {a : Term} (h : IsSample a) : a.comb.1 = Finsupp.single (sid a) 1 := by
  rcases h with ⟨i, rfl⟩ | ⟨acc, t, rfl⟩ <;> rfl

/-- multiplicity of a ciphertext -/
theorem comb_apply (t : Term) (k : ℕ) : t.comb.1 k = ∑ a ∈ t.samples with sid a = k, t.mult a := by
  have h := linear_sum (G := ℕ →₀ ℤ) (fun t => t.comb.1) 0 (fun _ _ => rfl) (fun _ => rfl) (fun _ _ => rfl)
    (fun t p => by simp [comb_addPt]) t t.samples (Finset.Subset.refl _)
  rw [h]
  simp only [AddMonoidHom.zero_apply, add_zero, Finsupp.finsetSum_apply, Finsupp.smul_apply]
  rw [Finset.sum_filter]
  refine Finset.sum_congr rfl fun a ha => ?_
  rw [comb_of_isSample (isSample_of_mem ha), Finsupp.single_apply]
  split_ifs <;> simp

theorem lawful_comb : Lawful combScheme where
  add _ _ := rfl
  neg _ := rfl
  mulC _ _ := rfl
  addPt := ⟨AddMonoidHom.inr _ _, fun _ _ => rfl⟩

/-- equal samples have equal values -/
theorem eval_of_comb {S : Scheme} [AddCommGroup S.C] (hS : Lawful S) (ρ : Nat → S.C) :
    ∀ (n : Nat) (s t : Term), sizeOf s ≤ n → sizeOf t ≤ n → s.comb = t.comb → s.eval S ρ = t.eval S ρ
  | n, s, t, h1, h2, e => by
    obtain ⟨pt, hpt⟩ := hS.addPt
    have lin := linear_sum (fun t => t.eval S ρ) pt (fun _ _ => hS.add _ _) (fun _ => hS.neg _) (fun _ _ => hS.mulC _ _)
      (fun _ _ => hpt _ _)
    have fib : ∀ a ∈ s.samples ∪ t.samples, ∀ b ∈ s.samples ∪ t.samples, sid a = sid b → a.eval S ρ = b.eval S ρ := by
      intro a ha b hb hab
      have hsz : ∀ c ∈ s.samples ∪ t.samples, sizeOf c ≤ n := by
        intro c hc
        rcases Finset.mem_union.1 hc with hc | hc
        · exact (size_of_mem hc).trans h1
        · exact (size_of_mem hc).trans h2
      have hsm : ∀ c ∈ s.samples ∪ t.samples, IsSample c := by
        intro c hc
        exact (Finset.mem_union.1 hc).elim isSample_of_mem isSample_of_mem
      have h3 := hsz a ha
      have h4 := hsz b hb
      rcases hsm a ha with ⟨i, rfl⟩ | ⟨acc, a', rfl⟩ <;> rcases hsm b hb with ⟨j, rfl⟩ | ⟨acc', b', rfl⟩
      · simp only [sid] at hab
        rw [show i = j by omega]
      · simp only [sid] at hab; omega
      · simp only [sid] at hab; omega
      · simp only [sid] at hab
        have := lookupNo_injective (a₁ := (acc, a'.comb)) (a₂ := (acc', b'.comb)) (by omega)
        injection this with e1 e2
        simp only [Term.boot.sizeOf_spec] at h3 h4
        unfold Term.eval
        rw [e1, eval_of_comb hS ρ (n - 1) a' b' (by omega) (by omega) e2]
    rw [lin s _ Finset.subset_union_left, lin t _ Finset.subset_union_right, e]
    congr 1
    rw [← sub_eq_zero, ← Finset.sum_sub_distrib]
    have h : ∀ k, ∑ a ∈ s.samples ∪ t.samples with sid a = k, (s.mult a - t.mult a) = 0 := by
      intro k
      have hs := comb_apply s k
      have ht := comb_apply t k
      rw [e] at hs
      have ext : ∀ u : Term, u.samples ⊆ s.samples ∪ t.samples →
          ∑ a ∈ s.samples ∪ t.samples with sid a = k, u.mult a = ∑ a ∈ u.samples with sid a = k, u.mult a := by
        intro u hu
        refine (Finset.sum_subset (Finset.filter_subset_filter _ hu) fun a h3 h4 => ?_).symm
        have : a ∉ u.samples := fun h => h4 (Finset.mem_filter.2 ⟨h, (Finset.mem_filter.1 h3).2⟩)
        have hz := linear_sum (G := ℤ) (fun v => v.mult a) 0 (fun _ _ => rfl) (fun _ => rfl) (fun _ _ => by simp [Term.mult])
          (fun _ _ => by simp [Term.mult]) u u.samples (Finset.Subset.refl _)
        rw [hz]
        simp only [AddMonoidHom.zero_apply, add_zero]
        refine Finset.sum_eq_zero fun b hb => ?_
        have hne : a ≠ b := by rintro rfl; exact this hb
        have : b.mult a = 0 := by
          rcases isSample_of_mem hb with ⟨i, rfl⟩ | ⟨acc, v, rfl⟩ <;> simp [Term.mult, hne]
        simp [this]
      rw [Finset.sum_sub_distrib, ext s Finset.subset_union_left, ext t Finset.subset_union_right, ← hs, ← ht, sub_self]
    rw [← Finset.sum_fiberwise_of_maps_to (g := sid) (t := (s.samples ∪ t.samples).image sid)
      fun a ha => Finset.mem_image_of_mem _ ha]
    refine Finset.sum_eq_zero fun k hk => ?_
    obtain ⟨b, hb, rfl⟩ := Finset.mem_image.1 hk
    have : ∀ a ∈ (s.samples ∪ t.samples).filter fun a => sid a = sid b,
        s.mult a • a.eval S ρ - t.mult a • a.eval S ρ = (s.mult a - t.mult a) • b.eval S ρ := by
      intro a ha
      obtain ⟨h3, h4⟩ := Finset.mem_filter.1 ha
      rw [fib a h3 b hb h4, sub_smul]
    rw [Finset.sum_congr rfl this, ← Finset.sum_smul, h, zero_smul]
termination_by n => n
decreasing_by
  simp only [Term.boot.sizeOf_spec] at h3
  omega

/-- Bounding the weight by classes of samples; samples that are the same ciphertext must be in the same class. -/
theorem merged_le {t : Term} {φ : Term → ℕ} (hφ : ∀ a ∈ t.samples, ∀ b ∈ t.samples, sid a = sid b → φ a = φ b) {B : ℕ}
    (hB : ∑ h ∈ t.samples.image φ, (∑ a ∈ t.samples with φ a = h, (t.mult a).natAbs) ^ 2 ≤ B) : t.mergedWeight ≤ B := by
  have hs : t.comb.1.support ⊆ t.samples.image sid := by
    intro k hk
    by_contra hc
    refine (Finsupp.mem_support_iff.1 hk) ?_
    rw [comb_apply]
    refine Finset.sum_eq_zero fun a ha => ?_
    obtain ⟨h1, rfl⟩ := Finset.mem_filter.1 ha
    exact absurd (Finset.mem_image_of_mem _ h1) hc
  unfold Term.mergedWeight
  refine (Finset.sum_le_sum_of_subset hs).trans (le_trans ?_ hB)
  have h1 : ∀ k ∈ t.samples.image sid, (t.comb.1 k).natAbs ^ 2 ≤ (∑ a ∈ t.samples with sid a = k, (t.mult a).natAbs) ^ 2 := by
    intro k _
    refine Nat.pow_le_pow_left ?_ 2
    rw [comb_apply]
    exact Int.natAbs_sum_le _ _
  refine (Finset.sum_le_sum h1).trans ?_
  -- the class of a ciphertext
  classical
  obtain ⟨ψ, hψ⟩ : ∃ ψ : ℕ → ℕ, ∀ a ∈ t.samples, ψ (sid a) = φ a := by
    refine ⟨fun k => if h : ∃ a ∈ t.samples, sid a = k then φ h.choose else 0, fun a ha => ?_⟩
    have h : ∃ b ∈ t.samples, sid b = sid a := ⟨a, ha, rfl⟩
    simp only [dif_pos h]
    exact hφ _ h.choose_spec.1 _ ha h.choose_spec.2
  rw [← Finset.sum_fiberwise_of_maps_to (s := t.samples.image sid) (g := ψ) (t := t.samples.image φ) fun k hk => by
    obtain ⟨a, ha, rfl⟩ := Finset.mem_image.1 hk
    rw [hψ a ha]
    exact Finset.mem_image_of_mem _ ha]
  refine Finset.sum_le_sum fun h _ => ?_
  refine (Finset.sum_sq_le_sq_sum_of_nonneg fun _ _ => Nat.zero_le _).trans (Nat.pow_le_pow_left ?_ 2)
  rw [← Finset.sum_fiberwise_of_maps_to (s := t.samples.filter fun a => φ a = h) (g := sid)
    (t := (t.samples.image sid).filter fun k => ψ k = h) fun a ha => by
      obtain ⟨h3, h4⟩ := Finset.mem_filter.1 ha
      exact Finset.mem_filter.2 ⟨Finset.mem_image_of_mem _ h3, (hψ a h3).trans h4⟩]
  refine Finset.sum_le_sum fun k hk => Finset.sum_le_sum_of_subset ?_
  intro a ha
  obtain ⟨h3, h4⟩ := Finset.mem_filter.1 ha
  refine Finset.mem_filter.2 ⟨Finset.mem_filter.2 ⟨h3, ?_⟩, h4⟩
  rw [← hψ a h3, h4]
  exact (Finset.mem_filter.1 hk).2

end Mg
end Parm
