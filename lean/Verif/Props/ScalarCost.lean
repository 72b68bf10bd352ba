import Verif.Proof.ScalarCost

/-!
# Property C60: the number of bootstraps of scalar multiplication
-/

namespace Parm
variable {S : Scheme} {pc : Cloud}

/-- **C60.** With the shipped table, in both builds, for every ciphertext `x` and `i32` scalar `k`: if
`scalar_mul(k, x)` returns, it took at most `A · 2(n + l + 6)` bootstraps, where `n` is the number of words of `x`, `l`
a bit length of `|k|`, and `A`, the number of additions, is one less than the number of nonzero digits of the recoding
of `|k|`, and never more than 14. -/
theorem C60_cost (hasc : pc.asc = asc12) {k : Int} (hk1 : -2 ^ 31 ≤ k) (hk2 : k < 2 ^ 31) {ds : List Int}
    (hds : Returns (koyamaTsuruokaVec .release k.natAbs) ds 0) {l : Nat} (hl : k.natAbs < 2 ^ l) {x z : Ctxt S.C}
    {s s' : St} (h : ctScalarMul S pc k x s = .ok (z, s')) :
    s'.pbs ≤ s.pbs + min 14 (digitWeight ds - 1) * (2 * (x.length + l + 6)) :=
  ((Within.scalarMulImpl hasc hk1 hk2 hds hl x).call s z s' h).2

/-- **C60**, in terms of the bits of the scalar: at most as many additions as adding up the shifted copies of `x`. -/
theorem C60_cost_bits (hasc : pc.asc = asc12) {k : Int} (hk1 : -2 ^ 31 ≤ k) (hk2 : k < 2 ^ 31) {l : Nat}
    (hl : k.natAbs < 2 ^ l) {x z : Ctxt S.C} {s s' : St} (h : ctScalarMul S pc k x s = .ok (z, s')) :
    s'.pbs ≤ s.pbs + min 14 (binWeight k.natAbs - 1) * (2 * (x.length + l + 6)) := by
  by_cases h0 : k.natAbs = 0
  · have := C60_cost hasc hk1 hk2 (ds := [0]) (by rw [h0]; exact C28_zero _) hl h
    have e : digitWeight [0] - 1 = 0 := by decide
    rw [e] at this
    refine this.trans (Nat.add_le_add_left (Nat.mul_le_mul_right _ (by omega)) _)
  · obtain ⟨ds, d1, -, d3⟩ := C29_weight_partial h0 (show k.natAbs < 2 ^ 32 by omega)
    refine (C60_cost hasc hk1 hk2 d1 hl h).trans (Nat.add_le_add_left (Nat.mul_le_mul_right _ (by omega)) _)

theorem binWeight_pow {j : Nat} (hj : j < 32) : binWeight (2 ^ j) = 1 := by
  unfold binWeight
  have : ∀ i, (2 ^ j).testBit i = decide (j = i) := fun i => Nat.testBit_two_pow
  simp only [this]
  have h2 : ∀ n, (List.range n).countP (fun i => decide (j = i)) = if j < n then 1 else 0 := by
    intro n
    induction n with
    | zero => simp
    | succ n ih =>
      rw [List.range_succ, List.countP_append, ih, List.countP_singleton]
      by_cases h1 : j = n
      · subst h1; simp
      · by_cases h3 : j < n
        · simp [h1, h3]; omega
        · simp [h1, h3]; omega
  rw [h2, if_pos hj]

/-- **C60.** Multiplying by plus or minus a power of two is free. -/
theorem C60_power_free (hasc : pc.asc = asc12) {k : Int} (hk1 : -2 ^ 31 ≤ k) (hk2 : k < 2 ^ 31) {j : Nat}
    (hk : k.natAbs = 2 ^ j) {x z : Ctxt S.C} {s s' : St} (h : ctScalarMul S pc k x s = .ok (z, s')) :
    s'.pbs ≤ s.pbs := by
  have hj : j < 32 := by
    by_contra hc
    have : 2 ^ 32 ≤ 2 ^ j := Nat.pow_le_pow_right (by norm_num) (by omega)
    omega
  have := C60_cost_bits hasc hk1 hk2 (l := j + 1) (by rw [hk, pow_succ]; have := Nat.two_pow_pos j; omega) h
  rw [hk, binWeight_pow hj] at this
  simpa using this

/-- Case: `239 = -1 - 16 + 256` is recoded with three digits, so at most two additions. -/
example (hasc : pc.asc = asc12) {x z : Ctxt S.C} {s s' : St} (h : ctScalarMul S pc 239 x s = .ok (z, s')) :
    s'.pbs ≤ s.pbs + 2 * (2 * (x.length + 8 + 6)) := by
  have := C60_cost hasc (k := 239) (by norm_num) (by norm_num) (ds := [-1, 0, 0, 0, -1, 0, 0, 0, 1])
    (Returns.run fun s => ⟨s.region, rfl⟩) (l := 8) (by decide) h
  simpa [digitWeight] using this

end Parm
