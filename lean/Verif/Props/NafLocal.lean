import Verif.Proof.NafLocal
import Verif.Props.Naf
import Verif.Props.Runs

/-! **C30**: exactly which numbers `naf_vec` gives in non-adjacent form. -/

namespace Parm

/-- The bit pattern `0 1 0 1 1` (highest bit first) occurs in `k`, its lowest bit at `j`.
Above the highest bit of `k` there are zeros, so `1 0 1 1` at the top counts. -/
def HasPattern (k j : Nat) : Prop :=
  k.testBit j ∧ k.testBit (j + 1) ∧ ¬ k.testBit (j + 2) ∧ k.testBit (j + 3) ∧ ¬ k.testBit (j + 4)

theorem bitAt_testBit (k i : Nat) : (bitAt k i = 1 ↔ k.testBit i) ∧ (bitAt k i = 0 ↔ ¬ k.testBit i) := by
  unfold bitAt
  rw [Nat.testBit_eq_decide_div_mod_eq]
  simp only [decide_eq_true_eq]
  omega

/-- three zeros put below the bits of `k` -/
def padBits (k : Nat) (l : Nat) : Int := if l < 3 then 0 else bitAt k (l - 3)

theorem padBits_cases (k l : Nat) : padBits k l = 0 ∨ padBits k l = 1 := by
  unfold padBits
  split_ifs
  · exact Or.inl rfl
  · exact bitAt_cases _ _

theorem padBits_add (k l : Nat) : padBits k (l + 3) = bitAt k l := by
  unfold padBits
  rw [if_neg (by omega), Nat.add_sub_cancel]

/-- the digits of `naf_vec`, one by one -/
theorem nafVec_digits (b : Build) {k : Nat} (h2 : 1 < k) (hk : k < 2 ^ 31) {ds : List Int}
    (hd : Returns (nafVec b k) ds 0) : ds.length ≤ 32 ∧ k < 2 ^ ds.length ∧
      (∀ l, ds.length + 2 ≤ l → padBits k l = 0) ∧ ∀ l, ds.getD l 0 = nafDigit (padBits k) l := by
  obtain ⟨b1, b2, b3, b4⟩ := bitLen32_spec (k := k) (by omega) (show k < 2 ^ 32 by omega)
  have hL : bitLen32 (BitVec.ofNat 32 k) ≤ 31 := by
    by_contra hc
    have : 2 ^ 31 ≤ 2 ^ (bitLen32 (BitVec.ofNat 32 k) - 1) := Nat.pow_le_pow_right (by norm_num) (by omega)
    omega
  unfold nafVec at hd
  rw [if_neg (by omega), if_neg (by omega)] at hd
  simp only at hd
  generalize bitLen32 (BitVec.ofNat 32 k) = n at *
  obtain ⟨v, low1, v1, v2⟩ := nafLoop_loc b (k := k) (β := padBits k) (padBits_cases k) ⟨rfl, rfl, rfl⟩ (n + 1) 0
    (vec := []) (low1 := 0)
    ⟨rfl, le_refl _, fun l hl => by omega, fun l hl => by omega, fun l h1 h2 => by omega⟩
    (fun l _ hl => by rw [padBits_add]; exact Returns.u32Bit b k (by omega))
  obtain ⟨rfl, -⟩ := hd.unique v1
  rw [Nat.zero_add] at v2
  have hz : ∀ l, n + 1 + 2 ≤ l → padBits k l = 0 := fun l hl => by
    obtain ⟨m, rfl⟩ : ∃ m, l = m + 3 := ⟨l - 3, by omega⟩
    rw [padBits_add]
    unfold bitAt
    have : k < 2 ^ m := lt_of_lt_of_le b2 (Nat.pow_le_pow_right (by norm_num) (by omega))
    rw [Nat.div_eq_of_lt this]
    rfl
  refine ⟨by rw [v2.len]; omega, ?_, fun l hl => hz l (by rw [v2.len] at hl; exact hl), fun l => ?_⟩
  · rw [v2.len]
    exact lt_of_lt_of_le b2 (Nat.pow_le_pow_right (by norm_num) (by omega))
  · by_cases hl : l < n + 1
    · exact v2.all (by omega) hz l hl
    · rw [List.getD_eq_default _ _ (by rw [v2.len]; omega)]
      unfold nafDigit
      rw [hz (l + 3) (by omega), if_neg (by omega), hz (l + 2) (by omega), if_neg (by omega)]

/-- **C30**, exact: for `1 < k < 2^31` and in both builds, `naf_vec(k)` is non-adjacent, as its
documentation says, if and only if the pattern `01011` does not occur in the binary digits of
`k`, that is, no single one stands two places above a run of at least two ones. -/
theorem C30_non_adjacent_iff (b : Build) {k : Nat} (h2 : 1 < k) (hk : k < 2 ^ 31) {ds : List Int}
    (hd : Returns (nafVec b k) ds 0) : NonAdjacent ds ↔ ∀ j, ¬ HasPattern k j := by
  obtain ⟨-, -, -, hall⟩ := nafVec_digits b h2 hk hd
  have key : ∀ j, HasPattern k j ↔ ¬ (ds.getD (j + 2) 0 = 0 ∨ ds.getD (j + 3) 0 = 0) := fun j => by
    have := nafDigit_adjacent (padBits_cases k) (j + 2)
    rw [show j + 2 + 1 = j + 3 by omega, show j + 2 + 2 = j + 1 + 3 by omega,
      show j + 2 + 3 = j + 2 + 3 by omega, show j + 2 + 4 = j + 3 + 3 by omega,
      show j + 2 + 5 = j + 4 + 3 by omega, padBits_add, padBits_add, padBits_add, padBits_add, padBits_add,
      (bitAt_testBit k _).1, (bitAt_testBit k _).1, (bitAt_testBit k _).2, (bitAt_testBit k _).1,
      (bitAt_testBit k _).2] at this
    unfold HasPattern
    rw [← this, hall, hall, not_or]
  refine ⟨fun h j hp => (key j).1 hp (h (j + 2)), fun h i => ?_⟩
  by_contra hc
  have hc' := hc
  rw [hall, hall, not_or] at hc'
  obtain ⟨c1, c2, -⟩ := (nafDigit_adjacent (padBits_cases k) i).1 hc'
  have hi : 2 ≤ i := by
    by_contra hi
    rw [show padBits k (i + 1) = 0 by unfold padBits; rw [if_pos (by omega)]] at c1
    omega
  obtain ⟨j, rfl⟩ : ∃ j, i = j + 2 := ⟨i - 2, by omega⟩
  exact h j ((key j).2 hc)

/-- **C30**: where the pattern does not occur, `naf_vec(k)` has the fewest non-zero digits among
all representations of `k` with digits -1, 0, 1. -/
theorem C30_minimal_of_no_pattern (b : Build) {k : Nat} (h2 : 1 < k) (hk : k < 2 ^ 31)
    (hp : ∀ j, ¬ HasPattern k j) :
    ∃ ds, Returns (nafVec b k) ds 0 ∧ value ds = k ∧ NonAdjacent ds ∧
      ∀ r : List Int, (∀ d ∈ r, IsDigit d) → value r = k → digitWeight ds ≤ digitWeight r := by
  obtain ⟨ds, d1, d2, d3⟩ := C30_naf_vec_partial b (k := k) (by omega) hk
  have hna := (C30_non_adjacent_iff b h2 hk d1).2 hp
  exact ⟨ds, d1, d3, hna, fun r r1 r2 => C66_naf_minimal d2 hna r1 (by rw [d3, r2])⟩

/-- Case: `107 = 0b1101011` has the pattern, its lowest bit at 0. -/
example : HasPattern 107 0 := by unfold HasPattern; decide

/-- Case: `119 = 0b1110111` (the example of the documentation, two runs one zero apart) does not. -/
example : ∀ j, ¬ HasPattern 119 j := fun j h => by
  unfold HasPattern at h
  by_cases hj : j < 7
  · interval_cases j <;> revert h <;> decide
  · have : Nat.testBit 119 j = false := Nat.testBit_lt_two_pow
      (lt_of_lt_of_le (by norm_num) (Nat.pow_le_pow_right (by norm_num : 0 < 2) (by omega : 7 ≤ j)))
    rw [this] at h
    exact absurd h.1 (by simp)

example : Returns (nafVec .debug 119) [-1, 0, 0, -1, 0, 0, 0, 1] 0 := Returns.run fun s => ⟨s.region, rfl⟩

end Parm
