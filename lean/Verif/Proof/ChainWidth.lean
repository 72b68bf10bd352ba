import Verif.Proof.ChainComplete
import Mathlib.Tactic.Linarith
import Mathlib.Tactic.Ring

/-!
# Widths of the chains with at most two additions (property C83)
-/

namespace Parm.ChainScript

/-- a value of the first row: `2^a ± 1`, not 1 -/
def NearPow (a : Nat) (x : Int) : Prop := 1 ≤ a ∧ (x = 2 ^ a + 1 ∨ x = 2 ^ a - 1) ∧ x ≠ 1 ∧ 0 < x

theorem pow_le' {a b : Nat} (h : a ≤ b) : (2 : Int) ^ a ≤ 2 ^ b := pow_le_pow_right₀ (by norm_num) h

theorem pow_one' {a : Nat} (h : 1 ≤ a) : (2 : Int) ≤ 2 ^ a := by simpa using pow_le' h

theorem NearPow.narrow {a : Nat} {x : Int} (h : NearPow a x) : 2 * (2 : Int) ^ a < 4 * x := by
  obtain ⟨h1, h2, h3, h4⟩ := h
  have := pow_one' h1
  omega

/-- `±1 ± x·2^r` -/
theorem wide_a {a r : Nat} {x y : Int} (h : NearPow a x) (hr : 1 ≤ r) (hy : y = x * 2 ^ r + 1 ∨ y = x * 2 ^ r - 1) :
    (2 : Int) ^ (a + 1 + r) < 4 * y := by
  obtain ⟨h1, h2, h3, h4⟩ := h
  have hR := pow_one' hr
  have e : (2 : Int) ^ (a + 1 + r) = 2 * (2 ^ a * 2 ^ r) := by rw [pow_add, pow_add]; ring
  rw [e]
  rcases Nat.lt_or_ge a 2 with ha | ha
  · have : a = 1 := by omega
    subst this
    have hx : x = 3 := by norm_num at h2 ⊢; omega
    subst hx
    omega
  · have hA : (4 : Int) ≤ 2 ^ a := by simpa using pow_le' ha
    have hAR : 4 * (2 : Int) ^ r ≤ 2 ^ a * 2 ^ r := by nlinarith
    rcases h2 with rfl | rfl
    · have : ((2 : Int) ^ a + 1) * 2 ^ r = 2 ^ a * 2 ^ r + 2 ^ r := by ring
      rw [this] at hy
      omega
    · have : ((2 : Int) ^ a - 1) * 2 ^ r = 2 ^ a * 2 ^ r - 2 ^ r := by ring
      rw [this] at hy
      omega

/-- `±x ± 2^r`, not one of the values of the first row -/
theorem wide_b {a r : Nat} {x y : Int} (h : NearPow a x) (hr : 1 ≤ r) (hpos : 0 < y)
    (hy : y = x + 2 ^ r ∨ y = x - 2 ^ r ∨ y = 2 ^ r - x) (h1 : y ≠ 1)
    (hn : ∀ b, 1 ≤ b → b ≤ max a r → y ≠ 2 ^ b + 1 ∧ y ≠ 2 ^ b - 1) : (2 : Int) ^ (max (a + 1) (1 + r)) < 4 * y := by
  obtain ⟨ha, h2, h3, h4⟩ := h
  have hA := pow_one' ha
  have hR := pow_one' hr
  rcases lt_trichotomy a r with hlt | rfl | hgt
  · rw [max_eq_right (by omega), pow_add, pow_one]
    rcases Nat.lt_or_ge r (a + 2) with h5 | h5
    · have : r = a + 1 := by omega
      subst this
      have e : (2 : Int) ^ (a + 1) = 2 * 2 ^ a := by rw [pow_succ]; ring
      have := hn a ha (by omega)
      rw [e] at hy ⊢
      omega
    · obtain ⟨d, rfl⟩ := Nat.exists_eq_add_of_le h5
      have e : (2 : Int) ^ (a + 2 + d) = 4 * 2 ^ (a + d) := by rw [pow_add, pow_add, pow_add]; ring
      have h6 : (2 : Int) ^ a ≤ 2 ^ (a + d) := pow_le' (by omega)
      rw [e] at hy ⊢
      omega
  · have e : (2 : Int) ^ (max (a + 1) (1 + a)) = 2 * 2 ^ a := by
      rw [max_eq_left (by omega), pow_succ]; ring
    rw [e]
    omega
  · rw [max_eq_left (by omega), pow_succ]
    rcases Nat.lt_or_ge a (r + 2) with h5 | h5
    · have : a = r + 1 := by omega
      subst this
      have e : (2 : Int) ^ (r + 1) = 2 * 2 ^ r := by rw [pow_succ]; ring
      have := hn r hr (by omega)
      rw [e] at h2 ⊢
      omega
    · obtain ⟨d, rfl⟩ := Nat.exists_eq_add_of_le h5
      have e : (2 : Int) ^ (r + 2 + d) = 4 * 2 ^ (r + d) := by rw [pow_add, pow_add, pow_add]; ring
      have h6 : (2 : Int) ^ r ≤ 2 ^ (r + d) := pow_le' (by omega)
      rw [e] at h2 ⊢
      omega

/-- `x·(2^r ± 1)`, not `x` -/
theorem wide_c {a a' r : Nat} {x y : Int} (h : NearPow a x) (h' : NearPow a' x) (hr : 1 ≤ r)
    (hy : y = x * 2 ^ r + x ∨ y = x * 2 ^ r - x) (hx : y ≠ x) : (2 : Int) ^ (max (a + 1) (a' + 1 + r)) < 4 * y := by
  have hmax : max (a + 1) (a' + 1 + r) = a' + 1 + r := by
    rw [max_eq_right]
    obtain ⟨h1, h2, _⟩ := h
    obtain ⟨h1', h2', _⟩ := h'
    by_contra hlt
    have hA := pow_one' h1'
    have h5 : (2 : Int) ^ (a' + 2) ≤ 2 ^ a := pow_le' (by omega)
    have e : (2 : Int) ^ (a' + 2) = 4 * 2 ^ a' := by rw [pow_add]; ring
    omega
  rw [hmax]
  clear h hmax
  obtain ⟨h1, h2, h3, h4⟩ := h'
  have hR := pow_one' hr
  have e : (2 : Int) ^ (a' + 1 + r) = 2 * (2 ^ a' * 2 ^ r) := by rw [pow_add, pow_add]; ring
  rw [e]
  have hA := pow_one' h1
  rcases hy with rfl | rfl
  · rcases h2 with rfl | rfl <;> nlinarith
  · rcases Nat.lt_or_ge r 2 with hr2 | hr2
    · have : r = 1 := by omega
      subst this
      exact absurd (by ring) hx
    have hR4 : (4 : Int) ≤ 2 ^ r := by simpa using pow_le' hr2
    rcases Nat.lt_or_ge a' 2 with ha | ha
    · have : a' = 1 := by omega
      subst this
      have hx : x = 3 := by norm_num at h2 ⊢; omega
      subst hx
      omega
    · have hA4 : (4 : Int) ≤ 2 ^ a' := by simpa using pow_le' ha
      rcases h2 with rfl | rfl <;> nlinarith [mul_nonneg (sub_nonneg.2 hA4) (sub_nonneg.2 hR4)]

end Parm.ChainScript
