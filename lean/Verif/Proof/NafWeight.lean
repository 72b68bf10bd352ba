import Verif.Proof.NafLocal
import Verif.Proof.Naf

/-! The weight of `naf_vec`, compared digit by digit with the true non-adjacent form (for C30). -/

namespace Parm

/-- the majority of three bits -/
def maj (a b c : Int) : Int := if 2 ≤ a + b + c then 1 else 0

/-- The carry of the non-adjacent form into bit `l - 1`; as for `nafDigit`, bit `l` is `β (l + 3)`. -/
def nafCr (β : Nat → Int) : Nat → Int
  | 0 => 0
  | l + 1 => maj (β (l + 3)) (β (l + 2)) (nafCr β l)

/-- digit `l` of the non-adjacent form -/
def trueDigit (β : Nat → Int) (l : Nat) : Int := β (l + 3) + nafCr β (l + 1) - 2 * nafCr β (l + 2)

/-- 1 where a run of at least two ones begins at bit `l`, after a zero and a single one, and the carry has come through -/
def nafEvent (β : Nat → Int) (l : Nat) : Int :=
  if nafCr β l = 1 ∧ β l = 0 ∧ β (l + 1) = 1 ∧ β (l + 2) = 0 ∧ β (l + 3) = 1 ∧ β (l + 4) = 1 then 1 else 0

/-- what `naf_vec` has spent in advance -/
def nafAhead (β : Nat → Int) (l : Nat) : Int :=
  if nafCr β l = 1 ∧ β l = 1 ∧ β (l + 1) = 0 ∧ β (l + 2) = 1 ∧ β (l + 3) = 0 then 1 else 0

section
variable {β : Nat → Int} (hβ : ∀ l, β l = 0 ∨ β l = 1)

theorem nafCr_cases (l : Nat) : nafCr β l = 0 ∨ nafCr β l = 1 := by
  cases l with
  | zero => exact Or.inl rfl
  | succ l =>
    unfold nafCr maj
    split_ifs <;> simp

include hβ

theorem nafCr_eq (h0 : β 0 = 0 ∧ β 1 = 0 ∧ β 2 = 0) : ∀ l, (β (l + 2) = β (l + 1) → nafCr β l = β (l + 2)) ∧
    (β (l + 1) = β l → nafCr β l = β l)
  | 0 => by simp [nafCr, h0]
  | l + 1 => by
    obtain ⟨h1, -⟩ := nafCr_eq h0 l
    have e1 := hβ (l + 1)
    have e2 := hβ (l + 2)
    have e3 := hβ (l + 3)
    have ec := nafCr_cases (β := β) l
    rw [show l + 1 + 2 = l + 3 by omega, show l + 1 + 1 = l + 2 by omega]
    simp only [nafCr, maj]
    refine ⟨fun h => ?_, fun h => ?_⟩
    · split_ifs <;> omega
    · have := h1 h
      split_ifs <;> omega

theorem naf_weight_step (h0 : β 0 = 0 ∧ β 1 = 0 ∧ β 2 = 0) (l : Nat) :
    |nafDigit β l| + nafAhead β l = |trueDigit β l| + nafEvent β l + nafAhead β (l + 1) := by
  obtain ⟨h1, h2⟩ := nafCr_eq hβ h0 l
  unfold nafDigit trueDigit nafEvent nafAhead
  simp only [nafCr, maj, show l + 1 + 3 = l + 4 by omega, show l + 1 + 2 = l + 3 by omega, show l + 1 + 1 = l + 2 by omega]
  rcases hβ l with a0 | a0 <;> rcases hβ (l + 1) with a1 | a1 <;> rcases hβ (l + 2) with a2 | a2 <;>
    rcases hβ (l + 3) with a3 | a3 <;> rcases hβ (l + 4) with a4 | a4 <;>
    rcases hβ (l + 5) with a5 | a5 <;> rcases nafCr_cases (β := β) l with c | c <;>
    simp [a0, a1, a2, a3, a4, a5, c] at h1 h2 ⊢

/-- The weight of `naf_vec` is that of the non-adjacent form, plus one per event. -/
theorem naf_weight (h0 : β 0 = 0 ∧ β 1 = 0 ∧ β 2 = 0) : ∀ l,
    wtN (nafDigit β) l = wtN (trueDigit β) l + wtN (nafEvent β) l + nafAhead β l
  | 0 => by simp [wtN, nafAhead, nafCr]
  | l + 1 => by
    have := naf_weight h0 l
    have := naf_weight_step hβ h0 l
    have : |nafEvent β l| = nafEvent β l := by unfold nafEvent; split_ifs <;> simp
    simp only [wtN]
    omega

theorem trueDigit_digit (l : Nat) : IsDigit (trueDigit β l) := by
  unfold trueDigit IsDigit
  simp only [nafCr, maj, show l + 1 + 3 = l + 4 by omega, show l + 1 + 2 = l + 3 by omega]
  have := hβ (l + 2)
  have := hβ (l + 3)
  have := hβ (l + 4)
  have := nafCr_cases (β := β) l
  split_ifs <;> omega

theorem trueDigit_nonadjacent (l : Nat) : trueDigit β l = 0 ∨ trueDigit β (l + 1) = 0 := by
  unfold trueDigit
  simp only [nafCr, maj, show l + 1 + 3 = l + 4 by omega, show l + 1 + 2 = l + 3 by omega,
    show l + 2 + 3 = l + 5 by omega]
  have := hβ (l + 2)
  have := hβ (l + 3)
  have := hβ (l + 4)
  have := hβ (l + 5)
  have := nafCr_cases (β := β) l
  split_ifs <;> omega

/-- where the carry into a zero comes from: a run of two ones, then single ones between single zeros -/
theorem nafCr_back (h0 : β 0 = 0 ∧ β 1 = 0 ∧ β 2 = 0) (l : Nat) (hc : nafCr β l = 1) (hz : β (l + 2) = 0) :
    ∃ i m, l = i + 3 + 2 * m ∧ β (i + 3) = 1 ∧ β (i + 4) = 1 ∧ (∀ r, r ≤ m → β (i + 5 + 2 * r) = 0) ∧
      ∀ r, r < m → β (i + 6 + 2 * r) = 1 := by
  induction l using Nat.strong_induction_on with
  | _ l ih =>
    obtain _ | l := l
    · simp [nafCr] at hc
    rw [show l + 1 + 2 = l + 3 by omega] at hz
    have hb2 := hβ (l + 2)
    have hcl := nafCr_cases (β := β) l
    simp only [nafCr, maj, hz] at hc
    have h2 : β (l + 2) = 1 ∧ nafCr β l = 1 := by
      split_ifs at hc <;> omega
    obtain _ | l := l
    · simp [nafCr] at h2
    have hb1 := hβ (l + 2)
    have hcl := nafCr_cases (β := β) l
    rw [show l + 1 + 2 = l + 3 by omega] at h2
    rw [show l + 1 + 3 = l + 4 by omega] at hz
    have hc2 := h2.2
    simp only [nafCr, maj, h2.1] at hc2
    rcases hb1 with e | e
    · have h3 : nafCr β l = 1 := by
        split_ifs at hc2 <;> omega
      obtain ⟨i, m, rfl, i1, i2, i3, i4⟩ := ih l (by omega) h3 e
      refine ⟨i, m + 1, by omega, i1, i2, fun r hr => ?_, fun r hr => ?_⟩
      · by_cases h : r ≤ m
        · exact i3 r h
        · obtain rfl : r = m + 1 := by omega
          rw [show i + 5 + 2 * (m + 1) = i + 3 + 2 * m + 4 by omega]
          exact hz
      · by_cases h : r < m
        · exact i4 r h
        · obtain rfl : r = m := by omega
          rw [show i + 6 + 2 * r = i + 3 + 2 * r + 3 by omega]
          exact h2.1
    · have hl : 1 ≤ l := by
        by_contra hl
        obtain rfl : l = 0 := by omega
        rw [h0.2.2] at e
        omega
      obtain ⟨i, rfl⟩ : ∃ i, l = i + 1 := ⟨l - 1, by omega⟩
      refine ⟨i, 0, by omega, e, h2.1, fun r hr => ?_, fun r hr => by omega⟩
      obtain rfl : r = 0 := by omega
      exact hz

omit hβ in
theorem nafCr_forth (hβ : ∀ l, β l = 0 ∨ β l = 1) {i m : Nat} (h1 : β (i + 3) = 1) (h2 : β (i + 4) = 1)
    (h3 : ∀ r, r ≤ m → β (i + 5 + 2 * r) = 0) (h4 : ∀ r, r < m → β (i + 6 + 2 * r) = 1) :
    ∀ r, r ≤ m → nafCr β (i + 3 + 2 * r) = 1
  | 0, _ => by
    have e := h3 0 (by omega)
    have c := nafCr_cases (β := β) (i + 1)
    rw [Nat.mul_zero, Nat.add_zero] at e ⊢
    simp only [nafCr, maj, show i + 2 + 3 = i + 5 by omega, show i + 2 + 2 = i + 4 by omega,
      show i + 1 + 2 = i + 3 by omega, h1, h2, e]
    split_ifs <;> first | rfl | (simp only [nafCr, maj] at c; split_ifs at c <;> omega)
  | r + 1, hr => by
    have ih := nafCr_forth hβ h1 h2 h3 h4 r (by omega)
    have e1 := h3 r (by omega)
    have e2 := h3 (r + 1) hr
    have e3 := h4 r (by omega)
    rw [show i + 3 + 2 * (r + 1) = i + 3 + 2 * r + 2 by omega]
    rw [show i + 5 + 2 * r = i + 3 + 2 * r + 2 by omega] at e1
    rw [show i + 5 + 2 * (r + 1) = i + 3 + 2 * r + 4 by omega] at e2
    rw [show i + 6 + 2 * r = i + 3 + 2 * r + 3 by omega] at e3
    generalize i + 3 + 2 * r = l at *
    simp only [nafCr, maj, show l + 1 + 3 = l + 4 by omega, show l + 1 + 2 = l + 3 by omega, ih, e1, e2, e3]
    norm_num

end
end Parm
