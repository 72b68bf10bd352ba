import Verif.Proof.NafTop
import Verif.Props.KtScript
import Verif.Props.Runs

/-!
# Properties C29 and C66: for which numbers the recoding has the weight of the non-adjacent form
-/

namespace Parm
open KtScript

/-- **C29**, how far the documented claim is true: some signed binary representation of `k` has fewer nonzero digits than the
recoding if and only if the digits of the recoding, read from the top, are 1 1, then 0 1 any number of times, then 1. -/
theorem C29_exact {k : Nat} (hk : k < 2 ^ 32) {ds : List Int} (hd : Returns (koyamaTsuruokaVec .release k) ds 0) :
    (∃ r : List Int, (∀ d ∈ r, IsDigit d) ∧ value r = k ∧ digitWeight r < digitWeight ds) ↔ TopHeavy ds := by
  have hds : ds = kt Nat.log2 k := (hd.unique (C72_agree (lg := Nat.log2) hk rfl).1).1
  by_cases h1 : k ≤ 1
  · have hn : ¬ TopHeavy ds := by
      rintro ⟨low, n, h⟩
      have hl : ds.length = 1 := by
        rw [hds]
        interval_cases k <;> rfl
      rw [h] at hl
      simp at hl
      omega
    refine ⟨fun ⟨r, r1, r2, r3⟩ => ?_, fun h => absurd h hn⟩
    exfalso
    rw [hds] at r3
    have hw : digitWeight (kt Nat.log2 k) = k := by
      interval_cases k <;> rfl
    rw [hw] at r3
    have : digitWeight r = 0 ∧ k = 1 := by omega
    have hz : ∀ d ∈ r, d = 0 := by
      have := this.1
      unfold digitWeight at this
      rw [List.countP_eq_zero] at this
      intro d hd
      simpa using this d hd
    have hv : value r = 0 := by
      clear r1 r2 r3 this
      induction r with
      | nil => rfl
      | cons d r ih =>
        rw [value_cons, ih fun e he => hz e (by simp [he]), hz d (by simp)]
        rfl
    omega
  · have h0 : k ≠ 0 := by omega
    obtain ⟨b1, b2, -, -⟩ := bitLen32_spec h0 hk
    rw [bitLen32_log2 h0 hk] at b1 b2
    obtain ⟨ds', e1, e2, e3, -⟩ := koyamaTsuruoka_spec h0 hk
    rw [← (hd.unique e1).1] at e2 e3
    refine ⟨fun ⟨r, r1, r2, r3⟩ => ?_, fun h => ?_⟩
    · rcases kt_minimal (lg := Nat.log2) h0 (by omega) rfl b1 b2 with h | h
      · have := h r r1 r2
        rw [hds] at r3
        unfold digitWeight at r3
        omega
      · rwa [hds]
    · obtain ⟨r, r1, r2, r3⟩ := h.shorter e2
      exact ⟨r, r1, by rw [r2, e3], by unfold digitWeight; omega⟩

/-- **C29**, **C66.** So the recoding has the weight of the non-adjacent form, and one more exactly for those digits. -/
theorem C66_naf_weight {k : Nat} (h0 : k ≠ 0) (hk : k < 2 ^ 32) {ds nf : List Int}
    (hd : Returns (koyamaTsuruokaVec .release k) ds 0) (hn : ∀ d ∈ nf, IsDigit d) (hna : NonAdjacent nf) (hv : value nf = k) :
    (TopHeavy ds → digitWeight ds = digitWeight nf + 1) ∧ (¬ TopHeavy ds → digitWeight ds = digitWeight nf) := by
  obtain ⟨ds', e1, e2, -, e4⟩ := C66_weight h0 hk
  rw [← (hd.unique e1).1] at e2 e4
  have hw := e4 nf hn hna hv
  have hx := C29_exact hk hd
  refine ⟨fun h => ?_, fun h => ?_⟩
  · obtain ⟨r, r1, r2, r3⟩ := hx.2 h
    have := C66_naf_minimal hn hna r1 (by rw [hv, r2])
    omega
  · rcases hw with hw | hw
    · exact hw
    · exact absurd (hx.1 ⟨nf, hn, hv, by omega⟩) h

/-! Cases of the hypotheses: 27 is recoded as 1 + 2 + 8 + 16 (heavy at the top; 32 - 4 - 1 has one digit less), 239 as
256 - 16 - 1. -/

example : Returns (koyamaTsuruokaVec .release 27) [1, 1, 0, 1, 1] 0 ∧ TopHeavy [1, 1, 0, 1, 1] :=
  ⟨(C72_agree (lg := Nat.log2) (by norm_num) rfl).1, [], 1, rfl⟩

example : ∃ r : List Int, (∀ d ∈ r, IsDigit d) ∧ value r = (27 : Nat) ∧ digitWeight r < 4 :=
  (C29_exact (k := 27) (by norm_num) (ds := [1, 1, 0, 1, 1]) (C72_agree (lg := Nat.log2) (by norm_num) rfl).1).2 ⟨[], 1, rfl⟩

example : ¬ TopHeavy [-1, 0, 0, 0, -1, 0, 0, 0, 1] := by
  rintro ⟨low, n, h⟩
  have := congrArg List.reverse h
  simp at this

end Parm
