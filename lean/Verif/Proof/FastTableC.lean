import Verif.Proof.FastTableB

/-!
# Products of every pair of lengths (continued)

One kernel evaluation for a few pairs of lengths keeps the memory low.
-/

namespace Parm
namespace Fast

set_option Elab.async false

private theorem p29_0 : seg 29 0 6 = true := by decide +kernel
private theorem p29_6 : seg 29 6 6 = true := by decide +kernel
private theorem p29_12 : seg 29 12 6 = true := by decide +kernel
private theorem p29_18 : seg 29 18 6 = true := by decide +kernel
private theorem p29_24 : seg 29 24 6 = true := by decide +kernel
theorem pair29 : ∀ m ≤ 29, good 29 m = true ∧ good m 29 = true :=
  fun m h => by
    by_cases h0 : m < 6
    · exact of_seg p29_0 m (by omega) h0
    by_cases h6 : m < 12
    · exact of_seg p29_6 m (by omega) h6
    by_cases h12 : m < 18
    · exact of_seg p29_12 m (by omega) h12
    by_cases h18 : m < 24
    · exact of_seg p29_18 m (by omega) h18
    exact of_seg p29_24 m (by omega) (by omega)
private theorem p30_0 : seg 30 0 6 = true := by decide +kernel
private theorem p30_6 : seg 30 6 6 = true := by decide +kernel
private theorem p30_12 : seg 30 12 6 = true := by decide +kernel
private theorem p30_18 : seg 30 18 6 = true := by decide +kernel
private theorem p30_24 : seg 30 24 6 = true := by decide +kernel
private theorem p30_30 : seg 30 30 1 = true := by decide +kernel
theorem pair30 : ∀ m ≤ 30, good 30 m = true ∧ good m 30 = true :=
  fun m h => by
    by_cases h0 : m < 6
    · exact of_seg p30_0 m (by omega) h0
    by_cases h6 : m < 12
    · exact of_seg p30_6 m (by omega) h6
    by_cases h12 : m < 18
    · exact of_seg p30_12 m (by omega) h12
    by_cases h18 : m < 24
    · exact of_seg p30_18 m (by omega) h18
    by_cases h24 : m < 30
    · exact of_seg p30_24 m (by omega) h24
    exact of_seg p30_30 m (by omega) (by omega)
private theorem p31_0 : seg 31 0 6 = true := by decide +kernel
private theorem p31_6 : seg 31 6 6 = true := by decide +kernel
private theorem p31_12 : seg 31 12 6 = true := by decide +kernel
private theorem p31_18 : seg 31 18 6 = true := by decide +kernel
private theorem p31_24 : seg 31 24 6 = true := by decide +kernel
private theorem p31_30 : seg 31 30 2 = true := by decide +kernel
theorem pair31 : ∀ m ≤ 31, good 31 m = true ∧ good m 31 = true :=
  fun m h => by
    by_cases h0 : m < 6
    · exact of_seg p31_0 m (by omega) h0
    by_cases h6 : m < 12
    · exact of_seg p31_6 m (by omega) h6
    by_cases h12 : m < 18
    · exact of_seg p31_12 m (by omega) h12
    by_cases h18 : m < 24
    · exact of_seg p31_18 m (by omega) h18
    by_cases h24 : m < 30
    · exact of_seg p31_24 m (by omega) h24
    exact of_seg p31_30 m (by omega) (by omega)
private theorem p32_0 : seg 32 0 6 = true := by decide +kernel
private theorem p32_6 : seg 32 6 6 = true := by decide +kernel
private theorem p32_12 : seg 32 12 6 = true := by decide +kernel
private theorem p32_18 : seg 32 18 6 = true := by decide +kernel
private theorem p32_24 : seg 32 24 6 = true := by decide +kernel
private theorem p32_30 : seg 32 30 3 = true := by decide +kernel
theorem pair32 : ∀ m ≤ 32, good 32 m = true ∧ good m 32 = true :=
  fun m h => by
    by_cases h0 : m < 6
    · exact of_seg p32_0 m (by omega) h0
    by_cases h6 : m < 12
    · exact of_seg p32_6 m (by omega) h6
    by_cases h12 : m < 18
    · exact of_seg p32_12 m (by omega) h12
    by_cases h18 : m < 24
    · exact of_seg p32_18 m (by omega) h18
    by_cases h24 : m < 30
    · exact of_seg p32_24 m (by omega) h24
    exact of_seg p32_30 m (by omega) (by omega)

end Fast
end Parm
