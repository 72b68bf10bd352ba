import Verif.Proof.FastTableA

/-!
# Products of every pair of lengths (continued)

One kernel evaluation for a few pairs of lengths keeps the memory low.
-/

namespace Parm
namespace Fast

set_option Elab.async false

private theorem p23_0 : seg 23 0 6 = true := by decide +kernel
private theorem p23_6 : seg 23 6 6 = true := by decide +kernel
private theorem p23_12 : seg 23 12 6 = true := by decide +kernel
private theorem p23_18 : seg 23 18 6 = true := by decide +kernel
theorem pair23 : ∀ m ≤ 23, good 23 m = true ∧ good m 23 = true :=
  fun m h => by
    by_cases h0 : m < 6
    · exact of_seg p23_0 m (by omega) h0
    by_cases h6 : m < 12
    · exact of_seg p23_6 m (by omega) h6
    by_cases h12 : m < 18
    · exact of_seg p23_12 m (by omega) h12
    exact of_seg p23_18 m (by omega) (by omega)
private theorem p24_0 : seg 24 0 6 = true := by decide +kernel
private theorem p24_6 : seg 24 6 6 = true := by decide +kernel
private theorem p24_12 : seg 24 12 6 = true := by decide +kernel
private theorem p24_18 : seg 24 18 6 = true := by decide +kernel
private theorem p24_24 : seg 24 24 1 = true := by decide +kernel
theorem pair24 : ∀ m ≤ 24, good 24 m = true ∧ good m 24 = true :=
  fun m h => by
    by_cases h0 : m < 6
    · exact of_seg p24_0 m (by omega) h0
    by_cases h6 : m < 12
    · exact of_seg p24_6 m (by omega) h6
    by_cases h12 : m < 18
    · exact of_seg p24_12 m (by omega) h12
    by_cases h18 : m < 24
    · exact of_seg p24_18 m (by omega) h18
    exact of_seg p24_24 m (by omega) (by omega)
private theorem p25_0 : seg 25 0 6 = true := by decide +kernel
private theorem p25_6 : seg 25 6 6 = true := by decide +kernel
private theorem p25_12 : seg 25 12 6 = true := by decide +kernel
private theorem p25_18 : seg 25 18 6 = true := by decide +kernel
private theorem p25_24 : seg 25 24 2 = true := by decide +kernel
theorem pair25 : ∀ m ≤ 25, good 25 m = true ∧ good m 25 = true :=
  fun m h => by
    by_cases h0 : m < 6
    · exact of_seg p25_0 m (by omega) h0
    by_cases h6 : m < 12
    · exact of_seg p25_6 m (by omega) h6
    by_cases h12 : m < 18
    · exact of_seg p25_12 m (by omega) h12
    by_cases h18 : m < 24
    · exact of_seg p25_18 m (by omega) h18
    exact of_seg p25_24 m (by omega) (by omega)
private theorem p26_0 : seg 26 0 6 = true := by decide +kernel
private theorem p26_6 : seg 26 6 6 = true := by decide +kernel
private theorem p26_12 : seg 26 12 6 = true := by decide +kernel
private theorem p26_18 : seg 26 18 6 = true := by decide +kernel
private theorem p26_24 : seg 26 24 3 = true := by decide +kernel
theorem pair26 : ∀ m ≤ 26, good 26 m = true ∧ good m 26 = true :=
  fun m h => by
    by_cases h0 : m < 6
    · exact of_seg p26_0 m (by omega) h0
    by_cases h6 : m < 12
    · exact of_seg p26_6 m (by omega) h6
    by_cases h12 : m < 18
    · exact of_seg p26_12 m (by omega) h12
    by_cases h18 : m < 24
    · exact of_seg p26_18 m (by omega) h18
    exact of_seg p26_24 m (by omega) (by omega)
private theorem p27_0 : seg 27 0 6 = true := by decide +kernel
private theorem p27_6 : seg 27 6 6 = true := by decide +kernel
private theorem p27_12 : seg 27 12 6 = true := by decide +kernel
private theorem p27_18 : seg 27 18 6 = true := by decide +kernel
private theorem p27_24 : seg 27 24 4 = true := by decide +kernel
theorem pair27 : ∀ m ≤ 27, good 27 m = true ∧ good m 27 = true :=
  fun m h => by
    by_cases h0 : m < 6
    · exact of_seg p27_0 m (by omega) h0
    by_cases h6 : m < 12
    · exact of_seg p27_6 m (by omega) h6
    by_cases h12 : m < 18
    · exact of_seg p27_12 m (by omega) h12
    by_cases h18 : m < 24
    · exact of_seg p27_18 m (by omega) h18
    exact of_seg p27_24 m (by omega) (by omega)
private theorem p28_0 : seg 28 0 6 = true := by decide +kernel
private theorem p28_6 : seg 28 6 6 = true := by decide +kernel
private theorem p28_12 : seg 28 12 6 = true := by decide +kernel
private theorem p28_18 : seg 28 18 6 = true := by decide +kernel
private theorem p28_24 : seg 28 24 5 = true := by decide +kernel
theorem pair28 : ∀ m ≤ 28, good 28 m = true ∧ good m 28 = true :=
  fun m h => by
    by_cases h0 : m < 6
    · exact of_seg p28_0 m (by omega) h0
    by_cases h6 : m < 12
    · exact of_seg p28_6 m (by omega) h6
    by_cases h12 : m < 18
    · exact of_seg p28_12 m (by omega) h12
    by_cases h18 : m < 24
    · exact of_seg p28_18 m (by omega) h18
    exact of_seg p28_24 m (by omega) (by omega)

end Fast
end Parm
