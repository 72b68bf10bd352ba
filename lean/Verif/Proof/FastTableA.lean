import Verif.Proof.FastInst

/-!
# Products of every pair of lengths

One kernel evaluation for a few pairs of lengths keeps the memory low.
-/

namespace Parm
namespace Fast

set_option Elab.async false

private theorem p0_0 : seg 0 0 1 = true := by decide +kernel
theorem pair0 : ∀ m ≤ 0, good 0 m = true ∧ good m 0 = true :=
  fun m h => by
    exact of_seg p0_0 m (by omega) (by omega)
private theorem p1_0 : seg 1 0 2 = true := by decide +kernel
theorem pair1 : ∀ m ≤ 1, good 1 m = true ∧ good m 1 = true :=
  fun m h => by
    exact of_seg p1_0 m (by omega) (by omega)
private theorem p2_0 : seg 2 0 3 = true := by decide +kernel
theorem pair2 : ∀ m ≤ 2, good 2 m = true ∧ good m 2 = true :=
  fun m h => by
    exact of_seg p2_0 m (by omega) (by omega)
private theorem p3_0 : seg 3 0 4 = true := by decide +kernel
theorem pair3 : ∀ m ≤ 3, good 3 m = true ∧ good m 3 = true :=
  fun m h => by
    exact of_seg p3_0 m (by omega) (by omega)
private theorem p4_0 : seg 4 0 5 = true := by decide +kernel
theorem pair4 : ∀ m ≤ 4, good 4 m = true ∧ good m 4 = true :=
  fun m h => by
    exact of_seg p4_0 m (by omega) (by omega)
private theorem p5_0 : seg 5 0 6 = true := by decide +kernel
theorem pair5 : ∀ m ≤ 5, good 5 m = true ∧ good m 5 = true :=
  fun m h => by
    exact of_seg p5_0 m (by omega) (by omega)
private theorem p6_0 : seg 6 0 6 = true := by decide +kernel
private theorem p6_6 : seg 6 6 1 = true := by decide +kernel
theorem pair6 : ∀ m ≤ 6, good 6 m = true ∧ good m 6 = true :=
  fun m h => by
    by_cases h0 : m < 6
    · exact of_seg p6_0 m (by omega) h0
    exact of_seg p6_6 m (by omega) (by omega)
private theorem p7_0 : seg 7 0 6 = true := by decide +kernel
private theorem p7_6 : seg 7 6 2 = true := by decide +kernel
theorem pair7 : ∀ m ≤ 7, good 7 m = true ∧ good m 7 = true :=
  fun m h => by
    by_cases h0 : m < 6
    · exact of_seg p7_0 m (by omega) h0
    exact of_seg p7_6 m (by omega) (by omega)
private theorem p8_0 : seg 8 0 6 = true := by decide +kernel
private theorem p8_6 : seg 8 6 3 = true := by decide +kernel
theorem pair8 : ∀ m ≤ 8, good 8 m = true ∧ good m 8 = true :=
  fun m h => by
    by_cases h0 : m < 6
    · exact of_seg p8_0 m (by omega) h0
    exact of_seg p8_6 m (by omega) (by omega)
private theorem p9_0 : seg 9 0 6 = true := by decide +kernel
private theorem p9_6 : seg 9 6 4 = true := by decide +kernel
theorem pair9 : ∀ m ≤ 9, good 9 m = true ∧ good m 9 = true :=
  fun m h => by
    by_cases h0 : m < 6
    · exact of_seg p9_0 m (by omega) h0
    exact of_seg p9_6 m (by omega) (by omega)
private theorem p10_0 : seg 10 0 6 = true := by decide +kernel
private theorem p10_6 : seg 10 6 5 = true := by decide +kernel
theorem pair10 : ∀ m ≤ 10, good 10 m = true ∧ good m 10 = true :=
  fun m h => by
    by_cases h0 : m < 6
    · exact of_seg p10_0 m (by omega) h0
    exact of_seg p10_6 m (by omega) (by omega)
private theorem p11_0 : seg 11 0 6 = true := by decide +kernel
private theorem p11_6 : seg 11 6 6 = true := by decide +kernel
theorem pair11 : ∀ m ≤ 11, good 11 m = true ∧ good m 11 = true :=
  fun m h => by
    by_cases h0 : m < 6
    · exact of_seg p11_0 m (by omega) h0
    exact of_seg p11_6 m (by omega) (by omega)
private theorem p12_0 : seg 12 0 6 = true := by decide +kernel
private theorem p12_6 : seg 12 6 6 = true := by decide +kernel
private theorem p12_12 : seg 12 12 1 = true := by decide +kernel
theorem pair12 : ∀ m ≤ 12, good 12 m = true ∧ good m 12 = true :=
  fun m h => by
    by_cases h0 : m < 6
    · exact of_seg p12_0 m (by omega) h0
    by_cases h6 : m < 12
    · exact of_seg p12_6 m (by omega) h6
    exact of_seg p12_12 m (by omega) (by omega)
private theorem p13_0 : seg 13 0 6 = true := by decide +kernel
private theorem p13_6 : seg 13 6 6 = true := by decide +kernel
private theorem p13_12 : seg 13 12 2 = true := by decide +kernel
theorem pair13 : ∀ m ≤ 13, good 13 m = true ∧ good m 13 = true :=
  fun m h => by
    by_cases h0 : m < 6
    · exact of_seg p13_0 m (by omega) h0
    by_cases h6 : m < 12
    · exact of_seg p13_6 m (by omega) h6
    exact of_seg p13_12 m (by omega) (by omega)
private theorem p14_0 : seg 14 0 6 = true := by decide +kernel
private theorem p14_6 : seg 14 6 6 = true := by decide +kernel
private theorem p14_12 : seg 14 12 3 = true := by decide +kernel
theorem pair14 : ∀ m ≤ 14, good 14 m = true ∧ good m 14 = true :=
  fun m h => by
    by_cases h0 : m < 6
    · exact of_seg p14_0 m (by omega) h0
    by_cases h6 : m < 12
    · exact of_seg p14_6 m (by omega) h6
    exact of_seg p14_12 m (by omega) (by omega)
private theorem p15_0 : seg 15 0 6 = true := by decide +kernel
private theorem p15_6 : seg 15 6 6 = true := by decide +kernel
private theorem p15_12 : seg 15 12 4 = true := by decide +kernel
theorem pair15 : ∀ m ≤ 15, good 15 m = true ∧ good m 15 = true :=
  fun m h => by
    by_cases h0 : m < 6
    · exact of_seg p15_0 m (by omega) h0
    by_cases h6 : m < 12
    · exact of_seg p15_6 m (by omega) h6
    exact of_seg p15_12 m (by omega) (by omega)
private theorem p16_0 : seg 16 0 6 = true := by decide +kernel
private theorem p16_6 : seg 16 6 6 = true := by decide +kernel
private theorem p16_12 : seg 16 12 5 = true := by decide +kernel
theorem pair16 : ∀ m ≤ 16, good 16 m = true ∧ good m 16 = true :=
  fun m h => by
    by_cases h0 : m < 6
    · exact of_seg p16_0 m (by omega) h0
    by_cases h6 : m < 12
    · exact of_seg p16_6 m (by omega) h6
    exact of_seg p16_12 m (by omega) (by omega)
private theorem p17_0 : seg 17 0 6 = true := by decide +kernel
private theorem p17_6 : seg 17 6 6 = true := by decide +kernel
private theorem p17_12 : seg 17 12 6 = true := by decide +kernel
theorem pair17 : ∀ m ≤ 17, good 17 m = true ∧ good m 17 = true :=
  fun m h => by
    by_cases h0 : m < 6
    · exact of_seg p17_0 m (by omega) h0
    by_cases h6 : m < 12
    · exact of_seg p17_6 m (by omega) h6
    exact of_seg p17_12 m (by omega) (by omega)
private theorem p18_0 : seg 18 0 6 = true := by decide +kernel
private theorem p18_6 : seg 18 6 6 = true := by decide +kernel
private theorem p18_12 : seg 18 12 6 = true := by decide +kernel
private theorem p18_18 : seg 18 18 1 = true := by decide +kernel
theorem pair18 : ∀ m ≤ 18, good 18 m = true ∧ good m 18 = true :=
  fun m h => by
    by_cases h0 : m < 6
    · exact of_seg p18_0 m (by omega) h0
    by_cases h6 : m < 12
    · exact of_seg p18_6 m (by omega) h6
    by_cases h12 : m < 18
    · exact of_seg p18_12 m (by omega) h12
    exact of_seg p18_18 m (by omega) (by omega)
private theorem p19_0 : seg 19 0 6 = true := by decide +kernel
private theorem p19_6 : seg 19 6 6 = true := by decide +kernel
private theorem p19_12 : seg 19 12 6 = true := by decide +kernel
private theorem p19_18 : seg 19 18 2 = true := by decide +kernel
theorem pair19 : ∀ m ≤ 19, good 19 m = true ∧ good m 19 = true :=
  fun m h => by
    by_cases h0 : m < 6
    · exact of_seg p19_0 m (by omega) h0
    by_cases h6 : m < 12
    · exact of_seg p19_6 m (by omega) h6
    by_cases h12 : m < 18
    · exact of_seg p19_12 m (by omega) h12
    exact of_seg p19_18 m (by omega) (by omega)
private theorem p20_0 : seg 20 0 6 = true := by decide +kernel
private theorem p20_6 : seg 20 6 6 = true := by decide +kernel
private theorem p20_12 : seg 20 12 6 = true := by decide +kernel
private theorem p20_18 : seg 20 18 3 = true := by decide +kernel
theorem pair20 : ∀ m ≤ 20, good 20 m = true ∧ good m 20 = true :=
  fun m h => by
    by_cases h0 : m < 6
    · exact of_seg p20_0 m (by omega) h0
    by_cases h6 : m < 12
    · exact of_seg p20_6 m (by omega) h6
    by_cases h12 : m < 18
    · exact of_seg p20_12 m (by omega) h12
    exact of_seg p20_18 m (by omega) (by omega)
private theorem p21_0 : seg 21 0 6 = true := by decide +kernel
private theorem p21_6 : seg 21 6 6 = true := by decide +kernel
private theorem p21_12 : seg 21 12 6 = true := by decide +kernel
private theorem p21_18 : seg 21 18 4 = true := by decide +kernel
theorem pair21 : ∀ m ≤ 21, good 21 m = true ∧ good m 21 = true :=
  fun m h => by
    by_cases h0 : m < 6
    · exact of_seg p21_0 m (by omega) h0
    by_cases h6 : m < 12
    · exact of_seg p21_6 m (by omega) h6
    by_cases h12 : m < 18
    · exact of_seg p21_12 m (by omega) h12
    exact of_seg p21_18 m (by omega) (by omega)
private theorem p22_0 : seg 22 0 6 = true := by decide +kernel
private theorem p22_6 : seg 22 6 6 = true := by decide +kernel
private theorem p22_12 : seg 22 12 6 = true := by decide +kernel
private theorem p22_18 : seg 22 18 5 = true := by decide +kernel
theorem pair22 : ∀ m ≤ 22, good 22 m = true ∧ good m 22 = true :=
  fun m h => by
    by_cases h0 : m < 6
    · exact of_seg p22_0 m (by omega) h0
    by_cases h6 : m < 12
    · exact of_seg p22_6 m (by omega) h6
    by_cases h12 : m < 18
    · exact of_seg p22_12 m (by omega) h12
    exact of_seg p22_18 m (by omega) (by omega)

end Fast
end Parm
