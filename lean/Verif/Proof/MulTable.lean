import Verif.Proof.DepthScheme

/-!
# Costs of products

One kernel evaluation per length keeps the memory low.
-/

namespace Parm

set_option Elab.async false

/-- product of two encrypted ciphertexts of `n = 0, …, 32` words: depth, words of the result, bootstraps -/
def mulTable : List (Nat × Nat × Nat) := [
  (0, 0, 0), (1, 2, 1), (3, 4, 8), (5, 6, 21), (7, 8, 40), (9, 10, 65), (11, 12, 96), (13, 14, 133),
  (15, 16, 176), (17, 18, 225), (19, 20, 280), (21, 22, 341), (23, 24, 408), (25, 26, 481), (27, 28, 560), (29, 30, 645),
  (23, 33, 725), (33, 34, 833), (25, 37, 896), (27, 39, 1026), (27, 41, 1085), (29, 43, 1227), (29, 45, 1292), (31, 47, 1446),
  (31, 49, 1517), (33, 51, 1683), (33, 53, 1760), (35, 55, 1938), (35, 57, 2021), (35, 59, 2202), (35, 61, 2291), (41, 63, 2531),
  (41, 66, 2617)]

private theorem m0 : depthOf (ctMul depthScheme unitCloud (depthCt 0) (depthCt 0)) = some (0, 0, 0) := by decide +kernel
private theorem m1 : depthOf (ctMul depthScheme unitCloud (depthCt 1) (depthCt 1)) = some (1, 2, 1) := by decide +kernel
private theorem m2 : depthOf (ctMul depthScheme unitCloud (depthCt 2) (depthCt 2)) = some (3, 4, 8) := by decide +kernel
private theorem m3 : depthOf (ctMul depthScheme unitCloud (depthCt 3) (depthCt 3)) = some (5, 6, 21) := by decide +kernel
private theorem m4 : depthOf (ctMul depthScheme unitCloud (depthCt 4) (depthCt 4)) = some (7, 8, 40) := by decide +kernel
private theorem m5 : depthOf (ctMul depthScheme unitCloud (depthCt 5) (depthCt 5)) = some (9, 10, 65) := by decide +kernel
private theorem m6 : depthOf (ctMul depthScheme unitCloud (depthCt 6) (depthCt 6)) = some (11, 12, 96) := by decide +kernel
private theorem m7 : depthOf (ctMul depthScheme unitCloud (depthCt 7) (depthCt 7)) = some (13, 14, 133) := by decide +kernel
private theorem m8 : depthOf (ctMul depthScheme unitCloud (depthCt 8) (depthCt 8)) = some (15, 16, 176) := by decide +kernel
private theorem m9 : depthOf (ctMul depthScheme unitCloud (depthCt 9) (depthCt 9)) = some (17, 18, 225) := by decide +kernel
private theorem m10 : depthOf (ctMul depthScheme unitCloud (depthCt 10) (depthCt 10)) = some (19, 20, 280) := by decide +kernel
private theorem m11 : depthOf (ctMul depthScheme unitCloud (depthCt 11) (depthCt 11)) = some (21, 22, 341) := by decide +kernel
private theorem m12 : depthOf (ctMul depthScheme unitCloud (depthCt 12) (depthCt 12)) = some (23, 24, 408) := by decide +kernel
private theorem m13 : depthOf (ctMul depthScheme unitCloud (depthCt 13) (depthCt 13)) = some (25, 26, 481) := by decide +kernel
private theorem m14 : depthOf (ctMul depthScheme unitCloud (depthCt 14) (depthCt 14)) = some (27, 28, 560) := by decide +kernel
private theorem m15 : depthOf (ctMul depthScheme unitCloud (depthCt 15) (depthCt 15)) = some (29, 30, 645) := by decide +kernel
private theorem m16 : depthOf (ctMul depthScheme unitCloud (depthCt 16) (depthCt 16)) = some (23, 33, 725) := by decide +kernel
private theorem m17 : depthOf (ctMul depthScheme unitCloud (depthCt 17) (depthCt 17)) = some (33, 34, 833) := by decide +kernel
private theorem m18 : depthOf (ctMul depthScheme unitCloud (depthCt 18) (depthCt 18)) = some (25, 37, 896) := by decide +kernel
private theorem m19 : depthOf (ctMul depthScheme unitCloud (depthCt 19) (depthCt 19)) = some (27, 39, 1026) := by decide +kernel
private theorem m20 : depthOf (ctMul depthScheme unitCloud (depthCt 20) (depthCt 20)) = some (27, 41, 1085) := by decide +kernel
private theorem m21 : depthOf (ctMul depthScheme unitCloud (depthCt 21) (depthCt 21)) = some (29, 43, 1227) := by decide +kernel
private theorem m22 : depthOf (ctMul depthScheme unitCloud (depthCt 22) (depthCt 22)) = some (29, 45, 1292) := by decide +kernel
private theorem m23 : depthOf (ctMul depthScheme unitCloud (depthCt 23) (depthCt 23)) = some (31, 47, 1446) := by decide +kernel
private theorem m24 : depthOf (ctMul depthScheme unitCloud (depthCt 24) (depthCt 24)) = some (31, 49, 1517) := by decide +kernel
private theorem m25 : depthOf (ctMul depthScheme unitCloud (depthCt 25) (depthCt 25)) = some (33, 51, 1683) := by decide +kernel
private theorem m26 : depthOf (ctMul depthScheme unitCloud (depthCt 26) (depthCt 26)) = some (33, 53, 1760) := by decide +kernel
private theorem m27 : depthOf (ctMul depthScheme unitCloud (depthCt 27) (depthCt 27)) = some (35, 55, 1938) := by decide +kernel
private theorem m28 : depthOf (ctMul depthScheme unitCloud (depthCt 28) (depthCt 28)) = some (35, 57, 2021) := by decide +kernel
private theorem m29 : depthOf (ctMul depthScheme unitCloud (depthCt 29) (depthCt 29)) = some (35, 59, 2202) := by decide +kernel
private theorem m30 : depthOf (ctMul depthScheme unitCloud (depthCt 30) (depthCt 30)) = some (35, 61, 2291) := by decide +kernel
private theorem m31 : depthOf (ctMul depthScheme unitCloud (depthCt 31) (depthCt 31)) = some (41, 63, 2531) := by decide +kernel
private theorem m32 : depthOf (ctMul depthScheme unitCloud (depthCt 32) (depthCt 32)) = some (41, 66, 2617) := by decide +kernel

theorem mulTable_all : ∀ n, n ≤ 32 → depthOf (ctMul depthScheme unitCloud (depthCt n) (depthCt n)) = mulTable[n]?
  | 0, _ => m0
  | 1, _ => m1
  | 2, _ => m2
  | 3, _ => m3
  | 4, _ => m4
  | 5, _ => m5
  | 6, _ => m6
  | 7, _ => m7
  | 8, _ => m8
  | 9, _ => m9
  | 10, _ => m10
  | 11, _ => m11
  | 12, _ => m12
  | 13, _ => m13
  | 14, _ => m14
  | 15, _ => m15
  | 16, _ => m16
  | 17, _ => m17
  | 18, _ => m18
  | 19, _ => m19
  | 20, _ => m20
  | 21, _ => m21
  | 22, _ => m22
  | 23, _ => m23
  | 24, _ => m24
  | 25, _ => m25
  | 26, _ => m26
  | 27, _ => m27
  | 28, _ => m28
  | 29, _ => m29
  | 30, _ => m30
  | 31, _ => m31
  | 32, _ => m32
  | n + 33, h => by omega

end Parm
