import Verif.Proof.DepthScheme

/-!
# Costs of squares

One kernel evaluation per length keeps the memory low.
-/

namespace Parm

set_option Elab.async false

/-- square of an encrypted ciphertext of `n = 0, …, 32` words: depth, words of the result, bootstraps -/
def squTable : List (Nat × Nat × Nat) := [
  (0, 0, 0), (1, 1, 1), (1, 4, 3), (1, 6, 5), (5, 9, 24), (7, 11, 38), (7, 13, 47), (11, 15, 93),
  (11, 18, 122), (13, 20, 160), (13, 22, 183), (15, 24, 221), (15, 26, 240), (17, 28, 320), (17, 30, 377), (19, 32, 445),
  (19, 35, 488), (21, 37, 570), (21, 39, 621), (23, 41, 693), (23, 43, 730), (25, 45, 822), (25, 47, 875), (27, 49, 953),
  (27, 51, 988), (29, 53, 1132), (29, 55, 1229), (31, 57, 1355), (31, 59, 1430), (33, 61, 1572), (33, 63, 1659), (27, 65, 1780),
  (27, 68, 1837)]

private theorem s0 : depthOf (ctSqu depthScheme unitCloud (depthCt 0)) = some (0, 0, 0) := by decide +kernel
private theorem s1 : depthOf (ctSqu depthScheme unitCloud (depthCt 1)) = some (1, 1, 1) := by decide +kernel
private theorem s2 : depthOf (ctSqu depthScheme unitCloud (depthCt 2)) = some (1, 4, 3) := by decide +kernel
private theorem s3 : depthOf (ctSqu depthScheme unitCloud (depthCt 3)) = some (1, 6, 5) := by decide +kernel
private theorem s4 : depthOf (ctSqu depthScheme unitCloud (depthCt 4)) = some (5, 9, 24) := by decide +kernel
private theorem s5 : depthOf (ctSqu depthScheme unitCloud (depthCt 5)) = some (7, 11, 38) := by decide +kernel
private theorem s6 : depthOf (ctSqu depthScheme unitCloud (depthCt 6)) = some (7, 13, 47) := by decide +kernel
private theorem s7 : depthOf (ctSqu depthScheme unitCloud (depthCt 7)) = some (11, 15, 93) := by decide +kernel
private theorem s8 : depthOf (ctSqu depthScheme unitCloud (depthCt 8)) = some (11, 18, 122) := by decide +kernel
private theorem s9 : depthOf (ctSqu depthScheme unitCloud (depthCt 9)) = some (13, 20, 160) := by decide +kernel
private theorem s10 : depthOf (ctSqu depthScheme unitCloud (depthCt 10)) = some (13, 22, 183) := by decide +kernel
private theorem s11 : depthOf (ctSqu depthScheme unitCloud (depthCt 11)) = some (15, 24, 221) := by decide +kernel
private theorem s12 : depthOf (ctSqu depthScheme unitCloud (depthCt 12)) = some (15, 26, 240) := by decide +kernel
private theorem s13 : depthOf (ctSqu depthScheme unitCloud (depthCt 13)) = some (17, 28, 320) := by decide +kernel
private theorem s14 : depthOf (ctSqu depthScheme unitCloud (depthCt 14)) = some (17, 30, 377) := by decide +kernel
private theorem s15 : depthOf (ctSqu depthScheme unitCloud (depthCt 15)) = some (19, 32, 445) := by decide +kernel
private theorem s16 : depthOf (ctSqu depthScheme unitCloud (depthCt 16)) = some (19, 35, 488) := by decide +kernel
private theorem s17 : depthOf (ctSqu depthScheme unitCloud (depthCt 17)) = some (21, 37, 570) := by decide +kernel
private theorem s18 : depthOf (ctSqu depthScheme unitCloud (depthCt 18)) = some (21, 39, 621) := by decide +kernel
private theorem s19 : depthOf (ctSqu depthScheme unitCloud (depthCt 19)) = some (23, 41, 693) := by decide +kernel
private theorem s20 : depthOf (ctSqu depthScheme unitCloud (depthCt 20)) = some (23, 43, 730) := by decide +kernel
private theorem s21 : depthOf (ctSqu depthScheme unitCloud (depthCt 21)) = some (25, 45, 822) := by decide +kernel
private theorem s22 : depthOf (ctSqu depthScheme unitCloud (depthCt 22)) = some (25, 47, 875) := by decide +kernel
private theorem s23 : depthOf (ctSqu depthScheme unitCloud (depthCt 23)) = some (27, 49, 953) := by decide +kernel
private theorem s24 : depthOf (ctSqu depthScheme unitCloud (depthCt 24)) = some (27, 51, 988) := by decide +kernel
private theorem s25 : depthOf (ctSqu depthScheme unitCloud (depthCt 25)) = some (29, 53, 1132) := by decide +kernel
private theorem s26 : depthOf (ctSqu depthScheme unitCloud (depthCt 26)) = some (29, 55, 1229) := by decide +kernel
private theorem s27 : depthOf (ctSqu depthScheme unitCloud (depthCt 27)) = some (31, 57, 1355) := by decide +kernel
private theorem s28 : depthOf (ctSqu depthScheme unitCloud (depthCt 28)) = some (31, 59, 1430) := by decide +kernel
private theorem s29 : depthOf (ctSqu depthScheme unitCloud (depthCt 29)) = some (33, 61, 1572) := by decide +kernel
private theorem s30 : depthOf (ctSqu depthScheme unitCloud (depthCt 30)) = some (33, 63, 1659) := by decide +kernel
private theorem s31 : depthOf (ctSqu depthScheme unitCloud (depthCt 31)) = some (27, 65, 1780) := by decide +kernel
private theorem s32 : depthOf (ctSqu depthScheme unitCloud (depthCt 32)) = some (27, 68, 1837) := by decide +kernel

theorem squTable_all : ∀ n, n ≤ 32 → depthOf (ctSqu depthScheme unitCloud (depthCt n)) = squTable[n]?
  | 0, _ => s0
  | 1, _ => s1
  | 2, _ => s2
  | 3, _ => s3
  | 4, _ => s4
  | 5, _ => s5
  | 6, _ => s6
  | 7, _ => s7
  | 8, _ => s8
  | 9, _ => s9
  | 10, _ => s10
  | 11, _ => s11
  | 12, _ => s12
  | 13, _ => s13
  | 14, _ => s14
  | 15, _ => s15
  | 16, _ => s16
  | 17, _ => s17
  | 18, _ => s18
  | 19, _ => s19
  | 20, _ => s20
  | 21, _ => s21
  | 22, _ => s22
  | 23, _ => s23
  | 24, _ => s24
  | 25, _ => s25
  | 26, _ => s26
  | 27, _ => s27
  | 28, _ => s28
  | 29, _ => s29
  | 30, _ => s30
  | 31, _ => s31
  | 32, _ => s32
  | n + 33, h => by omega

end Parm
