import Verif.Proof.WeightHash
import Verif.Proof.SquTable

/-!
# Bounds on quadratic weights of squares

One kernel evaluation per length keeps the memory low.  (The import of another table only keeps the two from being
checked at the same time.)
-/

namespace Parm

set_option Elab.async false

private theorem s0 : hashOf (ctSqu hashScheme hashCloud (hashCt 0 0)) = some 0 := by decide +kernel
private theorem s1 : hashOf (ctSqu hashScheme hashCloud (hashCt 0 1)) = some 1 := by decide +kernel
private theorem s2 : hashOf (ctSqu hashScheme hashCloud (hashCt 0 2)) = some 5 := by decide +kernel
private theorem s3 : hashOf (ctSqu hashScheme hashCloud (hashCt 0 3)) = some 21 := by decide +kernel
private theorem s4 : hashOf (ctSqu hashScheme hashCloud (hashCt 0 4)) = some 20 := by decide +kernel
private theorem s5 : hashOf (ctSqu hashScheme hashCloud (hashCt 0 5)) = some 21 := by decide +kernel
private theorem s6 : hashOf (ctSqu hashScheme hashCloud (hashCt 0 6)) = some 21 := by decide +kernel
private theorem s7 : hashOf (ctSqu hashScheme hashCloud (hashCt 0 7)) = some 21 := by decide +kernel
private theorem s8 : hashOf (ctSqu hashScheme hashCloud (hashCt 0 8)) = some 20 := by decide +kernel
private theorem s9 : hashOf (ctSqu hashScheme hashCloud (hashCt 0 9)) = some 21 := by decide +kernel
private theorem s10 : hashOf (ctSqu hashScheme hashCloud (hashCt 0 10)) = some 21 := by decide +kernel
private theorem s11 : hashOf (ctSqu hashScheme hashCloud (hashCt 0 11)) = some 21 := by decide +kernel
private theorem s12 : hashOf (ctSqu hashScheme hashCloud (hashCt 0 12)) = some 21 := by decide +kernel
private theorem s13 : hashOf (ctSqu hashScheme hashCloud (hashCt 0 13)) = some 21 := by decide +kernel
private theorem s14 : hashOf (ctSqu hashScheme hashCloud (hashCt 0 14)) = some 21 := by decide +kernel
private theorem s15 : hashOf (ctSqu hashScheme hashCloud (hashCt 0 15)) = some 21 := by decide +kernel
private theorem s16 : hashOf (ctSqu hashScheme hashCloud (hashCt 0 16)) = some 20 := by decide +kernel
private theorem s17 : hashOf (ctSqu hashScheme hashCloud (hashCt 0 17)) = some 21 := by decide +kernel
private theorem s18 : hashOf (ctSqu hashScheme hashCloud (hashCt 0 18)) = some 21 := by decide +kernel
private theorem s19 : hashOf (ctSqu hashScheme hashCloud (hashCt 0 19)) = some 21 := by decide +kernel
private theorem s20 : hashOf (ctSqu hashScheme hashCloud (hashCt 0 20)) = some 21 := by decide +kernel
private theorem s21 : hashOf (ctSqu hashScheme hashCloud (hashCt 0 21)) = some 21 := by decide +kernel
private theorem s22 : hashOf (ctSqu hashScheme hashCloud (hashCt 0 22)) = some 21 := by decide +kernel
private theorem s23 : hashOf (ctSqu hashScheme hashCloud (hashCt 0 23)) = some 21 := by decide +kernel
private theorem s24 : hashOf (ctSqu hashScheme hashCloud (hashCt 0 24)) = some 21 := by decide +kernel
private theorem s25 : hashOf (ctSqu hashScheme hashCloud (hashCt 0 25)) = some 21 := by decide +kernel
private theorem s26 : hashOf (ctSqu hashScheme hashCloud (hashCt 0 26)) = some 21 := by decide +kernel
private theorem s27 : hashOf (ctSqu hashScheme hashCloud (hashCt 0 27)) = some 21 := by decide +kernel
private theorem s28 : hashOf (ctSqu hashScheme hashCloud (hashCt 0 28)) = some 21 := by decide +kernel
private theorem s29 : hashOf (ctSqu hashScheme hashCloud (hashCt 0 29)) = some 21 := by decide +kernel
private theorem s30 : hashOf (ctSqu hashScheme hashCloud (hashCt 0 30)) = some 21 := by decide +kernel
private theorem s31 : hashOf (ctSqu hashScheme hashCloud (hashCt 0 31)) = some 21 := by decide +kernel
private theorem s32 : hashOf (ctSqu hashScheme hashCloud (hashCt 0 32)) = some 20 := by decide +kernel

theorem hashSqu_all : ∀ n, n ≤ 32 → ∃ q ≤ 21, hashOf (ctSqu hashScheme hashCloud (hashCt 0 n)) = some q
  | 0, _ => ⟨0, by decide, s0⟩
  | 1, _ => ⟨1, by decide, s1⟩
  | 2, _ => ⟨5, by decide, s2⟩
  | 3, _ => ⟨21, by decide, s3⟩
  | 4, _ => ⟨20, by decide, s4⟩
  | 5, _ => ⟨21, by decide, s5⟩
  | 6, _ => ⟨21, by decide, s6⟩
  | 7, _ => ⟨21, by decide, s7⟩
  | 8, _ => ⟨20, by decide, s8⟩
  | 9, _ => ⟨21, by decide, s9⟩
  | 10, _ => ⟨21, by decide, s10⟩
  | 11, _ => ⟨21, by decide, s11⟩
  | 12, _ => ⟨21, by decide, s12⟩
  | 13, _ => ⟨21, by decide, s13⟩
  | 14, _ => ⟨21, by decide, s14⟩
  | 15, _ => ⟨21, by decide, s15⟩
  | 16, _ => ⟨20, by decide, s16⟩
  | 17, _ => ⟨21, by decide, s17⟩
  | 18, _ => ⟨21, by decide, s18⟩
  | 19, _ => ⟨21, by decide, s19⟩
  | 20, _ => ⟨21, by decide, s20⟩
  | 21, _ => ⟨21, by decide, s21⟩
  | 22, _ => ⟨21, by decide, s22⟩
  | 23, _ => ⟨21, by decide, s23⟩
  | 24, _ => ⟨21, by decide, s24⟩
  | 25, _ => ⟨21, by decide, s25⟩
  | 26, _ => ⟨21, by decide, s26⟩
  | 27, _ => ⟨21, by decide, s27⟩
  | 28, _ => ⟨21, by decide, s28⟩
  | 29, _ => ⟨21, by decide, s29⟩
  | 30, _ => ⟨21, by decide, s30⟩
  | 31, _ => ⟨21, by decide, s31⟩
  | 32, _ => ⟨20, by decide, s32⟩
  | n + 33, h => by omega

end Parm
