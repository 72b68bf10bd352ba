import Verif.Proof.ProductTop

/-! The first factor is the one of 16 encrypted words. -/

namespace Parm

private theorem left_0 : topEnc (mulImpl unitScheme unitCloud 31 (unitCt 16) (unitPad 0)).call = true := by decide +kernel
private theorem left_1 : topEnc (mulImpl unitScheme unitCloud 31 (unitCt 16) (unitPad 1)).call = true := by decide +kernel
private theorem left_2 : topEnc (mulImpl unitScheme unitCloud 31 (unitCt 16) (unitPad 2)).call = true := by decide +kernel
private theorem left_3 : topEnc (mulImpl unitScheme unitCloud 31 (unitCt 16) (unitPad 3)).call = true := by decide +kernel
private theorem left_4 : topEnc (mulImpl unitScheme unitCloud 31 (unitCt 16) (unitPad 4)).call = true := by decide +kernel
private theorem left_5 : topEnc (mulImpl unitScheme unitCloud 31 (unitCt 16) (unitPad 5)).call = true := by decide +kernel
private theorem left_6 : topEnc (mulImpl unitScheme unitCloud 31 (unitCt 16) (unitPad 6)).call = true := by decide +kernel
private theorem left_7 : topEnc (mulImpl unitScheme unitCloud 31 (unitCt 16) (unitPad 7)).call = true := by decide +kernel
private theorem left_8 : topEnc (mulImpl unitScheme unitCloud 31 (unitCt 16) (unitPad 8)).call = true := by decide +kernel
private theorem left_9 : topEnc (mulImpl unitScheme unitCloud 31 (unitCt 16) (unitPad 9)).call = true := by decide +kernel
private theorem left_10 : topEnc (mulImpl unitScheme unitCloud 31 (unitCt 16) (unitPad 10)).call = true := by decide +kernel
private theorem left_11 : topEnc (mulImpl unitScheme unitCloud 31 (unitCt 16) (unitPad 11)).call = true := by decide +kernel
private theorem left_12 : topEnc (mulImpl unitScheme unitCloud 31 (unitCt 16) (unitPad 12)).call = true := by decide +kernel
private theorem left_13 : topEnc (mulImpl unitScheme unitCloud 31 (unitCt 16) (unitPad 13)).call = true := by decide +kernel
private theorem left_14 : topEnc (mulImpl unitScheme unitCloud 31 (unitCt 16) (unitPad 14)).call = true := by decide +kernel
private theorem left_15 : topEnc (mulImpl unitScheme unitCloud 31 (unitCt 16) (unitPad 15)).call = true := by decide +kernel
private theorem left_16 : topEnc (mulImpl unitScheme unitCloud 31 (unitCt 16) (unitPad 16)).call = true := by decide +kernel

theorem topEnc_left : ∀ k : Nat, k ≤ 16 → topEnc (mulImpl unitScheme unitCloud 31 (unitCt 16) (unitPad k)).call = true
  | 0, _ => left_0
  | 1, _ => left_1
  | 2, _ => left_2
  | 3, _ => left_3
  | 4, _ => left_4
  | 5, _ => left_5
  | 6, _ => left_6
  | 7, _ => left_7
  | 8, _ => left_8
  | 9, _ => left_9
  | 10, _ => left_10
  | 11, _ => left_11
  | 12, _ => left_12
  | 13, _ => left_13
  | 14, _ => left_14
  | 15, _ => left_15
  | 16, _ => left_16
  | k + 17, h => absurd h (by omega)

end Parm
