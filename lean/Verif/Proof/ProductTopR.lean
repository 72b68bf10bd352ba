import Verif.Proof.ProductTop

/-! The same with the factors exchanged. -/

namespace Parm

private theorem right_0 : topEnc (mulImpl unitScheme unitCloud 31 (unitPad 0) (unitCt 16)).call = true := by decide +kernel
private theorem right_1 : topEnc (mulImpl unitScheme unitCloud 31 (unitPad 1) (unitCt 16)).call = true := by decide +kernel
private theorem right_2 : topEnc (mulImpl unitScheme unitCloud 31 (unitPad 2) (unitCt 16)).call = true := by decide +kernel
private theorem right_3 : topEnc (mulImpl unitScheme unitCloud 31 (unitPad 3) (unitCt 16)).call = true := by decide +kernel
private theorem right_4 : topEnc (mulImpl unitScheme unitCloud 31 (unitPad 4) (unitCt 16)).call = true := by decide +kernel
private theorem right_5 : topEnc (mulImpl unitScheme unitCloud 31 (unitPad 5) (unitCt 16)).call = true := by decide +kernel
private theorem right_6 : topEnc (mulImpl unitScheme unitCloud 31 (unitPad 6) (unitCt 16)).call = true := by decide +kernel
private theorem right_7 : topEnc (mulImpl unitScheme unitCloud 31 (unitPad 7) (unitCt 16)).call = true := by decide +kernel
private theorem right_8 : topEnc (mulImpl unitScheme unitCloud 31 (unitPad 8) (unitCt 16)).call = true := by decide +kernel
private theorem right_9 : topEnc (mulImpl unitScheme unitCloud 31 (unitPad 9) (unitCt 16)).call = true := by decide +kernel
private theorem right_10 : topEnc (mulImpl unitScheme unitCloud 31 (unitPad 10) (unitCt 16)).call = true := by decide +kernel
private theorem right_11 : topEnc (mulImpl unitScheme unitCloud 31 (unitPad 11) (unitCt 16)).call = true := by decide +kernel
private theorem right_12 : topEnc (mulImpl unitScheme unitCloud 31 (unitPad 12) (unitCt 16)).call = true := by decide +kernel
private theorem right_13 : topEnc (mulImpl unitScheme unitCloud 31 (unitPad 13) (unitCt 16)).call = true := by decide +kernel
private theorem right_14 : topEnc (mulImpl unitScheme unitCloud 31 (unitPad 14) (unitCt 16)).call = true := by decide +kernel
private theorem right_15 : topEnc (mulImpl unitScheme unitCloud 31 (unitPad 15) (unitCt 16)).call = true := by decide +kernel
private theorem right_16 : topEnc (mulImpl unitScheme unitCloud 31 (unitPad 16) (unitCt 16)).call = true := by decide +kernel

theorem topEnc_right : ∀ k : Nat, k ≤ 16 → topEnc (mulImpl unitScheme unitCloud 31 (unitPad k) (unitCt 16)).call = true
  | 0, _ => right_0
  | 1, _ => right_1
  | 2, _ => right_2
  | 3, _ => right_3
  | 4, _ => right_4
  | 5, _ => right_5
  | 6, _ => right_6
  | 7, _ => right_7
  | 8, _ => right_8
  | 9, _ => right_9
  | 10, _ => right_10
  | 11, _ => right_11
  | 12, _ => right_12
  | 13, _ => right_13
  | 14, _ => right_14
  | 15, _ => right_15
  | 16, _ => right_16
  | k + 17, h => absurd h (by omega)

end Parm
