import Verif.Spec
import Verif.Model.NN

/-!
# Specification of the exact number of words of results (property C57)

The number of words of a result only depends on the number of words of the operands, as long as the most
significant words are encrypted.  `arithLen` is the arithmetic on numbers of words: running a program or a
network on it computes the numbers of words of the results.  It fails where the number of words alone does not
determine that of the result.
-/

namespace Parm

/-- `n` words, the most significant of which (if any) is encrypted -/
def Words {C : Type} (n : Nat) (x : Ctxt C) : Prop := x.length = n ∧ ∀ w, x.getLast? = some w → Encrypted w

/-- Sums have one more word than the longer operand, unless an operand is empty. -/
def lenAdd (n m : Nat) : Nat := if n = 0 then m else if m = 0 then n else max n m + 1

/-- a chain: each element is a sum of an earlier value and a shifted earlier value -/
def lenChain : Asc → List Nat → Option Nat
  | [], ls => ls.getLast?
  | e :: es, ls =>
    match ls[e.lIdx]?, ls[e.rIdx]? with
    | some l, some r => lenChain es (ls ++ [max l (r + e.rShift) + 1])
    | _, _ => none

/-- one window of a scalar: the chain of its absolute value, shifted -/
def lenWindow (tbl : List (Nat × Asc)) (n : Nat) (w : Int × Nat) : Option Nat :=
  ((tbl.find? fun e => e.1 == w.1.natAbs).bind fun e => lenChain e.2 [n]).map (· + w.2)

/-- The windows are added one after the other. -/
def lenWindows (tbl : List (Nat × Asc)) (n : Nat) : List (Int × Nat) → Option Nat
  | [] => none
  | w :: ws => do
    let l ← lenWindow tbl n w
    let ls ← ws.mapM (lenWindow tbl n)
    pure (ls.foldl (fun a b => max a b + 1) l)

/-- a value, or failure -/
def orFail {α : Type} : Option α → M α
  | some a => pure a
  | none => M.panic .unwrapNone

/-- Multiples by 0 are empty, by ±1 as long as the operand. -/
def lenScalarMul (pc : Cloud) (k : Int) (n : Nat) : M Nat :=
  if k.natAbs = 0 then pure 0
  else if k.natAbs = 1 then pure n
  else if n = 0 ∨ k.natAbs ≥ 2 ^ 31 then M.panic .unwrapNone
  else do
    let ws ← windShifts pc.build k.natAbs ascBitlen
    orFail (lenWindows pc.asc n ws)

/-- Constants must not be longer than the operand. -/
def lenAddConst (n : Nat) (k : Int) : M Nat :=
  if k = 0 then pure n else if n = 0 ∨ k.natAbs ≥ 2 ^ min n 63 then M.panic .unwrapNone else pure (n + 1)

/-- the arithmetic of numbers of words -/
def arithLen (pc : Cloud) : Arith Nat where
  zero := 0
  opp n := pure n
  shift n k := if n = 0 ∧ k ≠ 0 then M.panic .unwrapNone else pure (n + k)
  add n m := pure (lenAdd n m)
  sub n m := pure (lenAdd n m)
  addNoisy n m := pure (lenAdd n m)
  subNoisy n m := pure (lenAdd n m)
  addConst n k := lenAddConst n k
  scalarMul k n := lenScalarMul pc k n
  sgn n := pure (min n 1)
  max n m := pure (max n m)
  relu n := pure n
  mul _ _ := M.panic .unwrapNone
  squ _ := M.panic .unwrapNone
  roundAt n p := if p = 0 then pure n else if p > n then pure 0 else M.panic .unwrapNone

/-- adding the elements of a list one after the other -/
def accumulate {T : Type} (A : Arith T) : List T → T → M T
  | [], acc => pure acc
  | x :: xs, acc => do
    let s ← A.add acc x
    accumulate A xs s

end Parm
