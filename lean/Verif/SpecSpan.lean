import Mathlib.Data.Nat.Log
import Verif.SpecCost

/-!
# Specification of the critical path (property C70)

`arithSpan` is an arithmetic on (bounds of) numbers of words, as `arithCost`, whose operations count the bootstraps
that have to be performed one after the other, however many workers there are.
-/

namespace Parm

/-- additions: as many rounds of bootstraps whatever the number of words -/
def spanAdd (rounds n m : Nat) : Nat := if n = 0 ∨ m = 0 then 0 else rounds

/-- the reduction of `n` words to one, in groups of four -/
def spanReduce (pc : Cloud) (n : Nat) : Nat :=
  if n ≤ 1 then 0 else (if 85 ≤ pc.params.quadWeight then 0 else 1) + (Nat.clog 4 n - 1)

/-- signum: the reduction and a final bootstrap -/
def spanSgn (pc : Cloud) (n : Nat) : Nat := if n ≤ 1 then 0 else spanReduce pc n + 1

/-- maximum after the subtraction: the reduction, the test of the sign, the selection -/
def spanSelect (pc : Cloud) (diff : Nat) : Nat := spanReduce pc diff + if 41 ≤ pc.params.quadWeight then 2 else 3

/-- product of at most `n` words -/
def spanMul (n : Nat) : Nat := if n < 18 then 2 * n - 1 else max 33 (n + 10)

/-- square of at most `n` words -/
def spanSqu (n : Nat) : Nat := if n ≤ 3 then 1 else n + 4

/-- the arithmetic of critical paths -/
def arithSpan (pc : Cloud) : Arith Nat where
  zero := 0
  opp n := pure n
  shift n k := pure (n + k)
  add n m := costing (spanAdd 2 n m) (lenAdd n m)
  sub n m := costing (spanAdd 2 n m) (lenAdd n m)
  addNoisy n m := costing (spanAdd 1 n m) (lenAdd n m)
  subNoisy n m := costing (spanAdd 1 n m) (lenAdd n m)
  addConst n k := costing (if k = 0 then 0 else spanAdd 2 n 1) (lenAdd n (bits k.natAbs))
  scalarMul k n :=
    if k < -2 ^ 31 ∨ 2 ^ 31 ≤ k then M.panic .unwrapNone
    else costing (if k.natAbs ≤ 1 then 0 else 12) (n + bits k.natAbs + 7)
  sgn n := costing (spanSgn pc n) (min n 1)
  max n m := costing (spanAdd 2 n m + spanSelect pc (lenAdd n m)) (max n m)
  relu n := costing (spanSelect pc n) n
  mul n m := match mulBound[max n m]? with
    | some (_, l) => costing (spanMul (max n m)) l
    | none => M.panic .unwrapNone
  squ n := match squBound[n]? with
    | some (_, l) => costing (spanSqu n) l
    | none => M.panic .unwrapNone
  roundAt n p :=
    if p = 0 then pure n
    else if p > n then pure 0
    else costing (spanSgn pc (p - 1) + 3) (max n (p + 1) + 1)

end Parm
