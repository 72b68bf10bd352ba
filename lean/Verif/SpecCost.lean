import Verif.SpecLengths
import Verif.Props.Naf

/-!
# Specification of the worst-case number of bootstraps (property C62)

`arithCost` is an arithmetic on (bounds of) numbers of words, whose operations count bootstraps.  Running a program or
a network on it gives bounds of the numbers of words of the results and of the bootstraps of a run on ciphertexts.
It fails where numbers of words are not enough to know a bound: factors of more than 32 words, and scalars outside
of `i32`.
-/

namespace Parm

/-- counts `n` bootstraps -/
def spend (n : Nat) : M Unit := fun s => .ok ((), { s with pbs := s.pbs + n })

/-- `c` bootstraps, `l` words -/
def costing (c l : Nat) : M Nat := do
  spend c
  pure l

/-- value and bootstraps of a computation, if it returns -/
def worst {α : Type} (m : M α) : Option (α × Nat) :=
  match m (St.init Sched.seq) with
  | .ok (a, s) => some (a, s.pbs)
  | .error _ => none

/-- an addition or a subtraction: two bootstraps a word, or one without refresh; none if an operand is empty -/
def costAdd (perWord n m : Nat) : Nat := if n = 0 ∨ m = 0 then 0 else perWord * max n m

/-- signum: half a bootstrap a word, or one with parameters of too small weights for the fast first round -/
def costSgn (pc : Cloud) (n : Nat) : Nat := if n ≤ 1 then 0 else if pc.params.quadWeight ≥ 85 then (n + 1) / 2 else n

/-- maximum after the subtraction: the signum, and one bootstrap a word, or two with parameters of too small weights -/
def costSelect (pc : Cloud) (diff n : Nat) : Nat :=
  max 1 (costSgn pc diff) + n * if pc.params.quadWeight ≥ 41 then 1 else 2

/-- products: bounds of the bootstraps and of the words by the number of words of the longer operand -/
def mulBound : List (Nat × Nat) := [
  (0, 0), (1, 2), (8, 4), (21, 6), (40, 8), (65, 10), (96, 12), (133, 14), (176, 16), (225, 18), (280, 20), (341, 22),
  (408, 24), (481, 26), (560, 28), (645, 30), (747, 33), (833, 34), (920, 37), (1052, 39), (1111, 41), (1255, 43),
  (1320, 45), (1476, 47), (1547, 49), (1715, 51), (1792, 53), (1972, 55), (2055, 57), (2262, 59), (2351, 61), (2553,
  63), (2661, 66)]

/-- squares: bounds of the bootstraps and of the words -/
def squBound : List (Nat × Nat) := [
  (0, 0), (1, 1), (3, 4), (5, 6), (30, 9), (51, 12), (55, 13), (103, 15), (134, 18), (184, 20), (211, 23), (250, 25),
  (256, 26), (345, 28), (397, 30), (475, 32), (512, 35), (615, 37), (669, 39), (755, 41), (788, 44), (892, 46), (935,
  48), (1012, 50), (1020, 51), (1186, 53), (1279, 55), (1414, 57), (1470, 59), (1637, 61), (1719, 63), (1864, 65),
  (1907, 68)]

/-- the arithmetic of worst cases -/
def arithCost (pc : Cloud) : Arith Nat where
  zero := 0
  opp n := pure n
  shift n k := pure (n + k)
  add n m := costing (costAdd 2 n m) (lenAdd n m)
  sub n m := costing (costAdd 2 n m) (lenAdd n m)
  addNoisy n m := costing (costAdd 1 n m) (lenAdd n m)
  subNoisy n m := costing (costAdd 1 n m) (lenAdd n m)
  addConst n k := costing (costAdd 2 n (bits k.natAbs)) (lenAdd n (bits k.natAbs))
  scalarMul k n :=
    if k < -2 ^ 31 ∨ 2 ^ 31 ≤ k then M.panic .unwrapNone
    else costing (min 14 (binWeight k.natAbs - 1) * (2 * (n + bits k.natAbs + 6))) (n + bits k.natAbs + 7)
  sgn n := costing (costSgn pc n) (min n 1)
  max n m := costing (costAdd 2 n m + costSelect pc (lenAdd n m) (max n m)) (max n m)
  relu n := costing (costSelect pc n n) n
  mul n m := match mulBound[max n m]? with
    | some (c, l) => costing c l
    | none => M.panic .unwrapNone
  squ n := match squBound[n]? with
    | some (c, l) => costing c l
    | none => M.panic .unwrapNone
  roundAt n p :=
    if p = 0 then pure n
    else if p > n then pure 0
    else costing (costSgn pc (p - 1) + 1 + 2 * (max n (p + 1) - p)) (max n (p + 1) + 1)

end Parm
