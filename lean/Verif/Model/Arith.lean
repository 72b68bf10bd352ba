import Verif.Model.Ciphertext

/-!
# Model of the trait `ParmArithmetics` (`/repo/src/arithmetics.rs:15-120`) and its
implementation for `i64` (`/repo/src/arithmetics.rs:122-212`)
-/

namespace Parm

/-- Trait `ParmArithmetics`, `/repo/src/arithmetics.rs:15-120` (with `pc` already applied) -/
structure Arith (T : Type) where
  zero : T
  opp : T → M T
  shift : T → Nat → M T
  add : T → T → M T
  sub : T → T → M T
  addNoisy : T → T → M T
  subNoisy : T → T → M T
  addConst : T → Int → M T
  scalarMul : Int → T → M T
  sgn : T → M T
  max : T → T → M T
  relu : T → M T
  mul : T → T → M T
  squ : T → M T
  roundAt : T → Nat → M T

/-- `x << k` on `i64`: bits shifted out are lost silently; only the amount is checked. -/
def i64Shl (b : Build) (x : Int) (k : Nat) : M Int := do
  let sh ← shAmt64 b k
  pure (wrapI64 (x * 2 ^ sh))

/-- `round_at` for `i64`, `/repo/src/arithmetics.rs:196-211`.  `x & (2^p - 1)` is
`x mod 2^p`; `x & 2^(p-1)` is `2^(p-1)` times bit `p-1` of `x`. -/
def i64RoundAt (b : Build) (x : Int) (pos : Nat) : M Int :=
  if pos = 0 then pure x
  else if pos ≥ 63 then M.panic .roundPos
  else do
    let lowBits := x % 2 ^ pos
    let t ← i64Op b (x - lowBits)
    let bit := x / 2 ^ (pos - 1) % 2 * 2 ^ (pos - 1)
    i64Op b (t + wrapI64 (bit * 2))

/-- `impl ParmArithmetics for i64`, `/repo/src/arithmetics.rs:122-212` -/
def arithI64 (b : Build) : Arith Int where
  zero := 0
  opp x := i64Op b (-x)
  shift x k := i64Shl b x k
  add x y := i64Op b (x + y)
  sub x y := i64Op b (x - y)
  addNoisy x y := i64Op b (x + y)
  subNoisy x y := i64Op b (x - y)
  addConst x k := i64Op b (x + k)
  scalarMul k x := i64Op b (k * x)
  sgn x := pure x.sign
  max x y := pure (if x ≤ y then y else x)
  relu x := pure (if 0 ≤ x then x else 0)
  mul x y := i64Op b (x * y)
  squ x := i64Op b (x * x)
  roundAt x p := i64RoundAt b x p

end Parm
