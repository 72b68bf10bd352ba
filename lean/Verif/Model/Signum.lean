import Verif.Model.Addition

/-!
# Model of `/repo/src/cloudovo/signum.rs`, `maximum.rs`, `rounding.rs`
-/

namespace Parm
variable (S : Scheme)

/-- `GAMMA`, `/repo/src/cloudovo/signum.rs:64` -/
def sgnGamma : Nat := 4

/-- body of the first-round task `j`, `/repo/src/cloudovo/signum.rs:96-117` -/
def sgnFirst (pc : Cloud) (x : Ctxt S.C) (j : Nat) (bj : Word S.C) : M (Word S.C) := do
  -- signum.rs:99-110
  let bj ← (if sgnGamma * j + 3 < x.length then do
      let x3 ← idx x (sgnGamma * j + 3)
      let sj3 ← (if pc.params.quadWeight ≥ 85 then pure (Word.mulConst S x3 8)
        else pbsF1 S pc x3 8 : M (Word S.C))
      pure (Word.add S bj sj3)
    else pure bj : M (Word S.C))
  -- signum.rs:112-117, unrolled for `i in 0..=2`
  let step (i : Nat) (bj : Word S.C) : M (Word S.C) :=
    if sgnGamma * j + i < x.length then do
      let xi ← idx x (sgnGamma * j + i)
      let xi := if i = 0 then xi else Word.mulConst S xi (2 ^ i : Nat)
      pure (Word.add S bj xi)
    else pure bj
  let bj ← step 0 bj
  let bj ← step 1 bj
  step 2 bj

/-- body of a later-round task `j`, `/repo/src/cloudovo/signum.rs:119-143` -/
def sgnNext (pc : Cloud) (x : Ctxt S.C) (j : Nat) (bj : Word S.C) : M (Word S.C) := do
  let sj ← parFor (trivCt S.C pc sgnGamma) (fun i sji =>
    if sgnGamma * j + i < x.length then do
      let xi ← idx x (sgnGamma * j + i)
      pbsF1 S pc xi (2 ^ i)
    else pure sji)
  pure (sj.foldl (Word.add S) bj)

/-- `sgn_recursion_raw`, `/repo/src/cloudovo/signum.rs:59-155`.  Recursion on `fuel`
(the code recurses on a shorter ciphertext); running out of fuel is a distinct panic that
is proved unreachable for the fuel used below. -/
def sgnRecursionRaw (pc : Cloud) : Nat → Ctxt S.C → Bool → M (Ctxt S.C)
  | fuel, x, firstRound =>
    -- signum.rs:67-70
    if x.length = 0 then pure (trivCt S.C pc 1)
    -- signum.rs:74-76
    else if x.length = 1 then pure x
    else match fuel with
      | 0 => M.panic .fuel
      | fuel + 1 => do
        -- signum.rs:83
        let b := trivCt S.C pc ((x.length - 1) / sgnGamma + 1)
        -- signum.rs:93-144
        let b ← parFor b (fun j bj =>
          if firstRound then sgnFirst S pc x j bj else sgnNext S pc x j bj)
        -- signum.rs:146-150
        sgnRecursionRaw pc fuel b false

/-- `sgn_impl`, `/repo/src/cloudovo/signum.rs:19-53` -/
def sgnImpl (pc : Cloud) (x : Ctxt S.C) : M (Ctxt S.C) :=
  if x.length = 0 then pure (ctZero S.C)
  else if x.length = 1 then pure x
  else do
    let sRaw ← sgnRecursionRaw S pc x.length x true
    let s0 ← idx sRaw 0
    let sLwe ← pbsF1 S pc s0 1
    pure (singleCt sLwe)

/-- `ParmArithmetics::sgn`, `/repo/src/arithmetics.rs:362-378` -/
def ctSgn (pc : Cloud) (x : Ctxt S.C) : M (Ctxt S.C) := (sgnImpl S pc x).call

/-- `max_impl`, `/repo/src/cloudovo/maximum.rs:19-89` -/
def maxImpl (pc : Cloud) (x y : Ctxt S.C) : M (Ctxt S.C) := do
  -- maximum.rs:31
  let r ← ctSub S pc x y
  -- maximum.rs:35-39
  let sRaw ← sgnRecursionRaw S pc r.length r true
  -- maximum.rs:41-44
  let s0 ← idx sRaw 0
  let s ← pbsNonneg S pc s0
  -- maximum.rs:47-54
  let xa := x ++ List.replicate (y.length - x.length) (encryptWordTriv S.C pc 0)
  let ya := y ++ List.replicate (x.length - y.length) (encryptWordTriv S.C pc 0)
  -- maximum.rs:56-84
  parFor (trivCt S.C pc xa.length) (fun i _ => do
    let xi ← idx xa i
    let yi ← idx ya i
    let t ← (if pc.params.quadWeight ≥ 41 then pure (Word.mulConst S yi 6)
      else pbsF1 S pc yi 6 : M (Word S.C))
    let t := Word.add S t (Word.mulConst S xi 2)
    let t := Word.add S t s
    pbsMax S pc t)

/-- `ParmArithmetics::max`, `/repo/src/arithmetics.rs:380-398` -/
def ctMax (pc : Cloud) (x y : Ctxt S.C) : M (Ctxt S.C) := (maxImpl S pc x y).call

/-- `ParmArithmetics::relu`, `/repo/src/arithmetics.rs:400-417` -/
def ctRelu (pc : Cloud) (x : Ctxt S.C) : M (Ctxt S.C) := (maxImpl S pc (ctZero S.C) x).call

/-- `round_at_impl`, `/repo/src/cloudovo/rounding.rs:14-69` -/
def roundAtImpl (pc : Cloud) (x : Ctxt S.C) (pos : Nat) : M (Ctxt S.C) :=
  if pos = 0 then pure x
  else if pos ≥ x.length + 1 then pure (ctZero S.C)
  else do
    -- rounding.rs:47
    let s ← ctSgn S pc (x.take (pos - 1))
    -- rounding.rs:49-51
    let xp ← idx x (pos - 1)
    let yys := Word.mulConst S xp 2
    let yys ← (if s.length > 0 then do
        let s0 ← idx s 0
        pure (Word.add S yys s0)
      else pure yys : M (Word S.C))
    -- rounding.rs:54-55
    let rw ← pbsRound S pc yys
    let r := trivCt S.C pc pos ++ [rw]
    -- rounding.rs:62
    let slx := ctShift pc (x.drop pos) pos
    -- rounding.rs:66
    ctAdd S pc slx r

/-- `ParmArithmetics::round_at`, `/repo/src/arithmetics.rs:457-475` -/
def ctRoundAt (pc : Cloud) (x : Ctxt S.C) (pos : Nat) : M (Ctxt S.C) := (roundAtImpl S pc x pos).call

end Parm
