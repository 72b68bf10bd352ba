import Verif.Model.Pbs

/-!
# Model of `/repo/src/cloudovo/addition.rs` and of the `shift`/`add`/`sub` wrappers of
`/repo/src/arithmetics.rs:214-320`
-/

namespace Parm
variable (S : Scheme)

/-- number of leading (least significant) trivial zeros, `addition.rs:37-42` -/
def rzero {C : Type} (x : Ctxt C) : Nat := (x.takeWhile Word.isTrivZero).length

/-- number of trailing (most significant) trivial zeros, `addition.rs:56-61` -/
def lzero {C : Type} (x : Ctxt C) : Nat := rzero x.reverse

/-- `opposite_impl`, `/repo/src/cloudovo/addition.rs:162-170` -/
def oppositeImpl (x : Ctxt S.C) : Ctxt S.C := x.map (Word.opp S)

/-- `for (wi, yi) in w.iter_mut().zip(y.iter()) { wi.<op>_inplace(yi) }`,
`addition.rs:84-90`: words of `w` beyond the end of `y` are unchanged. -/
def zipInplace {α : Type} (op : α → α → α) : List α → List α → List α
  | a :: as, b :: bs => op a b :: zipInplace op as bs
  | as, [] => as
  | [], _ => []

/-- `add_sub_impl`, `/repo/src/cloudovo/addition.rs:20-160`.  Logging
(`measure_duration!`, `println!`) is dropped. -/
def addSubImpl (isAdd : Bool) (pc : Cloud) (x y : Ctxt S.C) (refresh : Bool) : M (Ctxt S.C) :=
  -- addition.rs:35-42
  let xRzero := rzero x
  let yRzero := rzero y
  -- addition.rs:44-45
  if xRzero = x.length then
    pure (if isAdd then y else oppositeImpl S y)
  else if yRzero = y.length then
    pure x
  else
    -- addition.rs:47
    let rTriv := max xRzero yRzero
    -- addition.rs:54-62
    let wlen := max (x.length - lzero x) (y.length - lzero y)
    -- addition.rs:70-79
    let w := x.take wlen ++ List.replicate (wlen - x.length) (encryptWordTriv S.C pc 0)
    -- addition.rs:83-91
    let w := if isAdd then zipInplace (Word.add S) w y else zipInplace (Word.sub S) w y
    -- addition.rs:93
    let q := trivCt S.C pc wlen
    -- addition.rs:96-105
    if rTriv ≥ q.length then M.err .addFatal
    else do
      -- addition.rs:107-120
      let qHi ← parFor (q.drop rTriv) (fun i0 _ => do
        let wi ← idx (w.drop rTriv) i0
        let i := i0 + rTriv
        let wi3 := Word.mulConst S wi 3
        let wi3 ← (if i0 > 0 then do
            let wp ← idx w (i - 1)
            pure (Word.add S wi3 wp)
          else pure wi3 : M (Word S.C))
        pbsF4 S pc wi3)
      let q := q.take rTriv ++ qHi
      -- addition.rs:124-129
      let w ← seqFor w (fun i wi => do
        let qi ← idx q i
        let wi := Word.sub S wi (Word.mulConst S qi 2)
        if i > 0 then do
          let qp ← idx q (i - 1)
          pure (Word.add S wi qp)
        else pure wi)
      -- addition.rs:132-149
      let z := trivCt S.C pc wlen
      let zHi ← (if refresh then
          parFor (z.drop rTriv) (fun i0 _ => do
            let wi ← idx (w.drop rTriv) i0
            pbsId S pc wi)
        else pure (w.drop rTriv) : M (Ctxt S.C))
      -- addition.rs:151-153
      let z := w.take rTriv ++ zHi
      -- addition.rs:155
      match q.getLast? with
      | some ql => pure (z ++ [ql])
      | none => M.panic .unwrapNone

/-- `ParmArithmetics::add` for ciphertexts, `/repo/src/arithmetics.rs:234-254` -/
def ctAdd (pc : Cloud) (x y : Ctxt S.C) : M (Ctxt S.C) := (addSubImpl S true pc x y true).call
/-- `ParmArithmetics::sub`, `/repo/src/arithmetics.rs:256-276` -/
def ctSub (pc : Cloud) (x y : Ctxt S.C) : M (Ctxt S.C) := (addSubImpl S false pc x y true).call
/-- `ParmArithmetics::add_noisy`, `/repo/src/arithmetics.rs:278-298` -/
def ctAddNoisy (pc : Cloud) (x y : Ctxt S.C) : M (Ctxt S.C) := (addSubImpl S true pc x y false).call
/-- `ParmArithmetics::sub_noisy`, `/repo/src/arithmetics.rs:300-320` -/
def ctSubNoisy (pc : Cloud) (x y : Ctxt S.C) : M (Ctxt S.C) := (addSubImpl S false pc x y false).call
/-- `ParmArithmetics::opp`, `/repo/src/arithmetics.rs:219-221` -/
def ctOpp (x : Ctxt S.C) : Ctxt S.C := oppositeImpl S x
/-- `ParmArithmetics::shift`, `/repo/src/arithmetics.rs:223-232` -/
def ctShift {C : Type} (pc : Cloud) (x : Ctxt C) (k : Nat) : Ctxt C :=
  if k = 0 then x else trivCt C pc k ++ x
/-- `ParmArithmetics::zero`, `/repo/src/arithmetics.rs:215-217` -/
def ctZero (C : Type) : Ctxt C := emptyCt C

/-- `k_len` of `add_const_impl`, `/repo/src/cloudovo/addition.rs:185-186`:
`for i in 0..63 {if k_abs & (1 << i) != 0 {k_len = i + 1;}}` (`k_abs` as a 64-bit word) -/
def addConstLen (kAbs : BitVec 64) : Nat :=
  (List.range 63).foldl (fun l i => if kAbs &&& (1#64 <<< i) ≠ 0 then i + 1 else l) 0

/-- `add_const_impl`, `/repo/src/cloudovo/addition.rs:172-206`.  `k` is an `i64`. -/
def addConstImpl (pc : Cloud) (x : Ctxt S.C) (k : Int) : M (Ctxt S.C) :=
  if k = 0 then pure x
  else do
    -- `k.abs()`: overflows for `k = -2^63`
    let kAbsI ← i64Op pc.build (k.natAbs : Int)
    let kAbs : BitVec 64 := BitVec.ofInt 64 kAbsI
    let kPos := decide (k ≥ 0)
    let kLen := addConstLen kAbs
    -- `(k_abs >> i) & 1` (arithmetic shift of an i64; `i < 63`)
    let ck := (List.range kLen).map fun i =>
      let ki : Nat := if (kAbs.sshiftRight i) &&& 1#64 = 0 then 0
        else if kPos then 1 else pc.params.plaintextMask
      encryptWordTriv S.C pc (wrapI32 (ki : Int))
    ctAdd S pc x ck

/-- `ParmArithmetics::add_const`, `/repo/src/arithmetics.rs:322-340` -/
def ctAddConst (pc : Cloud) (x : Ctxt S.C) (k : Int) : M (Ctxt S.C) := (addConstImpl S pc x k).call

end Parm
