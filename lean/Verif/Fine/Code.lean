import Verif.Fine.Rust
import Verif.Model.NN
import Verif.Spec

/-!
# The model with interleaved tasks

Generated by `tools/gen_fine.py` from the files of `Verif/Model` (and the programs of `Verif.Spec`):
the same functions, with the same text, on `P` instead of `M`.  Functions that are not monadic are
those of the model itself.
-/

namespace Parm.Fine

/-! ### from `Verif/Model/Rust.lean` -/

section

/-- `v[i]` with Rust's bounds check. -/
def idx {α} (l : List α) (i : Nat) : P α :=
  match l[i]? with
  | some a => pure a
  | none => P.panic .index

/-- `v[i] = a` with Rust's bounds check. -/
def setIdx {α} (l : List α) (i : Nat) (a : α) : P (List α) :=
  if i < l.length then pure (l.set i a) else P.panic .index

/-- Run the tasks `order` over the slots `arr`; task `i` replaces slot `i`. -/
def runTasks {α} (f : Nat → α → P α) : List Nat → List α → P (List α)
  | [], arr => pure arr
  | i :: is, arr => do
    let a ← idx arr i
    let b ← f i a
    runTasks f is (arr.set i b)

/-- `arr.iter_mut().enumerate().for_each(|(i, slot)| *slot = f i slot)`. -/
def seqFor {α} (arr : List α) (f : Nat → α → P α) : P (List α) :=
  runTasks f (List.range arr.length) arr

/-- Result of an `i32`/`i64`/`u32` arithmetic operation whose exact value is `x`. -/
def i32Op (b : Build) (x : Int) : P Int :=
  if inI32 x then pure x else match b with
    | .debug => P.panic .overflow
    | .release => pure (wrapI32 x)

def i64Op (b : Build) (x : Int) : P Int :=
  if inI64 x then pure x else match b with
    | .debug => P.panic .overflow
    | .release => pure (wrapI64 x)

def u32Op (b : Build) (x : Int) : P Int :=
  if inU32 x then pure x else match b with
    | .debug => P.panic .overflow
    | .release => pure (wrapU32 x)

/-- Shift amount of a 64-bit shift: amounts `≥ 64` panic in debug builds and are
reduced modulo 64 in release builds. -/
def shAmt64 (b : Build) (i : Nat) : P Nat :=
  if i < 64 then pure i else match b with
    | .debug => P.panic .overflow
    | .release => pure (i % 64)

end

/-! ### from `Verif/Model/Ciphertext.lean` -/

section

/-- `decrypt_mu`, `/repo/src/ciphertexts.rs:53-67` -/
def decryptMu {S : Scheme} (ck : Option (ClientKey S)) (w : Word S.C) : P Nat :=
  match w.ct with
  | .ct c => match ck with
    | some k => pure (k.decrypt w.msgMod c)
    | none => P.err .noClientKey
  | .triv pt => pure (ptToMu w.msgMod pt)

/-- `decrypt_mi`, `/repo/src/ciphertexts.rs:69-74` -/
def decryptMi {S : Scheme} (ck : Option (ClientKey S)) (w : Word S.C) : P Int := do
  let mu ← decryptMu ck w
  pure (muToMi w.msgMod mu)

end

/-! ### from `Verif/Model/Pbs.lean` -/

section

/-- `eval_LUT_5_float`, `/repo/src/cloudovo/pbs.rs:55-91`; `lut` holds twice the `f64`
entries. -/
def evalLut5Float (S : Scheme) (pc : Cloud) (c : Word S.C) (lut : List Int) : P (Word S.C) :=
  match c.ct with
  | .ct ctb => do
    P.bumpPbs
    -- `lut[x as usize]` is evaluated for every `x < modulus_sup` (pbs.rs:65,127-132)
    if pc.msgMod * pc.carryMod / 2 > lut.length then P.panic .index
    else
      let acc := genNoPaddingAcc pc (fun x => lut.getD x 0)
      pure { ct := .ct (S.pbs acc ctb), msgMod := pc.msgMod }
  | .triv pt => do
    let m := ptToMu c.msgMod pt
    let fm ← (if m < 16 then idx lut m
      else if m < 32 then do
        let v ← idx lut (m - 16)
        pure (-v)
      else P.panic .lutRange : P Int)
    -- pbs.rs:78
    let fmHalf := satI32 fm % 2 = 1
    -- pbs.rs:80
    let fmU := satI32 ((if fmHalf then fm - 1 else fm).tdiv 2) % 32
    if fmHalf then
      pure (Word.addHalf S (encryptWordTriv S.C pc fmU))
    else
      pure (encryptWordTriv S.C pc fmU)

/-- `eval_LUT_5_uint`, `/repo/src/cloudovo/pbs.rs:37-52` -/
def evalLut5Uint (S : Scheme) (pc : Cloud) (c : Word S.C) (lut : List Nat) : P (Word S.C) :=
  evalLut5Float S pc c (lut.map fun (v : Nat) => 2 * (u64ToF64 v : Int))

section

variable (S : Scheme) (pc : Cloud) (c : Word S.C)

/-- `id__pi_5`, `/repo/src/cloudovo/pbs.rs:164-173` -/
def pbsId : P (Word S.C) := evalLut5Uint S pc c lutId

/-- `f_3__pi_5`, `/repo/src/cloudovo/pbs.rs:179-188` -/
def pbsF3 : P (Word S.C) := evalLut5Uint S pc c lutF3

/-- `f_4__pi_5`, `/repo/src/cloudovo/pbs.rs:194-203` -/
def pbsF4 : P (Word S.C) := evalLut5Uint S pc c lutF4

/-- `f_5__pi_5`, `/repo/src/cloudovo/pbs.rs:209-218` -/
def pbsF5 : P (Word S.C) := evalLut5Uint S pc c lutF5

/-- `g_2__pi_5__with_val`, `/repo/src/cloudovo/pbs.rs:224-234` -/
def pbsG2 (val : Nat) : P (Word S.C) := evalLut5Uint S pc c (lutG2 val)

/-- `f_1__pi_5__with_val`, `/repo/src/cloudovo/pbs.rs:240-250` -/
def pbsF1 (val : Nat) : P (Word S.C) := evalLut5Uint S pc c (lutF1 val)

/-- `f_0__pi_5__with_val`, `/repo/src/cloudovo/pbs.rs:256-266` -/
def pbsF0 (val : Nat) : P (Word S.C) := evalLut5Uint S pc c (lutF0 val)

/-- `a_2__pi_5`, `/repo/src/cloudovo/pbs.rs:272-281` -/
def pbsA2 : P (Word S.C) := evalLut5Uint S pc c lutA2

/-- `a_1__pi_5`, `/repo/src/cloudovo/pbs.rs:287-296` -/
def pbsA1 : P (Word S.C) := evalLut5Uint S pc c lutA1

/-- `squ_3_bit__pi_5`, `/repo/src/cloudovo/pbs.rs:302-336` -/
def pbsSqu3 (pos : Nat) : P (Word S.C) :=
  match pos with
  | 0 => evalLut5Uint S pc c lutSqu0
  | 1 => pure (encryptWordTriv S.C pc 0)
  | 2 => evalLut5Uint S pc c lutSqu2
  | 3 => evalLut5Uint S pc c lutSqu3
  | 4 => evalLut5Uint S pc c lutSqu4
  | 5 => evalLut5Uint S pc c lutSqu5
  | _ => P.panic .squPos

/-- `mul_bit__pi_5`, `/repo/src/cloudovo/pbs.rs:349-358` -/
def pbsMulBit : P (Word S.C) := evalLut5Uint S pc c lutMulBit

/-- `relu_plus__pi_5`, `/repo/src/cloudovo/pbs.rs:367-376` -/
def pbsReluPlus : P (Word S.C) := evalLut5Uint S pc c lutReluPlus

/-- `round_2y_s__pi_5`, `/repo/src/cloudovo/pbs.rs:386-395` -/
def pbsRound : P (Word S.C) := evalLut5Uint S pc c lutRound

/-- `nonneg__pi_5`, `/repo/src/cloudovo/pbs.rs:404-415`; the LUT entry `0.5` is `1` half-unit -/
def pbsNonneg : P (Word S.C) := do
  let h ← evalLut5Float S pc c (List.replicate 16 1)
  pure (Word.addHalf S h)

/-- `max_s_2x_6y__pi_5`, `/repo/src/cloudovo/pbs.rs:421-431` -/
def pbsMax : P (Word S.C) := evalLut5Uint S pc c lutMax

end

end

/-! ### from `Verif/Model/Addition.lean` -/

section

variable (S : Scheme)

/-- `add_sub_impl`, `/repo/src/cloudovo/addition.rs:20-160`.  Logging
(`measure_duration!`, `println!`) is dropped. -/
def addSubImpl (isAdd : Bool) (pc : Cloud) (x y : Ctxt S.C) (refresh : Bool) : P (Ctxt S.C) :=
  -- addition.rs:35-42
  let xRzero := rzero x
  let yRzero := rzero y
  -- addition.rs:44-45
  if xRzero = x.length then
    pure (if isAdd then y else oppositeImpl S y)
  else if yRzero = y.length then
    pure x
  else
    -- addition.rs:47
    let rTriv := max xRzero yRzero
    -- addition.rs:54-62
    let wlen := max (x.length - lzero x) (y.length - lzero y)
    -- addition.rs:70-79
    let w := x.take wlen ++ List.replicate (wlen - x.length) (encryptWordTriv S.C pc 0)
    -- addition.rs:83-91
    let w := if isAdd then zipInplace (Word.add S) w y else zipInplace (Word.sub S) w y
    -- addition.rs:93
    let q := trivCt S.C pc wlen
    -- addition.rs:96-105
    if rTriv ≥ q.length then P.err .addFatal
    else do
      -- addition.rs:107-120
      let qHi ← parFor (q.drop rTriv) (fun i0 _ => do
        let wi ← idx (w.drop rTriv) i0
        let i := i0 + rTriv
        let wi3 := Word.mulConst S wi 3
        let wi3 ← (if i0 > 0 then do
            let wp ← idx w (i - 1)
            pure (Word.add S wi3 wp)
          else pure wi3 : P (Word S.C))
        pbsF4 S pc wi3)
      let q := q.take rTriv ++ qHi
      -- addition.rs:124-129
      let w ← seqFor w (fun i wi => do
        let qi ← idx q i
        let wi := Word.sub S wi (Word.mulConst S qi 2)
        if i > 0 then do
          let qp ← idx q (i - 1)
          pure (Word.add S wi qp)
        else pure wi)
      -- addition.rs:132-149
      let z := trivCt S.C pc wlen
      let zHi ← (if refresh then
          parFor (z.drop rTriv) (fun i0 _ => do
            let wi ← idx (w.drop rTriv) i0
            pbsId S pc wi)
        else pure (w.drop rTriv) : P (Ctxt S.C))
      -- addition.rs:151-153
      let z := w.take rTriv ++ zHi
      -- addition.rs:155
      match q.getLast? with
      | some ql => pure (z ++ [ql])
      | none => P.panic .unwrapNone

/-- `ParmArithmetics::add` for ciphertexts, `/repo/src/arithmetics.rs:234-254` -/
def ctAdd (pc : Cloud) (x y : Ctxt S.C) : P (Ctxt S.C) := (addSubImpl S true pc x y true).call

/-- `ParmArithmetics::sub`, `/repo/src/arithmetics.rs:256-276` -/
def ctSub (pc : Cloud) (x y : Ctxt S.C) : P (Ctxt S.C) := (addSubImpl S false pc x y true).call

/-- `ParmArithmetics::add_noisy`, `/repo/src/arithmetics.rs:278-298` -/
def ctAddNoisy (pc : Cloud) (x y : Ctxt S.C) : P (Ctxt S.C) := (addSubImpl S true pc x y false).call

/-- `ParmArithmetics::sub_noisy`, `/repo/src/arithmetics.rs:300-320` -/
def ctSubNoisy (pc : Cloud) (x y : Ctxt S.C) : P (Ctxt S.C) := (addSubImpl S false pc x y false).call

/-- `add_const_impl`, `/repo/src/cloudovo/addition.rs:172-206`.  `k` is an `i64`. -/
def addConstImpl (pc : Cloud) (x : Ctxt S.C) (k : Int) : P (Ctxt S.C) :=
  if k = 0 then pure x
  else do
    -- `k.abs()`: overflows for `k = -2^63`
    let kAbsI ← i64Op pc.build (k.natAbs : Int)
    let kAbs : BitVec 64 := BitVec.ofInt 64 kAbsI
    let kPos := decide (k ≥ 0)
    let kLen := addConstLen kAbs
    -- `(k_abs >> i) & 1` (arithmetic shift of an i64; `i < 63`)
    let ck := (List.range kLen).map fun i =>
      let ki : Nat := if (kAbs.sshiftRight i) &&& 1#64 = 0 then 0
        else if kPos then 1 else pc.params.plaintextMask
      encryptWordTriv S.C pc (wrapI32 (ki : Int))
    ctAdd S pc x ck

/-- `ParmArithmetics::add_const`, `/repo/src/arithmetics.rs:322-340` -/
def ctAddConst (pc : Cloud) (x : Ctxt S.C) (k : Int) : P (Ctxt S.C) := (addConstImpl S pc x k).call

end

/-! ### from `Verif/Model/Signum.lean` -/

section

variable (S : Scheme)

/-- body of the first-round task `j`, `/repo/src/cloudovo/signum.rs:96-117` -/
def sgnFirst (pc : Cloud) (x : Ctxt S.C) (j : Nat) (bj : Word S.C) : P (Word S.C) := do
  -- signum.rs:99-110
  let bj ← (if sgnGamma * j + 3 < x.length then do
      let x3 ← idx x (sgnGamma * j + 3)
      let sj3 ← (if pc.params.quadWeight ≥ 85 then pure (Word.mulConst S x3 8)
        else pbsF1 S pc x3 8 : P (Word S.C))
      pure (Word.add S bj sj3)
    else pure bj : P (Word S.C))
  -- signum.rs:112-117, unrolled for `i in 0..=2`
  let step (i : Nat) (bj : Word S.C) : P (Word S.C) :=
    if sgnGamma * j + i < x.length then do
      let xi ← idx x (sgnGamma * j + i)
      let xi := if i = 0 then xi else Word.mulConst S xi (2 ^ i : Nat)
      pure (Word.add S bj xi)
    else pure bj
  let bj ← step 0 bj
  let bj ← step 1 bj
  step 2 bj

/-- body of a later-round task `j`, `/repo/src/cloudovo/signum.rs:119-143` -/
def sgnNext (pc : Cloud) (x : Ctxt S.C) (j : Nat) (bj : Word S.C) : P (Word S.C) := do
  let sj ← parFor (trivCt S.C pc sgnGamma) (fun i sji =>
    if sgnGamma * j + i < x.length then do
      let xi ← idx x (sgnGamma * j + i)
      pbsF1 S pc xi (2 ^ i)
    else pure sji)
  pure (sj.foldl (Word.add S) bj)

/-- `sgn_recursion_raw`, `/repo/src/cloudovo/signum.rs:59-155`.  Recursion on `fuel`
(the code recurses on a shorter ciphertext); running out of fuel is a distinct panic that
is proved unreachable for the fuel used below. -/
def sgnRecursionRaw (pc : Cloud) : Nat → Ctxt S.C → Bool → P (Ctxt S.C)
  | fuel, x, firstRound =>
    -- signum.rs:67-70
    if x.length = 0 then pure (trivCt S.C pc 1)
    -- signum.rs:74-76
    else if x.length = 1 then pure x
    else match fuel with
      | 0 => P.panic .fuel
      | fuel + 1 => do
        -- signum.rs:83
        let b := trivCt S.C pc ((x.length - 1) / sgnGamma + 1)
        -- signum.rs:93-144
        let b ← parFor b (fun j bj =>
          if firstRound then sgnFirst S pc x j bj else sgnNext S pc x j bj)
        -- signum.rs:146-150
        sgnRecursionRaw pc fuel b false

/-- `sgn_impl`, `/repo/src/cloudovo/signum.rs:19-53` -/
def sgnImpl (pc : Cloud) (x : Ctxt S.C) : P (Ctxt S.C) :=
  if x.length = 0 then pure (ctZero S.C)
  else if x.length = 1 then pure x
  else do
    let sRaw ← sgnRecursionRaw S pc x.length x true
    let s0 ← idx sRaw 0
    let sLwe ← pbsF1 S pc s0 1
    pure (singleCt sLwe)

/-- `ParmArithmetics::sgn`, `/repo/src/arithmetics.rs:362-378` -/
def ctSgn (pc : Cloud) (x : Ctxt S.C) : P (Ctxt S.C) := (sgnImpl S pc x).call

/-- `max_impl`, `/repo/src/cloudovo/maximum.rs:19-89` -/
def maxImpl (pc : Cloud) (x y : Ctxt S.C) : P (Ctxt S.C) := do
  -- maximum.rs:31
  let r ← ctSub S pc x y
  -- maximum.rs:35-39
  let sRaw ← sgnRecursionRaw S pc r.length r true
  -- maximum.rs:41-44
  let s0 ← idx sRaw 0
  let s ← pbsNonneg S pc s0
  -- maximum.rs:47-54
  let xa := x ++ List.replicate (y.length - x.length) (encryptWordTriv S.C pc 0)
  let ya := y ++ List.replicate (x.length - y.length) (encryptWordTriv S.C pc 0)
  -- maximum.rs:56-84
  parFor (trivCt S.C pc xa.length) (fun i _ => do
    let xi ← idx xa i
    let yi ← idx ya i
    let t ← (if pc.params.quadWeight ≥ 41 then pure (Word.mulConst S yi 6)
      else pbsF1 S pc yi 6 : P (Word S.C))
    let t := Word.add S t (Word.mulConst S xi 2)
    let t := Word.add S t s
    pbsMax S pc t)

/-- `ParmArithmetics::max`, `/repo/src/arithmetics.rs:380-398` -/
def ctMax (pc : Cloud) (x y : Ctxt S.C) : P (Ctxt S.C) := (maxImpl S pc x y).call

/-- `ParmArithmetics::relu`, `/repo/src/arithmetics.rs:400-417` -/
def ctRelu (pc : Cloud) (x : Ctxt S.C) : P (Ctxt S.C) := (maxImpl S pc (ctZero S.C) x).call

/-- `round_at_impl`, `/repo/src/cloudovo/rounding.rs:14-69` -/
def roundAtImpl (pc : Cloud) (x : Ctxt S.C) (pos : Nat) : P (Ctxt S.C) :=
  if pos = 0 then pure x
  else if pos ≥ x.length + 1 then pure (ctZero S.C)
  else do
    -- rounding.rs:47
    let s ← ctSgn S pc (x.take (pos - 1))
    -- rounding.rs:49-51
    let xp ← idx x (pos - 1)
    let yys := Word.mulConst S xp 2
    let yys ← (if s.length > 0 then do
        let s0 ← idx s 0
        pure (Word.add S yys s0)
      else pure yys : P (Word S.C))
    -- rounding.rs:54-55
    let rw ← pbsRound S pc yys
    let r := trivCt S.C pc pos ++ [rw]
    -- rounding.rs:62
    let slx := ctShift pc (x.drop pos) pos
    -- rounding.rs:66
    ctAdd S pc slx r

/-- `ParmArithmetics::round_at`, `/repo/src/arithmetics.rs:457-475` -/
def ctRoundAt (pc : Cloud) (x : Ctxt S.C) (pos : Nat) : P (Ctxt S.C) := (roundAtImpl S pc x pos).call

end

/-! ### from `Verif/Model/Multiplication.lean` -/

section

variable (S : Scheme)

/-- `mul_lwe`, `/repo/src/cloudovo/multiplication.rs:289-319` -/
def mulLwe (pc : Cloud) (x y : Word S.C) : P (Word S.C) :=
  if x.isTriv then do
    let mx ← decryptMi (S := S) none x
    pure (Word.mulConst S y mx)
  else if y.isTriv then do
    let my ← decryptMi (S := S) none y
    pure (Word.mulConst S x my)
  else
    pbsMulBit S pc (Word.add S (Word.mulConst S x 3) y)

/-- `fill_mulary`, `/repo/src/cloudovo/multiplication.rs:247-285` -/
def fillMulary (pc : Cloud) (x y : Ctxt S.C) : P (List (Ctxt S.C)) :=
  if x.length ≠ y.length then P.panic .assertion
  else
    let len := x.length
    let mulary := List.replicate len (trivCt S.C pc (2 * len))
    parFor mulary (fun j xyj => do
      let yj ← idx y j
      -- `x_yj[j..j+len].par_iter_mut().zip(x.par_iter())`
      let mid ← parFor ((xyj.drop j).take len) (fun i _ => do
        let xi ← idx x i
        (mulLwe S pc xi yj).expect)
      pure (xyj.take j ++ mid ++ xyj.drop (j + len)))

/-- loop of `reduce_mulsquary`, `/repo/src/cloudovo/multiplication.rs:331-334`.
`cur = intmd[idx]`, `other = intmd[idx ^ 1]`; the iteration flips `idx`, so the sum is
written to the other slot, which then becomes current. -/
def reduceLoop (pc : Cloud) : List (Ctxt S.C) → (cur other : Ctxt S.C) → P (Ctxt S.C)
  | [], cur, _ => pure cur
  | row :: rows, cur, _ => do
    let new ← ctAdd S pc cur row
    reduceLoop pc rows new cur

/-- `reduce_mulsquary`, `/repo/src/cloudovo/multiplication.rs:322-337` -/
def reduceMulsquary (pc : Cloud) (mulary : List (Ctxt S.C)) : P (Ctxt S.C) := do
  let m0 ← idx mulary 0
  let m1 ← idx mulary 1
  let s ← ctAdd S pc m0 m1
  reduceLoop S pc (mulary.drop 2) s (emptyCt S.C)

/-- `mul_schoolbook`, `/repo/src/cloudovo/multiplication.rs:209-226` -/
def mulSchoolbook (pc : Cloud) (x y : Ctxt S.C) : P (Ctxt S.C) := do
  let mulary ← fillMulary S pc x y
  reduceMulsquary S pc mulary

/-- `mul_1word`, `/repo/src/cloudovo/multiplication.rs:229-244` -/
def mul1word (pc : Cloud) (x y : Ctxt S.C) : P (Ctxt S.C) := do
  let mulary ← fillMulary S pc x y
  idx mulary 0

/-- `mul_karatsuba`, `/repo/src/cloudovo/multiplication.rs:89-206`; `mulRec` is
`ParmArithmetics::mul`. -/
def mulKaratsuba (pc : Cloud) (mulRec : Ctxt S.C → Ctxt S.C → P (Ctxt S.C)) (x y : Ctxt S.C) :
    P (Ctxt S.C) :=
  if x.length ≠ y.length then P.panic .assertion
  else do
    let len0 := (x.length + 1) / 2
    let x0 := x.take len0
    let x1 := x.drop len0
    let y0 := y.take len0
    let y1 := y.drop len0
    -- multiplication.rs:140-180
    let ((a, b, naNb), c) ← par2
      (do
        let (a, b) ← par2 (mulRec x1 y1) (mulRec x0 y0)
        let paPb ← ctAdd S pc a b
        pure (a, b, trivCt S.C pc len0 ++ paPb.map (Word.opp S)))
      (do
        let (x01, y01) ← par2 (ctAdd S pc x0 x1) (ctAdd S pc y0 y1)
        let cPlain ← mulRec x01 y01
        pure (trivCt S.C pc len0 ++ cPlain))
    -- multiplication.rs:187
    let cNanb ← ctAdd S pc c naNb
    -- multiplication.rs:190-201
    if b.length = 2 * len0 then
      ctAdd S pc (b ++ a) cNanb
    else do
      let bCnanb ← ctAdd S pc b cNanb
      ctAdd S pc (ctShift pc a (2 * len0)) bCnanb

/-- `mul_impl`, `/repo/src/cloudovo/multiplication.rs:30-86`; recursion through
`mul_karatsuba` on `fuel`. -/
def mulImpl (pc : Cloud) : Nat → Ctxt S.C → Ctxt S.C → P (Ctxt S.C)
  | fuel, x, y =>
    let (xi, yi) := mulAlign S pc x y
    let l := xi.length
    if l = 0 then pure (ctZero S.C)
    else if l = 1 then mul1word S pc xi yi
    else if l < 16 ∨ l = 17 then mulSchoolbook S pc xi yi
    else if l ≤ 32 then match fuel with
      | 0 => P.panic .fuel
      | fuel + 1 => mulKaratsuba S pc (fun a b => (mulImpl pc fuel a b).call) xi yi
    else P.err .mulTooLong

/-- `ParmArithmetics::mul`, `/repo/src/arithmetics.rs:419-437` -/
def ctMul (pc : Cloud) (x y : Ctxt S.C) : P (Ctxt S.C) := (mulImpl S pc mulFuel x y).call

/-- `squ_1word`, `/repo/src/cloudovo/squaring.rs:118-132` -/
def squ1word (pc : Cloud) (x : Ctxt S.C) : P (Ctxt S.C) := do
  let x0 ← idx x 0
  let sq ← pbsA1 S pc x0
  pure (singleCt sq)

/-- `squ_2_3word`, `/repo/src/cloudovo/squaring.rs:135-187` -/
def squ23word (pc : Cloud) (x : Ctxt S.C) : P (Ctxt S.C) :=
  if ¬ (x.length = 2 ∨ x.length = 3) then P.panic .assertion
  else do
    -- squaring.rs:152-161
    let xVal ← (if x.length = 2 then do
        let x1 ← idx x 1
        let x0 ← idx x 0
        pure (Word.add S (Word.mulConst S x1 2) x0)
      else do
        let x2 ← idx x 2
        let x1 ← idx x 1
        let x0 ← idx x 0
        pure (Word.add S (Word.mulConst S (Word.add S (Word.mulConst S x2 2) x1) 2) x0) : P (Word S.C))
    -- squaring.rs:173-175
    let resPbs ← parFor (trivCt S.C pc (2 * x.length - 1)) (fun i _ =>
      pbsSqu3 S pc xVal (if i < 1 then i else i + 1))
    -- squaring.rs:180-184
    let r0 ← idx resPbs 0
    pure (r0 :: encryptWordTriv S.C pc 0 :: resPbs.drop 1)

/-- `squ_dnq`, `/repo/src/cloudovo/squaring.rs:45-115`; `squRec` is `ParmArithmetics::squ`. -/
def squDnq (pc : Cloud) (squRec : Ctxt S.C → P (Ctxt S.C)) (x : Ctxt S.C) : P (Ctxt S.C) := do
  let len0 := (x.length + 1) / 2
  let x0 := x.take len0
  let x1 := x.drop len0
  -- squaring.rs:81-95
  let (a, b, c) ← par3 (squRec x1) (squRec x0)
    (do
      let cPlain ← ctMul S pc x0 x1
      pure (ctShift pc cPlain (len0 + 1)))
  -- squaring.rs:100-110
  if b.length = 2 * len0 then
    ctAdd S pc (b ++ a) c
  else do
    let bC ← ctAdd S pc b c
    ctAdd S pc (ctShift pc a (2 * len0)) bC

/-- `squ_impl`, `/repo/src/cloudovo/squaring.rs:30-42`; recursion through `squ_dnq` on
`fuel`. -/
def squImpl (pc : Cloud) : Nat → Ctxt S.C → P (Ctxt S.C)
  | fuel, x =>
    if x.length = 0 then pure (ctZero S.C)
    else if x.length = 1 then squ1word S pc x
    else if x.length ≤ 3 then squ23word S pc x
    else if x.length ≤ 32 then match fuel with
      | 0 => P.panic .fuel
      | fuel + 1 => squDnq S pc (fun a => (squImpl pc fuel a).call) x
    else P.err .squTooLong

/-- `ParmArithmetics::squ`, `/repo/src/arithmetics.rs:439-455` -/
def ctSqu (pc : Cloud) (x : Ctxt S.C) : P (Ctxt S.C) := (squImpl S pc mulFuel x).call

end

/-! ### from `Verif/Model/Encryption.lean` -/

section

/-- loop of `convert_from_vec`, `/repo/src/userovo/encryption.rs:112-119`, from index `i` -/
def convertFromVecLoop (build : Build) : Nat → Int → List Int → P Int
  | _, m, [] => pure m
  | i, m, mi :: rest => do
    let sh ← shAmt64 build i
    let p : Int := wrapI64 (2 ^ sh)
    let t ← (if mi = 1 then pure p
      else if mi = 0 then pure 0
      else if mi = -1 then i64Op build (-p)
      else P.err .decAlphabet : P Int)
    let m ← i64Op build (m + t)
    convertFromVecLoop build (i + 1) m rest

/-- `convert_from_vec`, `/repo/src/userovo/encryption.rs:109-121` -/
def convertFromVec (build : Build) (mv : List Int) : P Int :=
  if mv.length > parmCtMaxlen then P.err .ctTooLong
  else convertFromVecLoop build 0 0 mv

end

/-! ### from `Verif/Model/Naf.lean` -/

section

/-- `(k >> i) & 1` on `u32`; a shift amount `≥ 32` panics in debug builds and is reduced
modulo 32 in release builds. -/
def u32Bit (b : Build) (k i : Nat) : P Int :=
  if i < 32 then pure ((k / 2 ^ i % 2 : Nat) : Int)
  else match b with
    | .debug => P.panic .overflow
    | .release => pure ((k / 2 ^ (i % 32) % 2 : Nat) : Int)

/-- `(((k >> i) & 1) - 1) as i32` on `u32`: underflows when the bit is 0 (`naf.rs:134,154`) -/
def u32BitPred (b : Build) (k i : Nat) : P Int := do
  let t ← u32Bit b k i
  let u ← u32Op b (t - 1)
  pure (wrapI32 u)

/-- `while j < bound { k_vec[j] = f(j); j += 1; }`; returns the vector (`j` ends at
`max j bound`). `n = bound - j` iterations. -/
def fillWhile (f : Nat → P Int) : (n j : Nat) → List Int → P (List Int)
  | 0, _, v => pure v
  | n + 1, j, v => do
    let t ← f j
    let v ← setIdx v j t
    fillWhile f n (j + 1) v

/-- body of the main loop of `koyama_tsuruoka_vec`, `naf.rs:118-142` -/
def ktStep (b : Build) (k : Nat) (s : KtSt) : P KtSt := do
  -- naf.rs:118-119
  let bit ← u32Bit b k s.x
  let y := if bit = 1 then s.y + 1 else s.y - 1
  let x := s.x + 1
  if s.m = 0 then
    if y ≥ s.z + 3 then do
      -- naf.rs:122-127
      let vec ← fillWhile (u32Bit b k) (s.w - s.j) s.j s.vec
      let j := max s.j s.w
      let vec ← setIdx vec j (-1)
      pure { s with vec := vec, j := j + 1, x := x, y := y, v := y, u := x, m := 1 }
    else if y < s.z then
      pure { s with x := x, y := y, z := y, w := x }
    else
      pure { s with x := x, y := y }
  else
    if s.v ≥ y + 3 then do
      -- naf.rs:133-138
      let vec ← fillWhile (u32BitPred b k) (s.u - s.j) s.j s.vec
      let j := max s.j s.u
      let vec ← setIdx vec j 1
      pure { s with vec := vec, j := j + 1, x := x, y := y, z := y, w := x, m := 0 }
    else if y > s.v then
      pure { s with x := x, y := y, v := y, u := x }
    else
      pure { s with x := x, y := y }

/-- main loop, `naf.rs:117-143`: `n = (k_len - 1) - x` iterations -/
def ktLoop (b : Build) (k : Nat) : Nat → KtSt → P KtSt
  | 0, s => pure s
  | n + 1, s => do
    let s ← ktStep b k s
    ktLoop b k n s

/-- final part of `koyama_tsuruoka_vec`, `naf.rs:145-166` -/
def ktFinish (b : Build) (k : Nat) (s : KtSt) : P (List Int) := do
  if s.m = 0 ∨ (s.m = 1 ∧ s.v ≤ s.y) then do
    -- naf.rs:146-151
    let vec ← fillWhile (fun i => do
        let t ← u32Bit b k i
        pure (t - s.m)) (s.x - s.j) s.j s.vec
    let j := max s.j s.x
    let vec ← setIdx vec j (1 - s.m)
    setIdx vec (j + 1) s.m
  else do
    -- naf.rs:153-165
    let vec ← fillWhile (u32BitPred b k) (s.u - s.j) s.j s.vec
    let j := max s.j s.u
    let vec ← setIdx vec j 1
    let j := j + 1
    let vec ← fillWhile (u32Bit b k) (s.x - j) j vec
    let j := max j s.x
    let vec ← setIdx vec j 1
    setIdx vec (j + 1) 0

/-- `koyama_tsuruoka_vec`, `/repo/src/cloudovo/scalar_multiplication/naf.rs:95-175` -/
def koyamaTsuruokaVec (b : Build) (k : Nat) : P (List Int) :=
  if k = 0 then pure [0]
  else if k = 1 then pure [1]
  else do
    let kLen := bitLen32 (BitVec.ofNat 32 k)
    let s ← ktLoop b k (kLen - 1)
      { vec := List.replicate (kLen + 1) 0, j := 0, m := 0, x := 0, y := 0, z := 0,
        u := 0, v := 0, w := 0 }
    let vec ← ktFinish b k s
    -- naf.rs:172
    pure (if vec.getLast? = some 0 then vec.dropLast else vec)

/-- loop of `wind_shifts`, `/repo/src/cloudovo/scalar_multiplication/naf.rs:15-29`, on
`fuel` (every iteration advances `sh` by `bitlen`). -/
def windShiftsLoop (b : Build) (kVec : List Int) (bitlen : Nat) : Nat → Nat → P (List (Int × Nat))
  | 0, _ => P.panic .fuel
  | fuel + 1, sh => do
    -- naf.rs:17
    let sh := skipZeros kVec sh
    -- naf.rs:20; `k_vec[sh..=hi]` panics when `sh > hi + 1` or `hi >= len`
    let hi := if sh + bitlen - 1 ≥ kVec.length then kVec.length - 1 else sh + bitlen - 1
    if sh > hi + 1 ∨ hi ≥ kVec.length then P.panic .index
    else do
      let w := (kVec.drop sh).take (hi + 1 - sh)
      -- naf.rs:21-22
      let wi ← (convertFromVec b w).expect
      let wi := wrapI32 wi
      -- naf.rs:25
      let sh' := sh + bitlen
      -- naf.rs:28
      if sh' ≥ kVec.length then pure [(wi, sh)]
      else do
        let rest ← windShiftsLoop b kVec bitlen fuel sh'
        pure ((wi, sh) :: rest)

/-- `wind_shifts`, `/repo/src/cloudovo/scalar_multiplication/naf.rs:3-32` (`bitlen ≥ 1`) -/
def windShifts (b : Build) (k : Nat) (bitlen : Nat) : P (List (Int × Nat)) := do
  let kVec ← koyamaTsuruokaVec b k
  windShiftsLoop b kVec bitlen (kVec.length + 1) 0

end

/-! ### from `Verif/Model/Arith.lean` -/

section

/-- Trait `ParmArithmetics`, `/repo/src/arithmetics.rs:15-120` (with `pc` already applied) -/
structure Arith (T : Type) where
  zero : T
  opp : T → P T
  shift : T → Nat → P T
  add : T → T → P T
  sub : T → T → P T
  addNoisy : T → T → P T
  subNoisy : T → T → P T
  addConst : T → Int → P T
  scalarMul : Int → T → P T
  sgn : T → P T
  max : T → T → P T
  relu : T → P T
  mul : T → T → P T
  squ : T → P T
  roundAt : T → Nat → P T

end

/-! ### from `Verif/Model/ScalarMul.lean` -/

section

/-- one element of the loop of `Asc::eval`, `asc.rs:48-63` -/
def ascStep {T : Type} (A : Arith T) (vals : List T) (e : AddShift) : P (List T) := do
  let l ← idx vals e.lIdx
  let negL ← A.opp l
  let r ← idx vals e.rIdx
  let rSh ← A.shift r e.rShift
  let negRSh ← A.opp rSh
  let v ← A.add (if e.lPos then l else negL) (if e.rPos then rSh else negRSh)
  pure (vals ++ [v])

/-- loop of `Asc::eval` -/
def ascLoop {T : Type} (A : Arith T) : Asc → List T → P (List T)
  | [], vals => pure vals
  | e :: es, vals => do
    let vals ← ascStep A vals e
    ascLoop A es vals

/-- `Asc::eval`, `/repo/src/cloudovo/scalar_multiplication/asc.rs:39-66` -/
def ascEval {T : Type} (A : Arith T) (chain : Asc) (x : T) : P T := do
  let vals ← ascLoop A chain [x]
  match vals.getLast? with
  | some v => pure v
  | none => P.panic .unwrapNone

variable (S : Scheme)

/-- The part of `ParmArithmetics for ParmCiphertext` that `Asc::eval` uses
(`/repo/src/arithmetics.rs:219-254`); the remaining fields are filled in `arithCt`. -/
def ascArith (pc : Cloud) : Arith (Ctxt S.C) where
  zero := ctZero S.C
  opp x := pure (ctOpp S x)
  shift x k := pure (ctShift pc x k)
  add x y := ctAdd S pc x y
  sub x y := ctSub S pc x y
  addNoisy x y := ctAddNoisy S pc x y
  subNoisy x y := ctSubNoisy S pc x y
  addConst x k := ctAddConst S pc x k
  scalarMul _ _ := P.panic .unwrapNone
  sgn x := ctSgn S pc x
  max x y := ctMax S pc x y
  relu x := ctRelu S pc x
  mul x y := ctMul S pc x y
  squ x := ctSqu S pc x
  roundAt x p := ctRoundAt S pc x p

/-- `map[&k]`: panics when the key is missing -/
def mapIdx {V : Type} (m : List (Nat × V)) (k : Nat) : P V :=
  match mapGet? m k with
  | some v => pure v
  | none => P.panic .index

/-- `scalar_mul_impl`, `/repo/src/cloudovo/scalar_multiplication/mod.rs:24-135` -/
def scalarMulImpl (pc : Cloud) (k : Int) (x : Ctxt S.C) : P (Ctxt S.C) := do
  -- mod.rs:31-41 (`x_neg` is not used afterwards)
  let xPos := if k ≥ 0 then x else x.map (Word.opp S)
  -- mod.rs:43: `k.abs() as u32`
  let kAbsI ← i32Op pc.build (k.natAbs : Int)
  let kAbs : Nat := (wrapU32 kAbsI).toNat
  -- mod.rs:46-47
  if kAbs = 0 then pure (emptyCt S.C)
  else if kAbs = 1 then pure xPos
  else do
    -- mod.rs:53
    let ws ← windShifts pc.build kAbs ascBitlen
    -- mod.rs:57-64
    let map0 := initKeys (emptyCt S.C) ws []
    -- mod.rs:74-78
    let map ← parFor map0 (fun _ kv => do
      let chain ← mapIdx pc.asc kv.1
      let v ← (ascEval (ascArith S pc) chain xPos).expect
      pure (kv.1, v))
    -- mod.rs:81-90
    let mulary ← seqFor (List.replicate ws.length (emptyCt S.C)) (fun i _ => do
      let wsi ← idx ws i
      let v ← mapIdx map (absU32 wsi.1)
      if wsi.1 < 0 then pure (ctShift pc (ctOpp S v) wsi.2)
      else pure (ctShift pc v wsi.2))
    -- mod.rs:110-112
    if mulary.length = 1 then idx mulary 0
    else
      -- mod.rs:118-134 (same code as `reduce_mulsquary`)
      reduceMulsquary S pc mulary

/-- `ParmArithmetics::scalar_mul`, `/repo/src/arithmetics.rs:342-360` -/
def ctScalarMul (pc : Cloud) (k : Int) (x : Ctxt S.C) : P (Ctxt S.C) := (scalarMulImpl S pc k x).call

/-- `impl ParmArithmetics for ParmCiphertext`, `/repo/src/arithmetics.rs:214-476` -/
def arithCt (pc : Cloud) : Arith (Ctxt S.C) :=
  { ascArith S pc with scalarMul := fun k x => ctScalarMul S pc k x }

end

/-! ### from `Verif/Model/NN.lean` -/

section

variable {T : Type} (A : Arith T)

/-- loop of `affine_pool`, `neural_network.rs:172-180` -/
def affineLoop : List Int → List T → T → P T
  | wi :: ws, ai :: as, res => do
    let scm ← A.scalarMul wi ai
    let agg ← A.add res scm
    affineLoop ws as agg
  | _, _, res => pure res

/-- `affine_pool`, `/repo/src/cloudovo/neural_network.rs:157-186` -/
def affinePool (w : List Int) (a : List T) (b : Int) : P T := do
  let res ← affineLoop A w a A.zero
  A.addConst res b

/-- weights of `max_pool`, `neural_network.rs:199-201` -/
def applyWeights : List Int → List T → P (List T)
  | wi :: ws, ai :: as => do
    let v ← A.scalarMul wi ai
    let vs ← applyWeights ws as
    pure (v :: vs)
  | _, _ => pure []

/-- one halving round of `max_pool_recursion`, `neural_network.rs:222-229` -/
def maxChunks : List T → P (List T)
  | a :: b :: rest => do
    let m ← A.max a b
    let ms ← maxChunks rest
    pure (m :: ms)
  | [a] => pure [a]
  | [] => pure []

/-- `max_pool_recursion`, `/repo/src/cloudovo/neural_network.rs:210-232`, on `fuel` -/
def maxPoolRecursion : Nat → List T → P T
  | _, [] => pure A.zero
  | _, [a] => pure a
  | 0, _ => P.panic .fuel
  | fuel + 1, a => do
    let h ← maxChunks A a
    maxPoolRecursion fuel h

/-- `max_pool`, `/repo/src/cloudovo/neural_network.rs:188-208` -/
def maxPool (w : List Int) (a : List T) (b : Int) : P T := do
  let wa ← applyWeights A w a
  let res ← maxPoolRecursion A wa.length wa
  A.addConst res b

/-- one perceptron, `neural_network.rs:136-151`; `act_fn` is ReLU (`:234-240`) -/
def evalPerc (p : Perceptron) (input : List T) : P T :=
  match p.t with
  | .MAX => maxPool A p.w input p.b
  | .LIN => affinePool A p.w input p.b
  | .ACT => do
    let aff ← affinePool A p.w input p.b
    A.relu aff

/-- `eval_layer`, `/repo/src/cloudovo/neural_network.rs:120-155` -/
def evalLayer : List Perceptron → List T → P (List T)
  | [], _ => pure []
  | p :: ps, input => do
    let o ← evalPerc A p input
    let os ← evalLayer ps input
    pure (o :: os)

/-- loop of `eval`, `neural_network.rs:103-112`: state `(il, ol)` -/
def evalLayers : List (List Perceptron) → (il ol : List T) → P (List T)
  | [], _, ol => pure ol
  | l :: ls, il, _ => do
    let ol ← evalLayer A l il
    evalLayers ls ol ol

/-- `NeuralNetwork::eval`, `/repo/src/cloudovo/neural_network.rs:91-117` -/
def NeuralNetwork.eval (nn : NeuralNetwork) (inputs : List T) : P (List T) :=
  evalLayers A nn.layers inputs []

end

/-! ### from `Verif/Spec.lean` -/

section

/-- the call made by an instruction -/
def Instr.run {T : Type} (A : Arith T) (r : List T) : Instr → P T
  | .zero => pure A.zero
  | .opp i => do let x ← idx r i; A.opp x
  | .shift i k => do let x ← idx r i; A.shift x k
  | .add i j => do let x ← idx r i; let y ← idx r j; A.add x y
  | .sub i j => do let x ← idx r i; let y ← idx r j; A.sub x y
  | .addConst i k => do let x ← idx r i; A.addConst x k
  | .scalarMul k i => do let x ← idx r i; A.scalarMul k x
  | .sgn i => do let x ← idx r i; A.sgn x
  | .max i j => do let x ← idx r i; let y ← idx r j; A.max x y
  | .relu i => do let x ← idx r i; A.relu x
  | .mul i j => do let x ← idx r i; let y ← idx r j; A.mul x y
  | .squ i => do let x ← idx r i; A.squ x
  | .roundAt i p => do let x ← idx r i; A.roundAt x p

/-- running a program: every result is appended to the registers -/
def runProg {T : Type} (A : Arith T) : List Instr → List T → P (List T)
  | [], r => pure r
  | i :: is, r => do
    let z ← Instr.run A r i
    runProg A is (r ++ [z])

end

end Parm.Fine
