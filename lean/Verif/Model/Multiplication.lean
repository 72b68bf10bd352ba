import Verif.Model.Signum

/-!
# Model of `/repo/src/cloudovo/multiplication.rs` and `/repo/src/cloudovo/squaring.rs`
-/

namespace Parm
variable (S : Scheme)

/-- `mul_lwe`, `/repo/src/cloudovo/multiplication.rs:289-319` -/
def mulLwe (pc : Cloud) (x y : Word S.C) : M (Word S.C) :=
  if x.isTriv then do
    let mx ← decryptMi (S := S) none x
    pure (Word.mulConst S y mx)
  else if y.isTriv then do
    let my ← decryptMi (S := S) none y
    pure (Word.mulConst S x my)
  else
    pbsMulBit S pc (Word.add S (Word.mulConst S x 3) y)

/-- `fill_mulary`, `/repo/src/cloudovo/multiplication.rs:247-285` -/
def fillMulary (pc : Cloud) (x y : Ctxt S.C) : M (List (Ctxt S.C)) :=
  if x.length ≠ y.length then M.panic .assertion
  else
    let len := x.length
    let mulary := List.replicate len (trivCt S.C pc (2 * len))
    parFor mulary (fun j xyj => do
      let yj ← idx y j
      -- `x_yj[j..j+len].par_iter_mut().zip(x.par_iter())`
      let mid ← parFor ((xyj.drop j).take len) (fun i _ => do
        let xi ← idx x i
        (mulLwe S pc xi yj).expect)
      pure (xyj.take j ++ mid ++ xyj.drop (j + len)))

/-- loop of `reduce_mulsquary`, `/repo/src/cloudovo/multiplication.rs:331-334`.
`cur = intmd[idx]`, `other = intmd[idx ^ 1]`; the iteration flips `idx`, so the sum is
written to the other slot, which then becomes current. -/
def reduceLoop (pc : Cloud) : List (Ctxt S.C) → (cur other : Ctxt S.C) → M (Ctxt S.C)
  | [], cur, _ => pure cur
  | row :: rows, cur, _ => do
    let new ← ctAdd S pc cur row
    reduceLoop pc rows new cur

/-- `reduce_mulsquary`, `/repo/src/cloudovo/multiplication.rs:322-337` -/
def reduceMulsquary (pc : Cloud) (mulary : List (Ctxt S.C)) : M (Ctxt S.C) := do
  let m0 ← idx mulary 0
  let m1 ← idx mulary 1
  let s ← ctAdd S pc m0 m1
  reduceLoop S pc (mulary.drop 2) s (emptyCt S.C)

/-- `mul_schoolbook`, `/repo/src/cloudovo/multiplication.rs:209-226` -/
def mulSchoolbook (pc : Cloud) (x y : Ctxt S.C) : M (Ctxt S.C) := do
  let mulary ← fillMulary S pc x y
  reduceMulsquary S pc mulary

/-- `mul_1word`, `/repo/src/cloudovo/multiplication.rs:229-244` -/
def mul1word (pc : Cloud) (x y : Ctxt S.C) : M (Ctxt S.C) := do
  let mulary ← fillMulary S pc x y
  idx mulary 0

/-- `mul_karatsuba`, `/repo/src/cloudovo/multiplication.rs:89-206`; `mulRec` is
`ParmArithmetics::mul`. -/
def mulKaratsuba (pc : Cloud) (mulRec : Ctxt S.C → Ctxt S.C → M (Ctxt S.C)) (x y : Ctxt S.C) :
    M (Ctxt S.C) :=
  if x.length ≠ y.length then M.panic .assertion
  else do
    let len0 := (x.length + 1) / 2
    let x0 := x.take len0
    let x1 := x.drop len0
    let y0 := y.take len0
    let y1 := y.drop len0
    -- multiplication.rs:140-180
    let ((a, b, naNb), c) ← par2
      (do
        let (a, b) ← par2 (mulRec x1 y1) (mulRec x0 y0)
        let paPb ← ctAdd S pc a b
        pure (a, b, trivCt S.C pc len0 ++ paPb.map (Word.opp S)))
      (do
        let (x01, y01) ← par2 (ctAdd S pc x0 x1) (ctAdd S pc y0 y1)
        let cPlain ← mulRec x01 y01
        pure (trivCt S.C pc len0 ++ cPlain))
    -- multiplication.rs:187
    let cNanb ← ctAdd S pc c naNb
    -- multiplication.rs:190-201
    if b.length = 2 * len0 then
      ctAdd S pc (b ++ a) cNanb
    else do
      let bCnanb ← ctAdd S pc b cNanb
      ctAdd S pc (ctShift pc a (2 * len0)) bCnanb

/-- alignment of the factors, `/repo/src/cloudovo/multiplication.rs:51-65` -/
def mulAlign (pc : Cloud) (x y : Ctxt S.C) : Ctxt S.C × Ctxt S.C :=
  (x ++ List.replicate (y.length - x.length) (encryptWordTriv S.C pc 0),
   y ++ List.replicate (x.length - y.length) (encryptWordTriv S.C pc 0))

/-- `mul_impl`, `/repo/src/cloudovo/multiplication.rs:30-86`; recursion through
`mul_karatsuba` on `fuel`. -/
def mulImpl (pc : Cloud) : Nat → Ctxt S.C → Ctxt S.C → M (Ctxt S.C)
  | fuel, x, y =>
    let (xi, yi) := mulAlign S pc x y
    let l := xi.length
    if l = 0 then pure (ctZero S.C)
    else if l = 1 then mul1word S pc xi yi
    else if l < 16 ∨ l = 17 then mulSchoolbook S pc xi yi
    else if l ≤ 32 then match fuel with
      | 0 => M.panic .fuel
      | fuel + 1 => mulKaratsuba S pc (fun a b => (mulImpl pc fuel a b).call) xi yi
    else M.err .mulTooLong

/-- Recursion fuel: only operands of at most 32 words recurse, on shorter ones. -/
def mulFuel : Nat := 32

/-- `ParmArithmetics::mul`, `/repo/src/arithmetics.rs:419-437` -/
def ctMul (pc : Cloud) (x y : Ctxt S.C) : M (Ctxt S.C) := (mulImpl S pc mulFuel x y).call

/-- `squ_1word`, `/repo/src/cloudovo/squaring.rs:118-132` -/
def squ1word (pc : Cloud) (x : Ctxt S.C) : M (Ctxt S.C) := do
  let x0 ← idx x 0
  let sq ← pbsA1 S pc x0
  pure (singleCt sq)

/-- `squ_2_3word`, `/repo/src/cloudovo/squaring.rs:135-187` -/
def squ23word (pc : Cloud) (x : Ctxt S.C) : M (Ctxt S.C) :=
  if ¬ (x.length = 2 ∨ x.length = 3) then M.panic .assertion
  else do
    -- squaring.rs:152-161
    let xVal ← (if x.length = 2 then do
        let x1 ← idx x 1
        let x0 ← idx x 0
        pure (Word.add S (Word.mulConst S x1 2) x0)
      else do
        let x2 ← idx x 2
        let x1 ← idx x 1
        let x0 ← idx x 0
        pure (Word.add S (Word.mulConst S (Word.add S (Word.mulConst S x2 2) x1) 2) x0) : M (Word S.C))
    -- squaring.rs:173-175
    let resPbs ← parFor (trivCt S.C pc (2 * x.length - 1)) (fun i _ =>
      pbsSqu3 S pc xVal (if i < 1 then i else i + 1))
    -- squaring.rs:180-184
    let r0 ← idx resPbs 0
    pure (r0 :: encryptWordTriv S.C pc 0 :: resPbs.drop 1)

/-- `squ_dnq`, `/repo/src/cloudovo/squaring.rs:45-115`; `squRec` is `ParmArithmetics::squ`. -/
def squDnq (pc : Cloud) (squRec : Ctxt S.C → M (Ctxt S.C)) (x : Ctxt S.C) : M (Ctxt S.C) := do
  let len0 := (x.length + 1) / 2
  let x0 := x.take len0
  let x1 := x.drop len0
  -- squaring.rs:81-95
  let (a, b, c) ← par3 (squRec x1) (squRec x0)
    (do
      let cPlain ← ctMul S pc x0 x1
      pure (ctShift pc cPlain (len0 + 1)))
  -- squaring.rs:100-110
  if b.length = 2 * len0 then
    ctAdd S pc (b ++ a) c
  else do
    let bC ← ctAdd S pc b c
    ctAdd S pc (ctShift pc a (2 * len0)) bC

/-- `squ_impl`, `/repo/src/cloudovo/squaring.rs:30-42`; recursion through `squ_dnq` on
`fuel`. -/
def squImpl (pc : Cloud) : Nat → Ctxt S.C → M (Ctxt S.C)
  | fuel, x =>
    if x.length = 0 then pure (ctZero S.C)
    else if x.length = 1 then squ1word S pc x
    else if x.length ≤ 3 then squ23word S pc x
    else if x.length ≤ 32 then match fuel with
      | 0 => M.panic .fuel
      | fuel + 1 => squDnq S pc (fun a => (squImpl pc fuel a).call) x
    else M.err .squTooLong

/-- `ParmArithmetics::squ`, `/repo/src/arithmetics.rs:439-455` -/
def ctSqu (pc : Cloud) (x : Ctxt S.C) : M (Ctxt S.C) := (squImpl S pc mulFuel x).call

end Parm
