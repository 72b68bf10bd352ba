import Verif.Model.Ciphertext

/-!
# Model of `/repo/src/cloudovo/pbs.rs` (the live, non-commented part)

`f64` values: every `f64` the live code handles is a (possibly rounded) `u64` or
`±0.5`, hence a multiple of `1/2`; an `f64` is represented by twice its value, an `Int`.
Arithmetic on these values in the code (`2.0*fm`, `fm-0.5`, `f*delta` with `delta` a power
of two) is exact in `f64`, for LUT entries below `2^52`.
-/

namespace Parm

/-- `gen_no_padding_acc`, `/repo/src/cloudovo/pbs.rs:94-152`: body of the accumulator.
`f i` is twice the `f64` value at `i`.  The mask is zero and `degree` is metadata not
used by this crate; both are dropped. -/
def genNoPaddingAcc (pc : Cloud) (f : Nat → Int) : List (BitVec 64) :=
  -- pbs.rs:111
  let modulusSup := pc.msgMod * pc.carryMod / 2
  -- pbs.rs:114
  let boxSize := pc.polySize / modulusSup
  -- pbs.rs:118-119
  let d : Int := (2 ^ 63 / (pc.msgMod * pc.carryMod) * 2 : Nat)
  -- pbs.rs:127-136
  let body := (List.range modulusSup).flatMap
      (fun i => List.replicate boxSize (satU64 (f i * d / 2)))
    ++ List.replicate (pc.polySize - modulusSup * boxSize) 0
  -- pbs.rs:138-143
  let half := boxSize / 2
  let body := (body.take half).map (fun a => -a) ++ body.drop half
  -- pbs.rs:146
  body.drop half ++ body.take half

/-- `eval_LUT_5_float`, `/repo/src/cloudovo/pbs.rs:55-91`; `lut` holds twice the `f64`
entries. -/
def evalLut5Float (S : Scheme) (pc : Cloud) (c : Word S.C) (lut : List Int) : M (Word S.C) :=
  match c.ct with
  | .ct ctb => do
    M.bumpPbs
    -- `lut[x as usize]` is evaluated for every `x < modulus_sup` (pbs.rs:65,127-132)
    if pc.msgMod * pc.carryMod / 2 > lut.length then M.panic .index
    else
      let acc := genNoPaddingAcc pc (fun x => lut.getD x 0)
      pure { ct := .ct (S.pbs acc ctb), msgMod := pc.msgMod }
  | .triv pt => do
    let m := ptToMu c.msgMod pt
    let fm ← (if m < 16 then idx lut m
      else if m < 32 then do
        let v ← idx lut (m - 16)
        pure (-v)
      else M.panic .lutRange : M Int)
    -- pbs.rs:78
    let fmHalf := satI32 fm % 2 = 1
    -- pbs.rs:80
    let fmU := satI32 ((if fmHalf then fm - 1 else fm).tdiv 2) % 32
    if fmHalf then
      pure (Word.addHalf S (encryptWordTriv S.C pc fmU))
    else
      pure (encryptWordTriv S.C pc fmU)

/-- `eval_LUT_5_uint`, `/repo/src/cloudovo/pbs.rs:37-52` -/
def evalLut5Uint (S : Scheme) (pc : Cloud) (c : Word S.C) (lut : List Nat) : M (Word S.C) :=
  evalLut5Float S pc c (lut.map fun (v : Nat) => 2 * (u64ToF64 v : Int))

/-- LUT of `id__pi_5`, `/repo/src/cloudovo/pbs.rs:171` -/
def lutId : List Nat := [0,1,2,3,4,5,6,7,8,7,6,5,4,3,2,1]
/-- LUT of `f_3__pi_5`, `/repo/src/cloudovo/pbs.rs:186` -/
def lutF3 : List Nat := [0,0,0,1,1,1,1,1,1,1,1,1,1,1,0,0]
/-- LUT of `f_4__pi_5`, `/repo/src/cloudovo/pbs.rs:201` -/
def lutF4 : List Nat := [0,0,0,0,1,1,1,1,1,1,1,1,1,0,0,0]
/-- LUT of `f_5__pi_5`, `/repo/src/cloudovo/pbs.rs:216` -/
def lutF5 : List Nat := [0,0,0,0,0,1,1,1,1,1,1,1,0,0,0,0]
/-- LUT of `g_2__pi_5__with_val`, `/repo/src/cloudovo/pbs.rs:232` -/
def lutG2 (val : Nat) : List Nat := [0,0,val,0,0,0,0,0,0,0,0,0,0,0,val,0]
/-- LUT of `f_1__pi_5__with_val`, `/repo/src/cloudovo/pbs.rs:248` -/
def lutF1 (val : Nat) : List Nat :=
  [0,val,val,val,val,val,val,val,val,val,val,val,val,val,val,val]
/-- LUT of `f_0__pi_5__with_val`, `/repo/src/cloudovo/pbs.rs:264` -/
def lutF0 (val : Nat) : List Nat :=
  [val,val,val,val,val,val,val,val,val,val,val,val,val,val,val,val]
/-- LUT of `a_2__pi_5`, `/repo/src/cloudovo/pbs.rs:279` -/
def lutA2 : List Nat := [0,0,1,1,1,1,1,1,31,31,31,31,31,31,31,0]
/-- LUT of `a_1__pi_5`, `/repo/src/cloudovo/pbs.rs:294` -/
def lutA1 : List Nat := [0,1,1,1,1,1,1,1,31,31,31,31,31,31,31,31]
/-- LUTs of `squ_3_bit__pi_5`, `/repo/src/cloudovo/pbs.rs:311` -/
def lutSqu0 : List Nat := [0, 1,0,1,0,1,0,1, 0, 31,0,31,0,31,0,31]
/-- `/repo/src/cloudovo/pbs.rs:317` -/
def lutSqu2 : List Nat := [0, 0,1,0,0,0,1,0, 0, 0,31,0,0,0,31,0]
/-- `/repo/src/cloudovo/pbs.rs:322` -/
def lutSqu3 : List Nat := [0, 0,0,1,0,1,0,0, 0, 0,0,31,0,31,0,0]
/-- `/repo/src/cloudovo/pbs.rs:327` -/
def lutSqu4 : List Nat := [0, 0,0,0,1,1,0,1, 0, 31,0,31,31,0,0,0]
/-- `/repo/src/cloudovo/pbs.rs:332` -/
def lutSqu5 : List Nat := [0, 0,0,0,0,0,1,1, 0, 31,31,0,0,0,0,0]
/-- LUT of `mul_bit__pi_5`, `/repo/src/cloudovo/pbs.rs:356` -/
def lutMulBit : List Nat := [0,0,31,0,1,0,0,0,0,0,0,0,31,0,1,0]
/-- LUT of `relu_plus__pi_5`, `/repo/src/cloudovo/pbs.rs:374` -/
def lutReluPlus : List Nat := [0,31,0,1,0,0,0,0,0,0,0,0,0,0,0,0]
/-- LUT of `round_2y_s__pi_5`, `/repo/src/cloudovo/pbs.rs:393` -/
def lutRound : List Nat := [0,0,1,1,1,1,1,1,1,1,1,1,1,1,0,0]
/-- LUT of `max_s_2x_6y__pi_5`, `/repo/src/cloudovo/pbs.rs:429` -/
def lutMax : List Nat := [0,0,0,1,1,31,1,0,1,1,1,0,1,31,0,1]

section
variable (S : Scheme) (pc : Cloud) (c : Word S.C)

/-- `id__pi_5`, `/repo/src/cloudovo/pbs.rs:164-173` -/
def pbsId : M (Word S.C) := evalLut5Uint S pc c lutId
/-- `f_3__pi_5`, `/repo/src/cloudovo/pbs.rs:179-188` -/
def pbsF3 : M (Word S.C) := evalLut5Uint S pc c lutF3
/-- `f_4__pi_5`, `/repo/src/cloudovo/pbs.rs:194-203` -/
def pbsF4 : M (Word S.C) := evalLut5Uint S pc c lutF4
/-- `f_5__pi_5`, `/repo/src/cloudovo/pbs.rs:209-218` -/
def pbsF5 : M (Word S.C) := evalLut5Uint S pc c lutF5
/-- `g_2__pi_5__with_val`, `/repo/src/cloudovo/pbs.rs:224-234` -/
def pbsG2 (val : Nat) : M (Word S.C) := evalLut5Uint S pc c (lutG2 val)
/-- `f_1__pi_5__with_val`, `/repo/src/cloudovo/pbs.rs:240-250` -/
def pbsF1 (val : Nat) : M (Word S.C) := evalLut5Uint S pc c (lutF1 val)
/-- `f_0__pi_5__with_val`, `/repo/src/cloudovo/pbs.rs:256-266` -/
def pbsF0 (val : Nat) : M (Word S.C) := evalLut5Uint S pc c (lutF0 val)
/-- `a_2__pi_5`, `/repo/src/cloudovo/pbs.rs:272-281` -/
def pbsA2 : M (Word S.C) := evalLut5Uint S pc c lutA2
/-- `a_1__pi_5`, `/repo/src/cloudovo/pbs.rs:287-296` -/
def pbsA1 : M (Word S.C) := evalLut5Uint S pc c lutA1
/-- `squ_3_bit__pi_5`, `/repo/src/cloudovo/pbs.rs:302-336` -/
def pbsSqu3 (pos : Nat) : M (Word S.C) :=
  match pos with
  | 0 => evalLut5Uint S pc c lutSqu0
  | 1 => pure (encryptWordTriv S.C pc 0)
  | 2 => evalLut5Uint S pc c lutSqu2
  | 3 => evalLut5Uint S pc c lutSqu3
  | 4 => evalLut5Uint S pc c lutSqu4
  | 5 => evalLut5Uint S pc c lutSqu5
  | _ => M.panic .squPos
/-- `mul_bit__pi_5`, `/repo/src/cloudovo/pbs.rs:349-358` -/
def pbsMulBit : M (Word S.C) := evalLut5Uint S pc c lutMulBit
/-- `relu_plus__pi_5`, `/repo/src/cloudovo/pbs.rs:367-376` -/
def pbsReluPlus : M (Word S.C) := evalLut5Uint S pc c lutReluPlus
/-- `round_2y_s__pi_5`, `/repo/src/cloudovo/pbs.rs:386-395` -/
def pbsRound : M (Word S.C) := evalLut5Uint S pc c lutRound
/-- `nonneg__pi_5`, `/repo/src/cloudovo/pbs.rs:404-415`; the LUT entry `0.5` is `1` half-unit -/
def pbsNonneg : M (Word S.C) := do
  let h ← evalLut5Float S pc c (List.replicate 16 1)
  pure (Word.addHalf S h)
/-- `max_s_2x_6y__pi_5`, `/repo/src/cloudovo/pbs.rs:421-431` -/
def pbsMax : M (Word S.C) := evalLut5Uint S pc c lutMax
end

end Parm
