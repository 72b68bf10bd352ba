import Verif.Model.Naf
import Verif.Model.Arith
import Verif.Model.Multiplication

/-!
# Model of `/repo/src/cloudovo/scalar_multiplication/{asc.rs,mod.rs}`
-/

namespace Parm

/-- one element of the loop of `Asc::eval`, `asc.rs:48-63` -/
def ascStep {T : Type} (A : Arith T) (vals : List T) (e : AddShift) : M (List T) := do
  let l ← idx vals e.lIdx
  let negL ← A.opp l
  let r ← idx vals e.rIdx
  let rSh ← A.shift r e.rShift
  let negRSh ← A.opp rSh
  let v ← A.add (if e.lPos then l else negL) (if e.rPos then rSh else negRSh)
  pure (vals ++ [v])

/-- loop of `Asc::eval` -/
def ascLoop {T : Type} (A : Arith T) : Asc → List T → M (List T)
  | [], vals => pure vals
  | e :: es, vals => do
    let vals ← ascStep A vals e
    ascLoop A es vals

/-- `Asc::eval`, `/repo/src/cloudovo/scalar_multiplication/asc.rs:39-66` -/
def ascEval {T : Type} (A : Arith T) (chain : Asc) (x : T) : M T := do
  let vals ← ascLoop A chain [x]
  match vals.getLast? with
  | some v => pure v
  | none => M.panic .unwrapNone

/-- `Asc::value`, `/repo/src/cloudovo/scalar_multiplication/asc.rs:84-89` -/
def ascValue (b : Build) (chain : Asc) : M Int := (ascEval (arithI64 b) chain 1).expect

/-- the number-of-elements check of `map_from_yaml`, `asc.rs:117`, applied to an already
parsed file (`none`: no such file, `asc.rs:112-114`).  Reading the text is in `Model/ChainText.lean`. -/
def ascMapFromParsed (bitlen : Nat) (file : Option (List (Nat × Asc))) : M (List (Nat × Asc)) :=
  match file with
  | none => M.err .ascMissing
  | some m => if m.length ≠ 2 ^ bitlen / 2 then M.err .ascCount else pure m

/-- `ASC_BITLEN`, `/repo/src/lib.rs:75` -/
def ascBitlen : Nat := 12

variable (S : Scheme)

/-- The part of `ParmArithmetics for ParmCiphertext` that `Asc::eval` uses
(`/repo/src/arithmetics.rs:219-254`); the remaining fields are filled in `arithCt`. -/
def ascArith (pc : Cloud) : Arith (Ctxt S.C) where
  zero := ctZero S.C
  opp x := pure (ctOpp S x)
  shift x k := pure (ctShift pc x k)
  add x y := ctAdd S pc x y
  sub x y := ctSub S pc x y
  addNoisy x y := ctAddNoisy S pc x y
  subNoisy x y := ctSubNoisy S pc x y
  addConst x k := ctAddConst S pc x k
  scalarMul _ _ := M.panic .unwrapNone
  sgn x := ctSgn S pc x
  max x y := ctMax S pc x y
  relu x := ctRelu S pc x
  mul x y := ctMul S pc x y
  squ x := ctSqu S pc x
  roundAt x p := ctRoundAt S pc x p

/-- `BTreeMap::insert` of a new key: association list kept sorted by key -/
def mapInsert {V : Type} (k : Nat) (v : V) : List (Nat × V) → List (Nat × V)
  | [] => [(k, v)]
  | (k', v') :: m => if k < k' then (k, v) :: (k', v') :: m else (k', v') :: mapInsert k v m

/-- `BTreeMap` lookup -/
def mapGet? {V : Type} (m : List (Nat × V)) (k : Nat) : Option V :=
  (m.find? fun e => e.1 == k).map (·.2)

/-- `map[&k]`: panics when the key is missing -/
def mapIdx {V : Type} (m : List (Nat × V)) (k : Nat) : M V :=
  match mapGet? m k with
  | some v => pure v
  | none => M.panic .index

/-- `wi.abs() as u32` (release semantics at `i32::MIN`, which no window reaches) -/
def absU32 (w : Int) : Nat := w.natAbs

/-- key initialisation, `/repo/src/cloudovo/scalar_multiplication/mod.rs:57-64` -/
def initKeys {V : Type} (empty : V) : List (Int × Nat) → List (Nat × V) → List (Nat × V)
  | [], m => m
  | (wi, _) :: ws, m =>
    initKeys empty ws (if (mapGet? m (absU32 wi)).isSome then m else mapInsert (absU32 wi) empty m)

/-- `scalar_mul_impl`, `/repo/src/cloudovo/scalar_multiplication/mod.rs:24-135` -/
def scalarMulImpl (pc : Cloud) (k : Int) (x : Ctxt S.C) : M (Ctxt S.C) := do
  -- mod.rs:31-41 (`x_neg` is not used afterwards)
  let xPos := if k ≥ 0 then x else x.map (Word.opp S)
  -- mod.rs:43: `k.abs() as u32`
  let kAbsI ← i32Op pc.build (k.natAbs : Int)
  let kAbs : Nat := (wrapU32 kAbsI).toNat
  -- mod.rs:46-47
  if kAbs = 0 then pure (emptyCt S.C)
  else if kAbs = 1 then pure xPos
  else do
    -- mod.rs:53
    let ws ← windShifts pc.build kAbs ascBitlen
    -- mod.rs:57-64
    let map0 := initKeys (emptyCt S.C) ws []
    -- mod.rs:74-78
    let map ← parFor map0 (fun _ kv => do
      let chain ← mapIdx pc.asc kv.1
      let v ← (ascEval (ascArith S pc) chain xPos).expect
      pure (kv.1, v))
    -- mod.rs:81-90
    let mulary ← seqFor (List.replicate ws.length (emptyCt S.C)) (fun i _ => do
      let wsi ← idx ws i
      let v ← mapIdx map (absU32 wsi.1)
      if wsi.1 < 0 then pure (ctShift pc (ctOpp S v) wsi.2)
      else pure (ctShift pc v wsi.2))
    -- mod.rs:110-112
    if mulary.length = 1 then idx mulary 0
    else
      -- mod.rs:118-134 (same code as `reduce_mulsquary`)
      reduceMulsquary S pc mulary

/-- `ParmArithmetics::scalar_mul`, `/repo/src/arithmetics.rs:342-360` -/
def ctScalarMul (pc : Cloud) (k : Int) (x : Ctxt S.C) : M (Ctxt S.C) := (scalarMulImpl S pc k x).call

/-- `impl ParmArithmetics for ParmCiphertext`, `/repo/src/arithmetics.rs:214-476` -/
def arithCt (pc : Cloud) : Arith (Ctxt S.C) :=
  { ascArith S pc with scalarMul := fun k x => ctScalarMul S pc k x }

end Parm
