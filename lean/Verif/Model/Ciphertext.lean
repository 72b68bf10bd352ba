import Verif.Model.Rust

/-!
# Model of `/repo/src/params.rs`, `/repo/src/ciphertexts.rs`

The tfhe-rs primitives the code calls on LWE ciphertexts are the fields of a
`Scheme`; everything above them is modelled function by function.
-/

namespace Parm

/-- `/repo/src/params.rs:10-16`.  `concrete_pars` (tfhe-rs' `ClassicPBSParameters`) is
reduced to the fields the crate itself reads. -/
structure Params where
  /-- `params.rs:12` -/
  bitPrecision : Nat
  /-- `params.rs:13` -/
  quadWeight : Nat
  deriving DecidableEq, Repr

/-- `plaintext_mask`, `/repo/src/params.rs:22-24` (for `bit_precision < 32`; larger
values overflow the shift). -/
def Params.plaintextMask (p : Params) : Nat := 2 ^ p.bitPrecision - 1

/-- `plaintext_pos_max`, `/repo/src/params.rs:28-30` -/
def Params.plaintextPosMax (p : Params) : Nat := 2 ^ (p.bitPrecision - 1)

/-- `plaintext_space_size`, `/repo/src/params.rs:33-35` -/
def Params.plaintextSpaceSize (p : Params) : Nat := 2 ^ p.bitPrecision

/-- `PAR_TFHE_V0_5__M4_C0`, `/repo/src/params.rs:103-116` -/
def Params.M4C0 : Params := { bitPrecision := 5, quadWeight := 100 }

/-- The tfhe-rs operations `/repo/src/ciphertexts.rs` and `/repo/src/cloudovo/pbs.rs`
call on an LWE ciphertext (type `C`).  External code: the operations are parameters. -/
structure Scheme where
  C : Type
  /-- `lwe_ciphertext_add_assign` -/
  add : C → C → C
  /-- `lwe_ciphertext_opposite_assign` -/
  neg : C → C
  /-- `lwe_ciphertext_cleartext_mul_assign` (cleartext is a `u64`) -/
  mulC : C → BitVec 64 → C
  /-- `lwe_ciphertext_plaintext_add_assign` (plaintext is a `u64` on the torus) -/
  addPt : C → BitVec 64 → C
  /-- `ServerKey::apply_lookup_table`, given the body of the accumulator -/
  pbs : List (BitVec 64) → C → C

/-- `AddShift`, `/repo/src/cloudovo/scalar_multiplication/asc.rs:16-23` -/
structure AddShift where
  lPos : Bool
  lIdx : Nat
  rPos : Bool
  rIdx : Nat
  rShift : Nat
  deriving DecidableEq, Repr

/-- `Asc = Vec<AddShift>`, `asc.rs:26` -/
abbrev Asc := List AddShift

/-- `ParmesanCloudovo`, `/repo/src/lib.rs:157-160`, together with the fields of the
tfhe-rs `ServerKey` the code reads, the global table `ASC_12` (`/repo/src/lib.rs:79-82`,
loaded from a file at run time, hence a parameter), and the build profile. -/
structure Cloud where
  params : Params
  /-- `server_key.message_modulus.0` -/
  msgMod : Nat
  /-- `server_key.carry_modulus.0` -/
  carryMod : Nat
  /-- `server_key.bootstrapping_key.polynomial_size().0` -/
  polySize : Nat
  /-- `ASC_12`, a `BTreeMap<usize, Vec<AddShift>>` as an association list -/
  asc : List (Nat × Asc)
  build : Build

/-- `ParmCtWord`, `/repo/src/ciphertexts.rs:20-23` -/
inductive CtWord (C : Type) where
  | ct (c : C)
  | triv (pt : BitVec 64)

/-- `ParmEncrWord`, `/repo/src/ciphertexts.rs:27-30` -/
structure Word (C : Type) where
  ct : CtWord C
  msgMod : Nat

/-- `ParmCiphertext = Vec<ParmEncrWord>`, `/repo/src/ciphertexts.rs:258` -/
abbrev Ctxt (C : Type) := List (Word C)

/-- `delta`, `/repo/src/ciphertexts.rs:76`.  For `msg_mod = 1` the product overflows
and for `msg_mod = 0` the division panics; the model wraps / yields 0 there. -/
def delta (msgMod : Nat) : BitVec 64 := BitVec.ofNat 64 (2 ^ 63 / msgMod * 2)

/-- `mi_to_mu`, `/repo/src/ciphertexts.rs:78-83` -/
def miToMu (msgMod : Nat) (mi : Int) : BitVec 64 := BitVec.ofInt 64 (mi % (msgMod : Int))

/-- `mu_to_mi`, `/repo/src/ciphertexts.rs:85-95` (`msg_mod < 2^31`) -/
def muToMi (msgMod : Nat) (mu : Nat) : Int :=
  let mu := mu % msgMod
  if mu ≥ msgMod / 2 then (mu : Int) - (msgMod : Int) else (mu : Int)

/-- `mi_to_pt`, `/repo/src/ciphertexts.rs:97-102` -/
def miToPt (msgMod : Nat) (mi : Int) : BitVec 64 := miToMu msgMod mi * delta msgMod

/-- `half_to_pt`, `/repo/src/ciphertexts.rs:104-108` -/
def halfToPt (msgMod : Nat) : BitVec 64 := (1#64 * delta msgMod) / 2#64

/-- `pt_to_mu`, `/repo/src/ciphertexts.rs:110-120` -/
def ptToMu (msgMod : Nat) (pt : BitVec 64) : Nat :=
  let d := delta msgMod
  let roundingBit := d >>> 1
  let rounding := (pt &&& roundingBit) <<< 1
  ((pt + rounding) / d).toNat

/-- `pt_to_mi`, `/repo/src/ciphertexts.rs:123-128` -/
def ptToMi (msgMod : Nat) (pt : BitVec 64) : Int := muToMi msgMod (ptToMu msgMod pt)

/-- What a tfhe-rs `ClientKey` provides to the crate: encryption without padding
(randomised by a seed) and the decryption phase `b - ⟨a, s⟩` on the torus `ℤ/2^64`. -/
structure ClientKey (S : Scheme) where
  /-- phase of a ciphertext under the secret key -/
  phase : S.C → BitVec 64
  /-- `encrypt_without_padding(mu)` with the given randomness -/
  encrypt : Nat → BitVec 64 → S.C

/-- tfhe-rs `decrypt_without_padding`: rounds the phase to a multiple of `delta`.
External; its rounding is the same formula as `pt_to_mu` (`ciphertexts.rs:110-120`,
which the crate copied from it). -/
def ClientKey.decrypt {S : Scheme} (ck : ClientKey S) (msgMod : Nat) (c : S.C) : Nat :=
  ptToMu msgMod (ck.phase c)

/-- `encrypt_word`, `/repo/src/ciphertexts.rs:33-41` -/
def encryptWord {S : Scheme} (ck : ClientKey S) (msgMod : Nat) (seed : Nat) (mi : Int) : Word S.C :=
  { ct := .ct (ck.encrypt seed (miToMu msgMod mi)), msgMod := msgMod }

/-- `encrypt_word_triv`, `/repo/src/ciphertexts.rs:43-51` -/
def encryptWordTriv (C : Type) (pc : Cloud) (mi : Int) : Word C :=
  { ct := .triv (miToPt pc.msgMod mi), msgMod := pc.msgMod }

/-- `decrypt_mu`, `/repo/src/ciphertexts.rs:53-67` -/
def decryptMu {S : Scheme} (ck : Option (ClientKey S)) (w : Word S.C) : M Nat :=
  match w.ct with
  | .ct c => match ck with
    | some k => pure (k.decrypt w.msgMod c)
    | none => M.err .noClientKey
  | .triv pt => pure (ptToMu w.msgMod pt)

/-- `decrypt_mi`, `/repo/src/ciphertexts.rs:69-74` -/
def decryptMi {S : Scheme} (ck : Option (ClientKey S)) (w : Word S.C) : M Int := do
  let mu ← decryptMu ck w
  pure (muToMi w.msgMod mu)

namespace Word
variable {S : Scheme}

/-- `add_inplace` / `add`, `/repo/src/ciphertexts.rs:134-172` -/
def add (S : Scheme) (a b : Word S.C) : Word S.C :=
  match a.ct with
  | .ct ca => match b.ct with
    | .ct cb => { a with ct := .ct (S.add ca cb) }
    | .triv pb => { a with ct := .ct (S.addPt ca pb) }
  | .triv pa => match b.ct with
    | .ct cb => { a with ct := .ct (S.addPt cb pa) }
    | .triv pb => { a with ct := .triv (pa + pb) }

/-- `add_half_inplace`, `/repo/src/ciphertexts.rs:174-186` -/
def addHalf (S : Scheme) (a : Word S.C) : Word S.C :=
  match a.ct with
  | .ct ca => { a with ct := .ct (S.addPt ca (halfToPt a.msgMod)) }
  | .triv pa => { a with ct := .triv (pa + halfToPt a.msgMod) }

/-- `opp_inplace` / `opp`, `/repo/src/ciphertexts.rs:205-218` -/
def opp (S : Scheme) (a : Word S.C) : Word S.C :=
  match a.ct with
  | .ct ca => { a with ct := .ct (S.neg ca) }
  | .triv pa => { a with ct := .triv (-pa) }

/-- `sub_inplace` / `sub`, `/repo/src/ciphertexts.rs:188-203` -/
def sub (S : Scheme) (a b : Word S.C) : Word S.C := add S a (opp S b)

/-- `mul_const_inplace` / `mul_const`, `/repo/src/ciphertexts.rs:220-235`.
`k.abs() as u64` is modelled with release semantics (`i32::MIN.abs()` wraps; a debug
build panics there). -/
def mulConst (S : Scheme) (a : Word S.C) (k : Int) : Word S.C :=
  let kAbs : BitVec 64 := BitVec.ofInt 64 (wrapI32 (k.natAbs : Int))
  let r : Word S.C := match a.ct with
    | .ct ca => { a with ct := .ct (S.mulC ca kAbs) }
    | .triv pa => { a with ct := .triv (pa * kAbs) }
  if k < 0 then opp S r else r

/-- `is_triv`, `/repo/src/ciphertexts.rs:241-243` -/
def isTriv {C : Type} (a : Word C) : Bool :=
  match a.ct with
  | .triv _ => true
  | .ct _ => false

/-- `is_triv_zero`, `/repo/src/ciphertexts.rs:245-247` -/
def isTrivZero {C : Type} (a : Word C) : Bool :=
  match a.ct with
  | .triv pt => pt == 0
  | .ct _ => false

end Word

/-- `ParmCiphertext::triv`, `/repo/src/ciphertexts.rs:283-288` -/
def trivCt (C : Type) (pc : Cloud) (len : Nat) : Ctxt C :=
  List.replicate len (encryptWordTriv C pc 0)

/-- `ParmCiphertext::empty`, `/repo/src/ciphertexts.rs:290-292` -/
def emptyCt (C : Type) : Ctxt C := []

/-- `ParmCiphertext::single`, `/repo/src/ciphertexts.rs:294-296` -/
def singleCt {C : Type} (w : Word C) : Ctxt C := [w]

end Parm
