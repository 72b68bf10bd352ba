import Verif.Model.Ciphertext

/-!
# Model of `/repo/src/userovo/encryption.rs` and the user API of `/repo/src/lib.rs:103-151`
-/

namespace Parm

/-- `PARM_CT_MAXLEN`, `/repo/src/userovo/encryption.rs:10` -/
def parmCtMaxlen : Nat := 63

/-- `convert_to_vec`, `/repo/src/userovo/encryption.rs:87-106`.  `m` is an `i64`;
`m.abs()` overflows for `-2^63`; `m_abs >> i` is an arithmetic shift whose amount is
checked in debug builds and taken modulo 64 in release builds. -/
def convertToVec (build : Build) (m : Int) (words : Nat) : M (List Int) := do
  let mAbsI ← i64Op build (m.natAbs : Int)
  let mAbs : BitVec 64 := BitVec.ofInt 64 mAbsI
  let mPos := decide (m ≥ 0)
  (List.range words).mapM fun i => do
    let sh ← shAmt64 build i
    pure (if (mAbs.sshiftRight sh) &&& 1#64 = 0 then (0 : Int)
      else if mPos then 1 else -1)

/-- loop of `convert_from_vec`, `/repo/src/userovo/encryption.rs:112-119`, from index `i` -/
def convertFromVecLoop (build : Build) : Nat → Int → List Int → M Int
  | _, m, [] => pure m
  | i, m, mi :: rest => do
    let sh ← shAmt64 build i
    let p : Int := wrapI64 (2 ^ sh)
    let t ← (if mi = 1 then pure p
      else if mi = 0 then pure 0
      else if mi = -1 then i64Op build (-p)
      else M.err .decAlphabet : M Int)
    let m ← i64Op build (m + t)
    convertFromVecLoop build (i + 1) m rest

/-- `convert_from_vec`, `/repo/src/userovo/encryption.rs:109-121` -/
def convertFromVec (build : Build) (mv : List Int) : M Int :=
  if mv.length > parmCtMaxlen then M.err .ctTooLong
  else convertFromVecLoop build 0 0 mv

/-- `parm_encrypt_from_vec`, `/repo/src/userovo/encryption.rs:32-47`.  Word `i` is
encrypted with randomness `seed i`. -/
def parmEncryptFromVec {S : Scheme} (ck : ClientKey S) (msgMod : Nat) (seed : Nat → Nat) :
    Nat → List Int → M (Ctxt S.C)
  | _, [] => pure (emptyCt S.C)
  | i, mi :: rest =>
    if mi < -1 ∨ mi > 1 then M.err .encAlphabet
    else do
      let c ← parmEncryptFromVec ck msgMod seed (i + 1) rest
      pure (encryptWord ck msgMod (seed i) mi :: c)

/-- `parm_encrypt`, `/repo/src/userovo/encryption.rs:22-29` -/
def parmEncrypt {S : Scheme} (ck : ClientKey S) (msgMod : Nat) (build : Build)
    (seed : Nat → Nat) (m : Int) (words : Nat) : M (Ctxt S.C) := do
  let mv ← convertToVec build m words
  parmEncryptFromVec ck msgMod seed 0 mv

/-- `parm_decrypt_to_vec`, `/repo/src/userovo/encryption.rs:68-77` -/
def parmDecryptToVec {S : Scheme} (ck : ClientKey S) (c : Ctxt S.C) : M (List Int) :=
  c.mapM fun ci => decryptMi (some ck) ci

/-- `parm_decrypt`, `/repo/src/userovo/encryption.rs:59-65` -/
def parmDecrypt {S : Scheme} (ck : ClientKey S) (build : Build) (c : Ctxt S.C) : M Int := do
  let mv ← parmDecryptToVec ck c
  convertFromVec build mv

/-- `bin_hw`, `/repo/src/userovo/encryption.rs:124-131`.  (`vi.abs()` of `i32::MIN` panics in
debug builds and is negative in release builds; the model takes the mathematical absolute
value, i.e. entries above `i32::MIN`.) -/
def binHw : List Int → M Nat
  | [] => pure 0
  | v :: vs =>
    if v.natAbs > 1 then M.err .hwAlphabet
    else do
      let h ← binHw vs
      pure (v.natAbs + h)

/-- `bit_len_32`, `/repo/src/userovo/encryption.rs:135-141` -/
def bitLen32 (k : BitVec 32) : Nat :=
  if k = 0 then 0
  else ((List.range 31).map (· + 1)).foldl
    (fun l i => if k &&& (1#32 <<< i) ≠ 0 then i + 1 else l) 1

/-- `bit_len_64`, `/repo/src/userovo/encryption.rs:145-151` -/
def bitLen64 (k : BitVec 64) : Nat :=
  if k = 0 then 0
  else ((List.range 63).map (· + 1)).foldl
    (fun l i => if k &&& (1#64 <<< i) ≠ 0 then i + 1 else l) 1

/-- `MIN_QUAD_WEIGHT`, `/repo/src/lib.rs:72` -/
def minQuadWeight : Nat := 22

end Parm
