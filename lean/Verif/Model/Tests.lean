import Verif.Model.NN
import Verif.Model.Encryption

/-!
# Model of the shipped test-suite, `/repo/tests/*.rs`

Every `#[test]` function runs some iterations of one of the bodies below, on values drawn from a random generator
(`rand::thread_rng`) or fixed in the source.  A `Case` is one iteration together with the values drawn for it; `Case.Drawn` are
the ranges the source draws from; `Case.run` is the body of the iteration.  The three modes of encryption (`EncrVsTriv`) are
lists of flags: all `true`, all `false`, or arbitrary ones.  Printing is left out.
-/

namespace Parm

/-- one iteration of a test, with the values drawn -/
inductive Case where
  /-- `t_decrypt_triv`, `/repo/tests/test_encryption.rs:17-30` -/
  | decryptTriv
  /-- `t_encrypt_decrypt_int`, `test_encryption.rs:33-55` -/
  | encInt (m : Int)
  /-- `t_encrypt_decrypt_vec`, `test_encryption.rs:58-81` -/
  | encVec (v : List Int)
  /-- `t_impl_decr_with_mode`, `test_encryption.rs:106-125` -/
  | decrMode (v : List Int) (f : List Bool)
  /-- `t_impl_encr_word_with_modes`, `/repo/tests/test_encr_word.rs:50-125` -/
  | word (ms mo : Int) (fs fo : Bool) (k : Int)
  /-- `t_impl_pbs_with_mode`, `/repo/tests/test_pbs.rs:37-68` -/
  | pbs (m : Int) (f : Bool)
  /-- `t_impl_add_sub_with_mode`, `/repo/tests/test_addition.rs:64-111` -/
  | addSub (v1 : List Int) (f1 : List Bool) (v2 : List Int) (f2 : List Bool)
  /-- `t_impl_add_const_with_mode`, `/repo/tests/test_addition_misc.rs:75-106` -/
  | addConst (v : List Int) (f : List Bool) (c : List Int)
  /-- `t_impl_add_triv_zeros_with_mode`, `test_addition_misc.rs:109-156` -/
  | addZeros (l1 : Nat) (v1 : List Int) (r1 : Nat) (l2 : Nat) (v2 : List Int) (r2 : Nat)
  /-- `t_impl_max_with_mode`, `/repo/tests/test_maximum.rs:152-187`, and `t_max_empty_nonempty`, `t_max_fail` (`:80-145`) -/
  | max (v1 : List Int) (f1 : List Bool) (v2 : List Int) (f2 : List Bool)
  /-- `t_max_both_empty`, `test_maximum.rs:62-78` -/
  | maxEmpty
  /-- `t_impl_sgn_with_mode`, `/repo/tests/test_signum.rs:61-83` -/
  | sgn (v : List Int) (f : List Bool)
  /-- `t_sgn_empty`, `test_signum.rs:39-54` -/
  | sgnEmpty
  /-- `t_impl_round_with_mode`, `/repo/tests/test_rounding.rs:65-92` -/
  | round (v : List Int) (f : List Bool) (pos : Nat)
  /-- `t_round_empty`, `test_rounding.rs:41-56` -/
  | roundEmpty
  /-- `t_impl_mul_with_mode`, `/repo/tests/test_multiplication.rs:96-135`, and `t_mul_case` (`:61-89`) -/
  | mul (v1 : List Int) (f1 : List Bool) (v2 : List Int) (f2 : List Bool)
  /-- `t_impl_squ_with_mode`, `/repo/tests/test_squaring.rs:66-92` -/
  | squ (v : List Int) (f : List Bool)
  /-- `t_impl_squ_2_3`, `test_squaring.rs:95-114` -/
  | squShort (v : List Int)
  /-- `t_impl_scm_with_mode_and_scalar`, `/repo/tests/test_scalar_multiplication.rs:118-141` -/
  | scm (v : List Int) (f : List Bool) (k : Int)
  /-- `t_asc`, `test_scalar_multiplication.rs:60-72` -/
  | asc
  /-- `t_koy_tsu`, `test_scalar_multiplication.rs:74-98` -/
  | koyTsu (k : Nat)
  /-- `t_impl_nn_eval_with_mode`, `/repo/tests/test_nn.rs:43-87` -/
  | nn (net : NeuralNetwork) (ins : List (List Int × List Bool))

/-- `gen_rand_vec(len)`, `/repo/tests/common/mod.rs:92-97`: digits in `-1..=1` -/
def DrawnVec (len : Nat) (v : List Int) : Prop := v.length = len ∧ ∀ d ∈ v, -1 ≤ d ∧ d ≤ 1

/-- a vector of a length up to `len` -/
def DrawnUpTo (len : Nat) (v : List Int) : Prop := ∃ l ≤ len, DrawnVec l v

/-- the bit-lengths of `test_addition.rs:72-73`: `0..=TESTS_BITLEN_ADD` and `TESTS_EXTRA_BITLEN_ADD` (`common/mod.rs:45-46`) -/
def addBitlens : List Nat := [0, 1, 2, 15, 61]

/-- the bit-lengths of `test_multiplication.rs:104-105` (`common/mod.rs:41-42`) -/
def mulBitlens : List Nat := [0, 1, 2, 8, 9]

/-- the bit-lengths of `test_squaring.rs:68-69` (`common/mod.rs:43-44`) -/
def squBitlens : List Nat := [0, 1, 2, 3, 4, 5, 6, 7, 8, 9]

/-- layers of a random network: `1..TESTS_NNE_LAYER_SIZE` perceptrons each (`test_nn.rs:106`), one weight in `-7..=7` for every
input (`:116`, `:135`) and a bias in `-15..=15` (`:117`) -/
def DrawnLayers : Nat → List (List Perceptron) → Prop
  | _, [] => True
  | n, l :: ls => (1 ≤ l.length ∧ l.length < 5) ∧
      (∀ p ∈ l, p.w.length = n ∧ (∀ k ∈ p.w, -7 ≤ k ∧ k ≤ 7) ∧ -15 ≤ p.b ∧ p.b ≤ 15) ∧ DrawnLayers l.length ls

/-- the values the source can draw -/
def Case.Drawn : Case → Prop
  | .decryptTriv => True
  | .encInt m => -(2 ^ 62 - 1) ≤ m ∧ m < 2 ^ 62
  | .encVec v => DrawnVec 62 v
  | .decrMode v f => DrawnVec 62 v ∧ f.length = v.length
  | .word ms mo _ _ k => (-16 ≤ ms ∧ ms < 16) ∧ (-16 ≤ mo ∧ mo < 16) ∧ -4 ≤ k ∧ k ≤ 4
  | .pbs m _ => -16 ≤ m ∧ m < 16
  | .addSub v1 f1 v2 f2 => (∃ bl ∈ addBitlens, DrawnUpTo bl v1 ∧ DrawnUpTo bl v2) ∧ f1.length = v1.length ∧ f2.length = v2.length
  | .addConst v f c => DrawnUpTo 8 v ∧ DrawnUpTo 8 c ∧ f.length = v.length
  | .addZeros l1 v1 r1 l2 v2 r2 =>
      (l1 = 2 ∧ DrawnVec 3 v1 ∧ r1 = 2 ∧ l2 = 3 ∧ DrawnVec 2 v2 ∧ r2 = 8) ∨
      (l1 = 0 ∧ DrawnVec 2 v1 ∧ r1 = 2 ∧ l2 = 1 ∧ DrawnVec 2 v2 ∧ r2 = 1)
  | .max v1 f1 v2 f2 => (DrawnUpTo 7 v1 ∧ DrawnUpTo 7 v2) ∧ f1.length = v1.length ∧ f2.length = v2.length
  | .maxEmpty => True
  | .sgn v f => DrawnVec 7 v ∧ f.length = v.length
  | .sgnEmpty => True
  | .round v f pos => DrawnVec 5 v ∧ f.length = v.length ∧ pos ≤ 7
  | .roundEmpty => True
  | .mul v1 f1 v2 f2 => (∃ bl ∈ mulBitlens, DrawnUpTo bl v1 ∧ DrawnUpTo bl v2) ∧ f1.length = v1.length ∧ f2.length = v2.length
  | .squ v f => (∃ bl ∈ squBitlens, DrawnVec bl v) ∧ f.length = v.length
  | .squShort v => DrawnVec 2 v ∨ DrawnVec 3 v
  | .scm v f k => DrawnVec 9 v ∧ f.length = v.length ∧ -2 ^ 30 ≤ k ∧ k ≤ 2 ^ 30
  | .asc => True
  | .koyTsu k => k ≤ 2 ^ 30
  | .nn net ins => (1 ≤ net.layers.length ∧ net.layers.length ≤ 3) ∧ (1 ≤ ins.length ∧ ins.length ≤ 5) ∧
      DrawnLayers ins.length net.layers ∧ ∀ i ∈ ins, DrawnVec 5 i.1 ∧ i.2.length = i.1.length

/-- `assert!(..)` -/
def M.check (p : Prop) [Decidable p] : M Unit := if p then pure () else M.panic .assertion

section
variable {S : Scheme} (ck : ClientKey S) (pc : Cloud)

/-- `encrypt_with_flags`, `/repo/tests/common/mod.rs:127-146`; word `j` is encrypted with randomness `seed j` -/
def encryptFlags (seed : Nat → Nat) : Nat → List Int → List Bool → Ctxt S.C
  | j, mi :: v, fi :: f =>
    (if fi then encryptWord ck pc.msgMod (seed j) mi else encryptWordTriv S.C pc mi) :: encryptFlags seed (j + 1) v f
  | _, v, _ => trivCt S.C pc v.length

/-- all words encrypted (`EncrVsTriv::ENCR`, `common/mod.rs:107-111`) -/
def encryptAll (seed : Nat → Nat) (v : List Int) : Ctxt S.C := encryptFlags ck pc seed 0 v (List.replicate v.length true)

/-- one word, encrypted or trivial (`test_encr_word.rs:69-78`, `test_pbs.rs:53-57`) -/
def encryptOne (seed : Nat) (f : Bool) (m : Int) : Word S.C :=
  if f then encryptWord ck pc.msgMod seed m else encryptWordTriv S.C pc m

/-- `c.decrypt_mu(Some(&keys)).expect(..)` compared with `m.rem_euclid(ps_mod)` (e.g. `test_encr_word.rs:90-95`) -/
def checkWord (w : Word S.C) (m : Int) : M Unit := do
  let d ← (decryptMu (some ck) w).expect
  M.check ((d : Int) = m % (pc.params.plaintextSpaceSize : Int))

/-- `convert_from_vec(&v).expect(..)` -/
def convertVec (v : List Int) : M Int := (convertFromVec pc.build v).expect

/-- `TEST_PU.decrypt(&c).expect(..)` -/
def decryptCt (c : Ctxt S.C) : M Int := (parmDecrypt ck pc.build c).expect

/-- inputs of the networks, `test_nn.rs:52-67` -/
def nnInputs (seed : Nat → Nat → Nat) : Nat → List (List Int × List Bool) → M (List Int × List (Ctxt S.C))
  | _, [] => pure ([], [])
  | i, (v, f) :: ins => do
    let m ← convertVec pc v
    let c := encryptFlags ck pc (seed i) 0 v f
    let r ← nnInputs seed (i + 1) ins
    pure (m :: r.1, c :: r.2)

/-- the body of one iteration; ciphertext `i` uses the randomness `seed i` -/
def Case.run (seed : Nat → Nat → Nat) : Case → M Unit
  | .decryptTriv => do
    let m ← decryptCt ck pc (trivCt S.C pc 62)
    M.check (m = 0)
  | .encInt mi => do
    let c ← (parmEncrypt ck pc.msgMod pc.build (seed 0) mi 62).expect
    let mp ← decryptCt ck pc c
    M.check (mp = mi)
  | .encVec v => do
    let c ← (parmEncryptFromVec ck pc.msgMod (seed 0) 0 v).expect
    let mp ← decryptCt ck pc c
    let md ← convertVec pc v
    M.check (mp = md)
  | .decrMode v f => do
    let m1 ← convertVec pc v
    let mHe ← decryptCt ck pc (encryptFlags ck pc (seed 0) 0 v f)
    M.check (mHe = m1)
  | .word ms mo fs fo k => do
    let cs := encryptOne ck pc (seed 0 0) fs ms
    let co := encryptOne ck pc (seed 1 0) fo mo
    M.check (cs.isTriv = !fs)
    checkWord ck pc cs ms
    checkWord ck pc co mo
    checkWord ck pc (Word.add S cs co) (ms + mo)
    checkWord ck pc (Word.sub S cs co) (ms - mo)
    checkWord ck pc (Word.mulConst S cs k) (k * ms)
    checkWord ck pc (Word.mulConst S (Word.addHalf S cs) 2) (ms * 2 + 1)
  | .pbs m f => do
    let c := encryptOne ck pc (seed 0 0) f m
    let lut : List Nat := [0,1,2,3,4,5,6,7,8,7,6,5,4,3,2,1]
    let cpbs ← evalLut5Uint S pc c lut
    let mUsize := (m % (pc.params.plaintextSpaceSize : Int)).toNat
    let h := pc.params.plaintextSpaceSize / 2
    let e ← (if mUsize < h then do let v ← idx lut mUsize; pure (v : Int)
      else do let v ← idx lut (mUsize - h); pure (-(v : Int)))
    checkWord ck pc cpbs e
  | .addSub v1 f1 v2 f2 => do
    let m1 ← convertVec pc v1
    let m2 ← convertVec pc v2
    let c1 := encryptFlags ck pc (seed 0) 0 v1 f1
    let c2 := encryptFlags ck pc (seed 1) 0 v2 f2
    let cA ← (arithCt S pc).add c1 c2
    let cS ← (arithCt S pc).sub c1 c2
    let mA ← decryptCt ck pc cA
    let mS ← decryptCt ck pc cS
    let _ ← (parmDecryptToVec ck cA).expect
    let _ ← (parmDecryptToVec ck cS).expect
    let pA ← (arithI64 pc.build).add m1 m2
    let pS ← (arithI64 pc.build).sub m1 m2
    M.check (mA = pA)
    M.check (mS = pS)
  | .addConst v f c => do
    let me ← convertVec pc v
    let mc ← convertVec pc c
    let cHe ← (arithCt S pc).addConst (encryptFlags ck pc (seed 0) 0 v f) mc
    let mHe ← decryptCt ck pc cHe
    let mPl ← (arithI64 pc.build).addConst me mc
    M.check (mHe = mPl)
  | .addZeros l1 v1 r1 l2 v2 r2 => do
    let c1 := trivCt S.C pc r1 ++ encryptAll ck pc (seed 0) v1 ++ trivCt S.C pc l1
    let c2 := trivCt S.C pc r2 ++ encryptAll ck pc (seed 1) v2 ++ trivCt S.C pc l2
    let m1 ← convertVec pc (List.replicate r1 0 ++ v1 ++ List.replicate l1 0)
    let m2 ← convertVec pc (List.replicate r2 0 ++ v2 ++ List.replicate l2 0)
    let cA ← (arithCt S pc).add c1 c2
    let cS ← (arithCt S pc).sub c1 c2
    let mA ← decryptCt ck pc cA
    let mS ← decryptCt ck pc cS
    let pA ← (arithI64 pc.build).add m1 m2
    let pS ← (arithI64 pc.build).sub m1 m2
    M.check (mA = pA)
    M.check (mS = pS)
  | .max v1 f1 v2 f2 => do
    let m1 ← convertVec pc v1
    let m2 ← convertVec pc v2
    let cHe ← (arithCt S pc).max (encryptFlags ck pc (seed 0) 0 v1 f1) (encryptFlags ck pc (seed 1) 0 v2 f2)
    let mHe ← decryptCt ck pc cHe
    let mPl ← (arithI64 pc.build).max m1 m2
    M.check (mHe = mPl)
  | .maxEmpty => do
    let cHe ← (arithCt S pc).max (emptyCt S.C) (emptyCt S.C)
    let mHe ← decryptCt ck pc cHe
    M.check (mHe = 0)
  | .sgn v f => do
    let m1 ← convertVec pc v
    let cHe ← (arithCt S pc).sgn (encryptFlags ck pc (seed 0) 0 v f)
    let mHe ← decryptCt ck pc cHe
    let mPl ← (arithI64 pc.build).sgn m1
    M.check (mHe = mPl)
  | .sgnEmpty => do
    let cHe ← (arithCt S pc).sgn (emptyCt S.C)
    let mHe ← decryptCt ck pc cHe
    M.check (mHe = 0)
  | .round v f pos => do
    let m1 ← convertVec pc v
    let cHe ← (arithCt S pc).roundAt (encryptFlags ck pc (seed 0) 0 v f) pos
    let mHe ← decryptCt ck pc cHe
    let mPl ← (arithI64 pc.build).roundAt m1 pos
    M.check (mHe = mPl)
  | .roundEmpty => do
    let cHe ← (arithCt S pc).roundAt (emptyCt S.C) 0
    let mHe ← decryptCt ck pc cHe
    M.check (mHe = 0)
  | .mul v1 f1 v2 f2 => do
    let m1 ← convertVec pc v1
    let m2 ← convertVec pc v2
    let cHe ← (arithCt S pc).mul (encryptFlags ck pc (seed 0) 0 v1 f1) (encryptFlags ck pc (seed 1) 0 v2 f2)
    let mHe ← decryptCt ck pc cHe
    let mPl ← (arithI64 pc.build).mul m1 m2
    M.check (mHe = mPl)
  | .squ v f => do
    let m1 ← convertVec pc v
    let cHe ← (arithCt S pc).squ (encryptFlags ck pc (seed 0) 0 v f)
    let mHe ← decryptCt ck pc cHe
    let mPl ← (arithI64 pc.build).squ m1
    M.check (mHe = mPl)
  | .squShort v => do
    let m ← convertVec pc v
    let cHe ← (arithCt S pc).squ (encryptAll ck pc (seed 0) v)
    let _ ← (parmDecryptToVec ck cHe).expect
    let mHe ← decryptCt ck pc cHe
    let mPl ← (arithI64 pc.build).squ m
    M.check (mHe = mPl)
  | .scm v f k => do
    let m1 ← convertVec pc v
    let cHe ← (arithCt S pc).scalarMul k (encryptFlags ck pc (seed 0) 0 v f)
    let mHe ← decryptCt ck pc cHe
    let mPl ← (arithI64 pc.build).scalarMul k m1
    M.check (mHe = mPl)
  | .asc => do
    M.check (pc.asc.length = 2048)
    pc.asc.forM fun e => do
      let v ← ascValue pc.build e.2
      M.check ((e.1 : Int) = v)
  | .koyTsu k => do
    let v ← koyamaTsuruokaVec pc.build k
    let kVal ← convertVec pc v
    M.check ((k : Int) = kVal)
  | .nn net ins => do
    let i ← nnInputs ck pc seed 0 ins
    let cHe ← net.eval (arithCt S pc) i.2
    let mHe ← cHe.mapM fun co => decryptCt ck pc co
    let mPl ← net.eval (arithI64 pc.build) i.1
    M.check (mHe = mPl)

/-- a run of (part of) the suite: iterations one after the other, each with its own randomness; a panic fails the test -/
def runCases : List ((Nat → Nat → Nat) × Case) → M Unit
  | [] => pure ()
  | (seed, c) :: cs => do
    c.run ck pc seed
    runCases cs

end

end Parm
