import Verif.Model.Encryption
import Verif.Model.NN
import Verif.Data.Networks

/-!
# Model of `/repo/src/demos.rs`

The two demos from the point where the keys and the cloud exist (`Keys` models how they come about).  Texts are not
modelled, except for the verdicts `PASS` and `FAIL`.
-/

namespace Parm

variable {S : Scheme}

/-- `*ci = pu.encrypt(*mi, …)?` one after the other, `/repo/src/demos.rs:73-88` and `:377-379`; value `i` is encrypted with
randomness `seed i`.  User and cloud are the same binary. -/
def demoEncrypt (ck : ClientKey S) (pc : Cloud) (seed : Nat → Nat → Nat) : Nat → List (Int × Nat) → M (List (Ctxt S.C))
  | _, [] => pure []
  | i, (m, w) :: ms => do
    let c ← parmEncrypt ck pc.msgMod pc.build (seed i) m w
    let cs ← demoEncrypt ck pc seed (i + 1) ms
    pure (c :: cs)

/-- `pu.decrypt(…)?` one after the other, `demos.rs:170-191` and `:411-414` -/
def demoDecrypt (ck : ClientKey S) (pc : Cloud) : List (Ctxt S.C) → M (List Int)
  | [] => pure []
  | c :: cs => do
    let m ← parmDecrypt ck pc.build c
    let ms ← demoDecrypt ck pc cs
    pure (m :: ms)

/-! ### `arith_demo` -/

/-- `m`, `demos.rs:46-50` -/
def demoM0 : Int := 0b01111110110010010011100110111011
/-- `m`, `demos.rs:46-50` -/
def demoM1 : Int := 0b00110010001111100110111100100000
/-- `m`, `demos.rs:46-50` -/
def demoM2 : Int := -0b01000100001010010111100000010101
/-- `m_x1`, `demos.rs:53` -/
def demoX1 : Int := 0b1
/-- `m_y1`, `demos.rs:54` -/
def demoY1 : Int := -0b1
/-- `m_x4`, `demos.rs:55` -/
def demoX4 : Int := 0b1110
/-- `m_y4`, `demos.rs:56` -/
def demoY4 : Int := 0b1001
/-- `m_x8`, `demos.rs:57` -/
def demoX8 : Int := 0b10010111
/-- `m_y8`, `demos.rs:58` -/
def demoY8 : Int := 0b10111010
/-- `m_x16`, `demos.rs:59` -/
def demoX16 : Int := 0b1110000101101011
/-- `m_y16`, `demos.rs:60` -/
def demoY16 : Int := 0b1100011010100001
/-- `m_x17`, `demos.rs:61` -/
def demoX17 : Int := 0b11111011001001001
/-- `m_y17`, `demos.rs:62` -/
def demoY17 : Int := 0b11001000111110011
/-- `m_x32`, `demos.rs:63` -/
def demoX32 : Int := 0b01100110010010111011011001100110
/-- `m_y32`, `demos.rs:64` -/
def demoY32 : Int := 0b01001011100111010100110001010100

/-- the values in the order of their encryption, with the number of words (`DEMO_BITLEN` is 28), `demos.rs:73-88` -/
def arithDemoIn : List (Int × Nat) :=
  [(demoM0, 28), (demoM1, 28), (demoM2, 28), (demoX1, 1), (demoY1, 1), (demoX4, 4), (demoY4, 4), (demoX8, 8), (demoY8, 8),
   (demoX16, 16), (demoY16, 16), (demoX17, 17), (demoY17, 17), (demoX32, 32), (demoY32, 32)]

/-- the evaluation, `demos.rs:143-164`; the results in the order of the source -/
def arithDemoOps {T : Type} (A : Arith T) (c0 c1 c2 cx1 cy1 cx4 cy4 cx8 cy8 cx16 cy16 cx17 cy17 cx32 cy32 : T) : M (List T) := do
  let cAdd ← A.add c0 c1
  let cSub ← A.sub c1 c0
  let cAdc ← A.addConst c0 (-20)
  let cSgn ← A.sgn c2
  let cMax ← A.max c1 c0
  let cXy1 ← A.mul cx1 cy1
  let cXy4 ← A.mul cx4 cy4
  let cXy8 ← A.mul cx8 cy8
  let cXy16 ← A.mul cx16 cy16
  let cXy17 ← A.mul cx17 cy17
  let cXy32 ← A.mul cx32 cy32
  let cXx4 ← A.squ cx4
  let cXx8 ← A.squ cx8
  let cXx16 ← A.squ cx16
  let cXx17 ← A.squ cx17
  let cXx32 ← A.squ cx32
  let cN121x16 ← A.scalarMul (-121) cx16
  let cN128x16 ← A.scalarMul (-128) cx16
  let cP3x16 ← A.scalarMul 3 cx16
  pure [cAdd, cSub, cAdc, cSgn, cMax, cXy1, cXy4, cXy8, cXy16, cXy17, cXy32, cXx4, cXx8, cXx16, cXx17, cXx32,
    cN121x16, cN128x16, cP3x16]

/-- `m_as`, `demos.rs:75` -/
def demoTrunc (m : Int) : Int := m.sign * ((m.natAbs : Int) % 2 ^ 28)

/-- the expected values, `demos.rs:195-291` -/
def arithDemoExp : List Int :=
  [demoTrunc demoM0 + demoTrunc demoM1, demoTrunc demoM1 - demoTrunc demoM0, demoTrunc demoM0 + -20, (demoTrunc demoM2).sign,
   max (demoTrunc demoM1) (demoTrunc demoM0),
   demoX1 * demoY1, demoX4 * demoY4, demoX8 * demoY8, demoX16 * demoY16, demoX17 * demoY17, demoX32 * demoY32,
   demoX4 * demoX4, demoX8 * demoX8, demoX16 * demoX16, demoX17 * demoX17, demoX32 * demoX32,
   -121 * demoX16, -128 * demoX16, 3 * demoX16]

/-- encryption and evaluation, `demos.rs:66-164` -/
def arithDemoEval (S : Scheme) (ck : ClientKey S) (pc : Cloud) (seed : Nat → Nat → Nat) : M (List (Ctxt S.C)) := do
  let c ← demoEncrypt ck pc seed 0 arithDemoIn
  match c with
  | [c0, c1, c2, cx1, cy1, cx4, cy4, cx8, cy8, cx16, cy16, cx17, cy17, cx32, cy32] =>
    arithDemoOps (arithCt S pc) c0 c1 c2 cx1 cy1 cx4 cy4 cx8 cy8 cx16 cy16 cx17 cy17 cx32 cy32
  | _ => M.panic .index -- never: `demoEncrypt` returns one ciphertext per value

/-- `arith_demo`, `/repo/src/demos.rs:10-301`, after the keys: for each line whether it says `PASS` -/
def arithDemo (S : Scheme) (ck : ClientKey S) (pc : Cloud) (seed : Nat → Nat → Nat) : M (List Bool) := do
  let z ← arithDemoEval S ck pc seed
  let m ← demoDecrypt ck pc z
  pure (List.zipWith (fun e m => e == m) arithDemoExp m)

/-! ### `nn_demo` -/

/-- `m_in`, `demos.rs:339-356` -/
def nnDemoIn : List Int :=
  [-0b1000110000, 0b100000001, 0b10000111110, -0b111010100, -0b1000111110, -0b1100101110, 0b111001, -0b101000011,
   0b1001, -0b100111101, 0b10000110, -0b1101010, -0b11001, 0b100100, -0b11000, -0b10001110]

/-- `nn_demo`, `/repo/src/demos.rs:304-439`, after the keys, with the network `nn` (the source evaluates `arrhythmia_nn`):
for each output whether it says `PASS` -/
def nnDemo (S : Scheme) (ck : ClientKey S) (pc : Cloud) (seed : Nat → Nat → Nat) (nn : NeuralNetwork) (mIn : List Int) :
    M (List Bool) := do
  let c ← demoEncrypt ck pc seed 0 (mIn.map fun m => (m, 11))
  let z ← nn.eval (arithCt S pc) c
  let p ← nn.eval (arithI64 pc.build) mIn
  let m ← demoDecrypt ck pc z
  pure (List.zipWith (fun h p => h == p) m p)

end Parm
