import Verif.Model.NN

/-!
# Specification vocabulary

What the property theorems say, independently of how the code (and hence the model)
computes.  Only the interface of the model is used: the effect monad `M`, the types of
words, and the scheme operations.
-/

namespace Parm

/-! ### Executions -/

/-- The count printed is the number of bootstraps performed in between. -/
def Report.Exact (p : Report) : Prop := p.finish = p.start + p.count

/-- From every state — hence under every scheduler, at every point of the execution — `m`
returns the same value `a` and performs exactly `n` bootstraps; the scheduler itself is
untouched, `n` is added to the current count of the `seq_analyze` feature, and what is printed is
exact. -/
def Returns {α : Type} (m : M α) (a : α) (n : Nat) : Prop :=
  ∀ s : St, ∃ (r : Nat) (rep : List Report), (∀ p ∈ rep, p.Exact) ∧
    m s = .ok (a, { sched := s.sched, region := r, pbs := s.pbs + n, nPbs := bumpTop n s.nPbs,
                    reports := rep ++ s.reports })

/-- From every state, `m` fails with `f`. -/
def Fails {α : Type} (m : M α) (f : Fault) : Prop := ∀ s : St, m s = .error f

/-- From every state, `m` fails (not necessarily always alike). -/
def AllFail {α : Type} (m : M α) : Prop := ∀ s, ∃ f, m s = .error f

/-- If `m` returns `a` in one execution, it returns `a` in every other one — whatever the
scheduler and the number of regions entered before — after the same number of bootstraps. -/
def ScheduleIndependent {α : Type} (m : M α) : Prop :=
  ∀ (s t : St) (a : α) (s' : St), m s = .ok (a, s') →
    ∃ t', m t = .ok (a, t') ∧ t'.pbs - t.pbs = s'.pbs - s.pbs

/-- Two computations have the same outcome up to `Q`: both return, under every schedule, with
`Q`-related values and the same number of bootstraps, or both fail, under every schedule. -/
def SameOutcome {α β : Type} (Q : α → β → Prop) (m : M α) (m' : M β) : Prop :=
  (∃ a a' n, Returns m a n ∧ Returns m' a' n ∧ Q a a') ∨ (AllFail m ∧ AllFail m')

/-- `m` returns a value satisfying `P`, the same under every scheduler. -/
def Yields {α : Type} (m : M α) (P : α → Prop) : Prop := ∃ a n, Returns m a n ∧ P a

/-! ### Signed binary numbers -/

/-- value of the first `n` digits of `d` (least significant first): `∑_{i<n} d i · 2^i` -/
def valueN (d : Nat → Int) : Nat → Int
  | 0 => 0
  | n + 1 => valueN d n + d n * 2 ^ n

/-- value of a digit vector -/
def value (ds : List Int) : Int := valueN (fun i => ds.getD i 0) ds.length

/-- a digit of the redundant binary alphabet -/
def IsDigit (d : Int) : Prop := d = -1 ∨ d = 0 ∨ d = 1

/-! ### Addition-subtraction chains -/

/-- Values of a chain over the integers, given the values so far: each element is
`± vals[l] ± vals[r]·2^shift`; `none` if an element refers to a value not yet computed. -/
def chainGo : Asc → List Int → Option Int
  | [], vals => vals.getLast?
  | e :: es, vals =>
    match vals[e.lIdx]?, vals[e.rIdx]? with
    | some l, some r =>
      chainGo es (vals ++ [(if e.lPos then l else -l) +
        (if e.rPos then r * 2 ^ e.rShift else -(r * 2 ^ e.rShift))])
    | _, _ => none

/-- The integer a chain multiplies by. -/
def chainValue (chain : Asc) : Option Int := chainGo chain [1]

/-! ### What is assumed of tfhe-rs -/

/-- Coefficient `k` of the negacyclic extension of an accumulator (`X^N = -1`). -/
def negacyclic (acc : List (BitVec 64)) (k : Nat) : BitVec 64 :=
  if k < acc.length then acc.getD k 0 else - acc.getD (k - acc.length) 0

/-- Contract of the tfhe-rs primitives, for one key pair: `B` bounds the noise of a fresh
encryption and of a bootstrap output, `D` the drift of the phase caused by the rounding to
`2N` positions (and key switching) inside a bootstrap; `N = polySize`.  Nothing is assumed of
a bootstrap whose input has a noise above `T`. -/
structure Sound (S : Scheme) (ck : ClientKey S) (N B D T : Nat) : Prop where
  phase_add : ∀ a b, ck.phase (S.add a b) = ck.phase a + ck.phase b
  phase_neg : ∀ a, ck.phase (S.neg a) = - ck.phase a
  phase_mulC : ∀ a k, ck.phase (S.mulC a k) = ck.phase a * k
  phase_addPt : ∀ a p, ck.phase (S.addPt a p) = ck.phase a + p
  phase_encrypt : ∀ seed mu, mu.toNat < 32 → ∃ e : Int, e.natAbs ≤ B ∧
    ck.phase (ck.encrypt seed mu) = BitVec.ofInt 64 ((mu.toNat : Int) * 2 ^ 59 + e)
  phase_pbs : ∀ acc c (m n : Int), acc.length = N → n.natAbs ≤ T →
    ck.phase c = BitVec.ofInt 64 (m * 2 ^ 59 + n) → ∃ (k : Nat) (d e : Int), k < 2 * N ∧
    d.natAbs ≤ D ∧ e.natAbs ≤ B ∧
    ck.phase c = BitVec.ofInt 64 ((k : Int) * (2 ^ 64 / (2 * N) : Nat) + d) ∧
    ck.phase (S.pbs acc c) = negacyclic acc k + BitVec.ofInt 64 e

/-- Multiple of the fresh noise a bootstrap must tolerate, by the `quad_weight` parameter:
the three code paths are `signum.rs:100` (`≥ 85`), `maximum.rs:71` (`≥ 41`), and below. -/
def tolWeight (quadWeight : Nat) : Nat :=
  if 85 ≤ quadWeight then 15 else if 41 ≤ quadWeight then 9 else 8

/-- The setting of all correctness theorems: the shipped message space (32 messages, no
carry, 5-bit precision), a polynomial size `2^logN` of at least 32, sound primitives, and
noise small enough for the weight `tolWeight`. -/
structure Setting (S : Scheme) (ck : ClientKey S) (pc : Cloud) (B D : Nat) : Prop where
  msgMod : pc.msgMod = 32
  carryMod : pc.carryMod = 1
  bitPrecision : pc.params.bitPrecision = 5
  polySize : ∃ logN, 5 ≤ logN ∧ logN ≤ 63 ∧ pc.polySize = 2 ^ logN
  sound : Sound S ck pc.polySize B D (tolWeight pc.params.quadWeight * B)
  tolerance : tolWeight pc.params.quadWeight * B + D < 2 ^ 58

/-! ### Meaning of words and ciphertexts -/

/-- The word holds the message `m` (modulo 32): exactly if it is trivial, with noise at
most `k` times the fresh noise bound `B` otherwise. -/
def WordEnc {S : Scheme} (ck : ClientKey S) (B : Nat) (w : Word S.C) (m : Int) (k : Nat) : Prop :=
  w.msgMod = 32 ∧
  match w.ct with
  | .triv pt => pt = BitVec.ofInt 64 (m * 2 ^ 59)
  | .ct c => ∃ e : Int, e.natAbs ≤ k * B ∧ ck.phase c = BitVec.ofInt 64 (m * 2 ^ 59 + e)

/-- The function on messages modulo 32 a 16-entry table stands for: its negacyclic
extension, `table[m]` on the first half and `-table[m-16]` on the second. -/
def tableAt (table : List Int) (m : Int) : Int :=
  if m % 32 < 16 then table.getD (m % 32).toNat 0 else - table.getD (m % 32 - 16).toNat 0

/-- Word `i` of `x` holds the digit `d i ∈ {-1,0,1}`, with noise at most `k·B`. -/
def Holds {S : Scheme} (ck : ClientKey S) (B k : Nat) (x : Ctxt S.C) (d : Nat → Int) : Prop :=
  ∀ i (h : i < x.length), WordEnc ck B x[i] (d i) k ∧ IsDigit (d i)

/-- `x` is a valid ciphertext of value `v`: every word is trivial or fresh, the digits are
in `{-1,0,1}`, and their signed binary value is `v`. -/
def Valid {S : Scheme} (ck : ClientKey S) (B : Nat) (x : Ctxt S.C) (v : Int) : Prop :=
  ∃ d, Holds ck B 1 x d ∧ valueN d x.length = v

/-! ### Shape of ciphertexts -/

/-- a trivial (unencrypted) zero word -/
def TrivialZero {C : Type} (w : Word C) : Prop := w.ct = .triv 0

/-- an encrypted word -/
def Encrypted {C : Type} (w : Word C) : Prop := ∃ c, w.ct = .ct c

/-- `n` is the length of `x` without the trivial zeros at its most significant end -/
def StrippedLen {C : Type} (x : Ctxt C) (n : Nat) : Prop :=
  n ≤ x.length ∧ (∀ i (h : i < x.length), n ≤ i → TrivialZero x[i]) ∧
    (0 < n → ∃ h : n - 1 < x.length, ¬ TrivialZero x[n - 1])

/-- `r` is the number of trivial zeros at the least significant end of `x`, followed by
another word -/
def LowZeros {C : Type} (x : Ctxt C) (r : Nat) : Prop :=
  (∀ i (h : i < x.length), i < r → TrivialZero x[i]) ∧
    ∃ h : r < x.length, ¬ TrivialZero x[r]

/-- all words are trivial (unencrypted) -/
def AllTrivial {C : Type} (x : Ctxt C) : Prop := ∀ w ∈ x, ∃ p, w.ct = .triv p

/-- all words are encrypted, with the shipped message modulus -/
def AllEncrypted {C : Type} (x : Ctxt C) : Prop := ∀ w ∈ x, Encrypted w ∧ w.msgMod = 32

/-- Same number of words; corresponding words are both encrypted, or both trivial with the same
plaintext. -/
def SameShape {C C' : Type} (x : Ctxt C) (x' : Ctxt C') : Prop :=
  x.length = x'.length ∧ ∀ i (h : i < x.length) (h' : i < x'.length),
    x[i].msgMod = x'[i].msgMod ∧
    match x[i].ct, x'[i].ct with
    | .ct _, .ct _ => True
    | .triv p, .triv p' => p = p'
    | _, _ => False

/-! ### Exact integer semantics of a network -/

/-- `∑ wᵢ·aᵢ` over the common length -/
def dotZ : List Int → List Int → Int
  | w :: ws, a :: as => w * a + dotZ ws as
  | _, _ => 0

/-- maximum of a list, 0 for the empty list -/
def maxZ : List Int → Int
  | [] => 0
  | [a] => a
  | a :: b :: l => max a (maxZ (b :: l))

/-- output of one perceptron -/
def percZ (p : Perceptron) (input : List Int) : Int :=
  match p.t with
  | .MAX => maxZ (List.zipWith (· * ·) p.w input) + p.b
  | .LIN => dotZ p.w input + p.b
  | .ACT => max 0 (dotZ p.w input + p.b)

/-- outputs of a network: each layer applied to the outputs of the previous one; a network
without layers has no outputs -/
def netZ : List (List Perceptron) → List Int → List Int
  | [], _ => []
  | [l], input => l.map fun p => percZ p input
  | l :: ls, input => netZ ls (l.map fun p => percZ p input)

/-! ### Programs over the interface -/

/-- One call of the arithmetic interface; operands are numbers of earlier results (or
inputs), so intermediate results can be shared. -/
inductive Instr where
  | zero
  | opp (i : Nat)
  | shift (i k : Nat)
  | add (i j : Nat)
  | sub (i j : Nat)
  | addConst (i : Nat) (k : Int)
  | scalarMul (k : Int) (i : Nat)
  | sgn (i : Nat)
  | max (i j : Nat)
  | relu (i : Nat)
  | mul (i j : Nat)
  | squ (i : Nat)
  | roundAt (i p : Nat)
  deriving DecidableEq, Repr

/-- the call made by an instruction -/
def Instr.run {T : Type} (A : Arith T) (r : List T) : Instr → M T
  | .zero => pure A.zero
  | .opp i => do let x ← idx r i; A.opp x
  | .shift i k => do let x ← idx r i; A.shift x k
  | .add i j => do let x ← idx r i; let y ← idx r j; A.add x y
  | .sub i j => do let x ← idx r i; let y ← idx r j; A.sub x y
  | .addConst i k => do let x ← idx r i; A.addConst x k
  | .scalarMul k i => do let x ← idx r i; A.scalarMul k x
  | .sgn i => do let x ← idx r i; A.sgn x
  | .max i j => do let x ← idx r i; let y ← idx r j; A.max x y
  | .relu i => do let x ← idx r i; A.relu x
  | .mul i j => do let x ← idx r i; let y ← idx r j; A.mul x y
  | .squ i => do let x ← idx r i; A.squ x
  | .roundAt i p => do let x ← idx r i; A.roundAt x p

/-- running a program: every result is appended to the registers -/
def runProg {T : Type} (A : Arith T) : List Instr → List T → M (List T)
  | [], r => pure r
  | i :: is, r => do
    let z ← i.run A r
    runProg A is (r ++ [z])

/-- the exact integer meaning of an instruction -/
def Instr.val (r : List Int) : Instr → Int
  | .zero => 0
  | .opp i => - r.getD i 0
  | .shift i k => r.getD i 0 * 2 ^ k
  | .add i j => r.getD i 0 + r.getD j 0
  | .sub i j => r.getD i 0 - r.getD j 0
  | .addConst i k => r.getD i 0 + k
  | .scalarMul k i => k * r.getD i 0
  | .sgn i => (r.getD i 0).sign
  | .max i j => Max.max (r.getD i 0) (r.getD j 0)
  | .relu i => Max.max 0 (r.getD i 0)
  | .mul i j => r.getD i 0 * r.getD j 0
  | .squ i => r.getD i 0 ^ 2
  | .roundAt i p => if p = 0 then r.getD i 0 else (r.getD i 0 + 2 ^ (p - 1)) / 2 ^ p * 2 ^ p

/-- the exact integer meaning of a program -/
def valProg : List Instr → List Int → List Int
  | [], r => r
  | i :: is, r => valProg is (r ++ [i.val r])

/-- Operands refer to earlier results, scalars are `i32`, added constants are `i64` other
than `i64::MIN`. -/
def Instr.wf (n : Nat) : Instr → Prop
  | .zero => True
  | .opp i | .shift i _ | .sgn i | .relu i | .squ i | .roundAt i _ => i < n
  | .add i j | .sub i j | .max i j | .mul i j => i < n ∧ j < n
  | .addConst i k => i < n ∧ -2 ^ 63 < k ∧ k < 2 ^ 63
  | .scalarMul k i => i < n ∧ -2 ^ 31 ≤ k ∧ k < 2 ^ 31

instance (n : Nat) (i : Instr) : Decidable (i.wf n) := by
  cases i <;> unfold Instr.wf <;> infer_instance

/-- well-formed program on `n` registers -/
def wfProg : List Instr → Nat → Prop
  | [], _ => True
  | i :: is, n => i.wf n ∧ wfProg is (n + 1)

instance : (p : List Instr) → (n : Nat) → Decidable (wfProg p n)
  | [], _ => inferInstanceAs (Decidable True)
  | i :: is, n =>
    have := instDecidableWfProg is (n + 1)
    inferInstanceAs (Decidable (i.wf n ∧ wfProg is (n + 1)))

/-- number of bits of `k` -/
def bits (k : Nat) : Nat := if k = 0 then 0 else k.log2 + 1

/-- Upper bound of the number of words of a product of two operands of `l` words. -/
def mulLen (l : Nat) : Nat := if l < 16 ∨ l = 17 then 2 * l else if l ≤ 31 then 2 * l + 1 else 2 * l + 2

/-- Upper bound of the number of words of a square. -/
def squLen (l : Nat) : Nat :=
  [0, 1, 4, 6, 9, 12, 13, 15, 18, 20, 23, 25, 26, 28, 30, 32, 35, 37, 39, 41, 44, 46, 48, 50, 51, 53,
    55, 57, 59, 61, 63, 65, 68].getD l 0

/-- Upper bound of the number of words of a result from those of the operands; `none` when a
factor may have more than 32 words. -/
def Instr.len (r : List Nat) : Instr → Option Nat
  | .zero => some 0
  | .opp i => some (r.getD i 0)
  | .shift i k => some (r.getD i 0 + k)
  | .add i j => some (Max.max (r.getD i 0) (r.getD j 0) + 1)
  | .sub i j => some (Max.max (r.getD i 0) (r.getD j 0) + 1)
  | .addConst i k => some (Max.max (r.getD i 0) (bits k.natAbs) + 1)
  | .scalarMul k i => some (r.getD i 0 + bits k.natAbs + 7)
  | .sgn i => some (min (r.getD i 0) 1)
  | .max i j => some (Max.max (r.getD i 0) (r.getD j 0))
  | .relu i => some (r.getD i 0)
  | .mul i j => if Max.max (r.getD i 0) (r.getD j 0) ≤ 32 then some (mulLen (Max.max (r.getD i 0) (r.getD j 0))) else none
  | .squ i => if r.getD i 0 ≤ 32 then some (squLen (r.getD i 0)) else none
  | .roundAt i p => some (Max.max (r.getD i 0) (p + 1) + 1)

/-- The length bounds of all registers. -/
def lenProg : List Instr → List Nat → Option (List Nat)
  | [], r => some r
  | i :: is, r => match i.len r with
    | some l => lenProg is (r ++ [l])
    | none => none

end Parm
