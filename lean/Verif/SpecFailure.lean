import Verif.Spec
import Verif.SpecWeights
import Mathlib.Data.Nat.Pairing

/-!
# Specification of failure probabilities (property C63)

The contract `Sound` promises that all bootstraps and encryptions have a bounded noise.  In reality each of them keeps
the bound with a probability close to one only.  Here the contract is split into what always holds (`Linear`) and the
promises made for a single encryption (`EncryptOk`) and a single bootstrap (`BootOk`).
-/

namespace Parm

/-- the linear operations act on phases exactly -/
structure Linear (S : Scheme) (ck : ClientKey S) : Prop where
  phase_add : ∀ a b, ck.phase (S.add a b) = ck.phase a + ck.phase b
  phase_neg : ∀ a, ck.phase (S.neg a) = - ck.phase a
  phase_mulC : ∀ a k, ck.phase (S.mulC a k) = ck.phase a * k
  phase_addPt : ∀ a p, ck.phase (S.addPt a p) = ck.phase a + p

/-- this encryption has a noise of at most `B` -/
def EncryptOk {S : Scheme} (ck : ClientKey S) (B : Nat) (seed : Nat) (mu : BitVec 64) : Prop :=
  ∃ e : Int, e.natAbs ≤ B ∧ ck.phase (ck.encrypt seed mu) = BitVec.ofInt 64 ((mu.toNat : Int) * 2 ^ 59 + e)

/-- this bootstrap, if its input has a noise of at most `T`, looks up a position within `D` of the phase and
has an output noise of at most `B` -/
def BootOk {S : Scheme} (ck : ClientKey S) (N B D T : Nat) (acc : List (BitVec 64)) (c : S.C) : Prop :=
  acc.length = N → (∃ m n : Int, n.natAbs ≤ T ∧ ck.phase c = BitVec.ofInt 64 (m * 2 ^ 59 + n)) →
    ∃ (k : Nat) (d e : Int), k < 2 * N ∧ d.natAbs ≤ D ∧ e.natAbs ≤ B ∧
      ck.phase c = BitVec.ofInt 64 ((k : Int) * (2 ^ 64 / (2 * N) : Nat) + d) ∧
      ck.phase (S.pbs acc c) = negacyclic acc k + BitVec.ofInt 64 e

/-- all samples a term is made of, directly or through bootstraps -/
def Term.parts : Term → Finset Term
  | .input i => {.input i}
  | .boot acc t => insert (.boot acc t) t.parts
  | .add s t => s.parts ∪ t.parts
  | .neg t => t.parts
  | .mulC t _ => t.parts
  | .addPt t _ => t.parts

/-- What the correctness theorems ask of the parameters: the setting `Setting` without the contract; and the drift
allowed to a bootstrap is at least the error of rounding to `2N` positions. -/
structure Sizes (pc : Cloud) (B D : Nat) : Prop where
  msgMod : pc.msgMod = 32
  carryMod : pc.carryMod = 1
  bitPrecision : pc.params.bitPrecision = 5
  polySize : ∃ logN, 5 ≤ logN ∧ logN ≤ 63 ∧ pc.polySize = 2 ^ logN
  tolerance : tolWeight pc.params.quadWeight * B + D < 2 ^ 58
  drift : 2 ^ 62 / pc.polySize ≤ D

/-- the encryptions under a key; number `i` stands for a pair of a seed and a message -/
def encryptions {S : Scheme} (ck : ClientKey S) (i : Nat) : S.C :=
  ck.encrypt i.unpair.1 (BitVec.ofNat 64 i.unpair.2)

/-- the promise made for a sample is kept -/
def PartOk {S : Scheme} (ck : ClientKey S) (N B D T : Nat) : Term → Prop
  | .input i => (BitVec.ofNat 64 i.unpair.2).toNat < 32 → EncryptOk ck B i.unpair.1 (BitVec.ofNat 64 i.unpair.2)
  | .boot acc t => BootOk ck N B D T acc (t.eval S (encryptions ck))
  | _ => True

/-- encryption into terms -/
def freeKey : ClientKey freeScheme := ⟨fun _ => 0, fun seed mu => .input (Nat.pair seed mu.toNat)⟩

end Parm
