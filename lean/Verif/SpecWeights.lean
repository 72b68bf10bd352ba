import Verif.Model.ScalarMul
import Mathlib.Algebra.BigOperators.Group.Finset.Basic
import Mathlib.Data.Finset.Dedup

/-!
# Specification of linear and quadratic weights (property C39)

The noise of a word is a linear combination of the noises of independent samples: words encrypted by
the client and outputs of bootstraps.  The *free scheme* keeps ciphertexts as terms, so that the
multiplicity of every sample in a word, and all words that were bootstrapped on the way to it, can be
read off.  Every scheme is an image of it (`C39_faithful`).
-/

namespace Parm

/-- ciphertexts as terms over the operations of a `Scheme` -/
inductive Term where
  /-- a sample given from outside -/
  | input (i : Nat)
  | boot (acc : List (BitVec 64)) (t : Term)
  | add (s t : Term)
  | neg (t : Term)
  | mulC (t : Term) (k : BitVec 64)
  | addPt (t : Term) (p : BitVec 64)
  deriving DecidableEq

/-- the scheme of terms -/
abbrev freeScheme : Scheme where
  C := Term
  add := .add
  neg := .neg
  mulC := .mulC
  addPt := .addPt
  pbs := .boot

namespace Term

/-- the value of a term in a scheme, given the samples from outside -/
def eval (S : Scheme) (ρ : Nat → S.C) : Term → S.C
  | .input i => ρ i
  | .boot acc t => S.pbs acc (t.eval S ρ)
  | .add s t => S.add (s.eval S ρ) (t.eval S ρ)
  | .neg t => S.neg (t.eval S ρ)
  | .mulC t k => S.mulC (t.eval S ρ) k
  | .addPt t p => S.addPt (t.eval S ρ) p

/-- `t.mult a`: multiplicity of the sample `a` (an `input` or `boot` term) in `t`; a bootstrap makes a
new sample -/
def mult : Term → Term → Int
  | .input i, a => if a = .input i then 1 else 0
  | .boot acc t, a => if a = .boot acc t then 1 else 0
  | .add s t, a => s.mult a + t.mult a
  | .neg t, a => - t.mult a
  | .mulC t k, a => k.toInt * t.mult a
  | .addPt t _, a => t.mult a

/-- the samples a term is a combination of -/
def samples : Term → Finset Term
  | .input i => {.input i}
  | .boot acc t => {.boot acc t}
  | .add s t => s.samples ∪ t.samples
  | .neg t => t.samples
  | .mulC t _ => t.samples
  | .addPt t _ => t.samples

/-- quadratic weight: sum of the squared multiplicities -/
def quadWeight (t : Term) : Nat := ∑ a ∈ t.samples, (t.mult a).natAbs ^ 2

/-- linear weight: sum of the absolute multiplicities -/
def linWeight (t : Term) : Nat := ∑ a ∈ t.samples, (t.mult a).natAbs

/-- all terms that are bootstrapped on the way to a term -/
def booted : Term → List Term
  | .input _ => []
  | .boot _ t => t :: t.booted
  | .add s t => s.booted ++ t.booted
  | .neg t => t.booted
  | .mulC t _ => t.booted
  | .addPt t _ => t.booted

end Term

/-- Every word bootstrapped on the way to one of the words of `z` satisfies `P`. -/
def AllBooted (P : Term → Prop) (z : Ctxt Term) : Prop :=
  ∀ w ∈ z, ∀ t, w.ct = .ct t → ∀ u ∈ t.booted, P u

/-- Encrypted words are samples given from outside, each occurring once; trivial words may be anywhere. -/
def Independent (x : Ctxt Term) : Prop :=
  (∀ w ∈ x, w.isTriv = false → ∃ i, w.ct = .ct (.input i)) ∧
  ∀ i j (hi : i < x.length) (hj : j < x.length) t, x[i].ct = .ct t → x[j].ct = .ct t → i = j

/-- Words with the shipped message modulus; trivial ones hold a digit. -/
def WellFormed {C : Type} (x : Ctxt C) : Prop :=
  ∀ w ∈ x, w.msgMod = 32 ∧ ∀ p, w.ct = .triv p → ∃ d : Int, (d = -1 ∨ d = 0 ∨ d = 1) ∧ p = BitVec.ofInt 64 (d * 2 ^ 59)

/-- Whenever `m` returns, everything bootstrapped for the result satisfies `P`. -/
def Boots (P : Term → Prop) (m : M (Ctxt Term)) : Prop := ∀ s z s', m s = .ok (z, s') → AllBooted P z

/-- the quadratic weights of everything bootstrapped for a ciphertext -/
def quadWeights (z : Ctxt Term) : List Nat :=
  z.flatMap fun w => match w.ct with
    | .ct t => t.booted.map Term.quadWeight
    | .triv _ => []

end Parm
