import Verif.SpecWeights
import Mathlib.Data.BitVec
import Mathlib.Data.Finsupp.Encodable
import Mathlib.Data.Countable.Basic
import Mathlib.Algebra.Group.Finsupp
import Mathlib.Algebra.Group.Prod

/-!
# Specification of weights over ciphertexts that are the same (property C80)

The weights of property C39 count *terms*: two bootstraps of different terms are different samples.  In an LWE scheme,
however, addition is commutative and associative and `0 · x` is the same ciphertext for all `x`, so that different terms may
be the same ciphertext, and then their noises add up rather than average out.
-/

namespace Parm

/-- The linear operations are those of a group: what `tfhe-rs` does on LWE ciphertexts (vectors over `ℤ/2^64`). -/
structure Lawful (S : Scheme) [AddCommGroup S.C] : Prop where
  add : ∀ a b, S.add a b = a + b
  neg : ∀ a, S.neg a = -a
  mulC : ∀ a k, S.mulC a k = k.toInt • a
  addPt : ∃ pt : BitVec 64 →+ S.C, ∀ a p, S.addPt a p = a + pt p

/-- integer combinations of samples and a plaintext -/
abbrev Comb := (ℕ →₀ ℤ) × BitVec 64

instance : Countable (BitVec 64) := Function.Injective.countable (f := BitVec.toNat) fun _ _ h => BitVec.eq_of_toNat_eq h

/-- a number for every lookup: of the table and the word it is applied to -/
noncomputable def lookupNo : List (BitVec 64) × Comb → ℕ := (exists_injective_nat _).choose

theorem lookupNo_injective : Function.Injective lookupNo := (exists_injective_nat _).choose_spec

/-- the scheme of combinations: a lookup of the same table in the same combination gives the same sample, any other
lookup another sample -/
noncomputable abbrev combScheme : Scheme where
  C := Comb
  add a b := a + b
  neg a := -a
  mulC a k := k.toInt • a
  addPt a p := a + (0, p)
  pbs acc a := (Finsupp.single (2 * lookupNo (acc, a) + 1) 1, 0)

/-- the ciphertext of a term -/
noncomputable def Term.comb (t : Term) : Comb := t.eval combScheme fun i => (Finsupp.single (2 * i) 1, 0)

/-- quadratic weight over different ciphertexts rather than different terms -/
noncomputable def Term.mergedWeight (t : Term) : ℕ := ∑ i ∈ t.comb.1.support, (t.comb.1 i).natAbs ^ 2

end Parm
