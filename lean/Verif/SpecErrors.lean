import Verif.SpecFailure
import Verif.SpecMerged
import Mathlib.Probability.Moments.SubGaussian

/-!
# Specification of failure probabilities from variances (property C81)

Property C63 takes the probability that a single bootstrap fails as given.  Here it is derived from how the errors of samples
are distributed.  A *sample* is an encryption or an output of a bootstrap; samples are numbered as in `SpecMerged.lean`, so that
equal ciphertexts have the same number.
-/

namespace Parm
open MeasureTheory ProbabilityTheory

/-- the error of a combination of samples: every sample contributes its error as often as it occurs -/
noncomputable def Term.noise (err : ℕ → ℤ) (t : Term) : ℤ := ∑ k ∈ t.comb.1.support, t.comb.1 k * err k

/-- For one outcome of all random choices: `err k` is the error of sample number `k`, `drift t` the distance between the phase
of `t`, one of the words `U`, and the position a bootstrap of `t` looks up. -/
structure Errors (S : Scheme) (ck : ClientKey S) (N : Nat) (err : ℕ → ℤ) (drift : Term → ℤ) (U : Set Term) : Prop where
  linear : Linear S ck
  encrypt : ∀ (seed : Nat) (mu : BitVec 64), mu.toNat < 32 →
    ck.phase (ck.encrypt seed mu) = BitVec.ofInt 64 ((mu.toNat : ℤ) * 2 ^ 59 + err (2 * Nat.pair seed mu.toNat))
  boot : ∀ (acc : List (BitVec 64)) (t : Term), t ∈ U → acc.length = N → ∃ k < 2 * N,
    ck.phase (t.eval S (encryptions ck)) = BitVec.ofInt 64 ((k : ℤ) * (2 ^ 64 / (2 * N) : Nat) + drift t) ∧
    ck.phase (S.pbs acc (t.eval S (encryptions ck))) =
      negacyclic acc k + BitVec.ofInt 64 (err (2 * lookupNo (acc, t.comb) + 1))

/-- The scheme, its keys and its randomness are drawn from a probability space.  Errors of samples are sub-Gaussian with
variance proxy `V`.  The drift of a word of `U` is, up to `R`, a part `mask t` that is sub-Gaussian with `Vd`; this part and the
samples the word is a combination of are independent.  (A bootstrap rounds every coefficient of the mask of a ciphertext, which
is independent of its error, and the body, which is not: rounding the body moves the phase by at most half a step of the look-up,
`R = 2^64 / (4 N)`.) -/
structure RandomErrors {Ω : Type} [MeasurableSpace Ω] (μ : Measure Ω) (S : Ω → Scheme) (ck : ∀ ω, ClientKey (S ω)) (N : Nat)
    (err : ℕ → Ω → ℤ) (mask : Term → Ω → ℤ) (V Vd : NNReal) (R : Nat) (U : Set Term) : Prop where
  errors : ∀ ω, ∃ drift : Term → ℤ, Errors (S ω) (ck ω) N (fun k => err k ω) drift U ∧
    ∀ t ∈ U, (drift t - mask t ω).natAbs ≤ R
  sub : ∀ k, HasSubgaussianMGF (fun ω => (err k ω : ℝ)) V μ
  subMask : ∀ t ∈ U, HasSubgaussianMGF (fun ω => (mask t ω : ℝ)) Vd μ
  indep : ∀ t ∈ U, iIndepFun (fun (i : Option t.comb.1.support) ω => ((i.elim (mask t ω) fun k => err k ω : ℤ) : ℝ)) μ

/-- all words bootstrapped on the way to some ciphertexts -/
def bootedIn (zs : List (Ctxt Term)) : Set Term := {u | ∃ z ∈ zs, ∃ w ∈ z, ∃ t, w.ct = .ct t ∧ u ∈ t.booted}

/-- the chance that a sub-Gaussian error of variance proxy `v` comes within `r` of half a step of the messages (`2^58`), in
either direction -/
noncomputable def tail (r : Nat) (v : ℝ) : ℝ := 2 * Real.exp (-(2 ^ 58 - r) ^ 2 / (2 * v))

end Parm
