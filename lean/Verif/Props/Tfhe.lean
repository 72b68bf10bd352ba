import Verif.Proof.Tfhe
import Verif.Props.Failure

/-!
# C78: the crate on top of the textbook primitives

The theorems about the crate assume the contract `Sound` of the primitives.  Here the contract is derived: the algorithms of
TFHE (`Model/Tfhe.lean`), with keys of any size, any masks and any noise within given bounds, meet it, and the bounds `B` and
`D` are computed from the sizes.  So for these primitives the correctness of encrypted computations holds without assumption,
from the bits of the keys on.

The bounds are worst-case bounds.  With the shipped sizes (about 700 key bits, `N = 2048`) only a probabilistic statement is
possible: `C78_sample` says what has to hold for a single bootstrap, and C63 adds these events up.
-/

namespace Parm.Tfhe
open Finset

/-- **C78**, the contract. -/
theorem C78_contract {P : Par} {K : Secret} {ηks ηbs B : Nat} (hK : K.Bounded ηks ηbs B) (hlog : P.logN ≤ 62)
    (hb1 : 1 ≤ P.pbsBase) (hg1 : P.pbsBase * P.pbsLevel ≤ 63) (hb2 : 1 ≤ P.ksBase) (hg2 : P.ksBase * P.ksLevel ≤ 63)
    (hB : P.n * P.nu ηbs ≤ B) (T : Nat) :
    Sound (scheme P K) (clientKey P K) P.N B (drift P K ηks) T := sound hK hlog hb1 hg1 hb2 hg2 hB T

/-- the sizes allow correct computations whatever the keys, the masks and the noise within the bounds -/
structure Fits (P : Par) (ηks ηbs B : Nat) (quadWeight : Nat) : Prop where
  logN : 5 ≤ P.logN ∧ P.logN ≤ 62
  pbs : 1 ≤ P.pbsBase ∧ P.pbsBase * P.pbsLevel ≤ 63
  ks : 1 ≤ P.ksBase ∧ P.ksBase * P.ksLevel ≤ 63
  /-- blind rotation adds less noise than an encryption may have -/
  noise : P.n * P.nu ηbs ≤ B
  /-- room for the sums before a bootstrap, the key switch and the rounding -/
  room : tolWeight quadWeight * B + (P.ksDrift ηks + (P.n + 1) * 2 ^ (62 - P.logN)) < 2 ^ 58

theorem weight_le (P : Par) (K : Secret) : K.weight P ≤ P.n := by
  unfold Secret.weight
  calc ∑ t ∈ range P.n, (K.small t).toNat ≤ ∑ _t ∈ range P.n, 1 := sum_le_sum fun t _ => by cases K.small t <;> decide
    _ = P.n := by simp

theorem C78_setting {P : Par} {K : Secret} {ηks ηbs B : Nat} {pc : Cloud} (hK : K.Bounded ηks ηbs B)
    (hf : Fits P ηks ηbs B pc.params.quadWeight) (h1 : pc.msgMod = 32) (h2 : pc.carryMod = 1)
    (h3 : pc.params.bitPrecision = 5) (h4 : pc.polySize = P.N) :
    Setting (scheme P K) (clientKey P K) pc B (drift P K ηks) where
  msgMod := h1
  carryMod := h2
  bitPrecision := h3
  polySize := ⟨P.logN, hf.logN.1, hf.logN.2.trans (by norm_num), h4⟩
  sound := h4 ▸ sound hK hf.logN.2 hf.pbs.1 hf.pbs.2 hf.ks.1 hf.ks.2 hf.noise _
  tolerance := by
    refine lt_of_le_of_lt ?_ hf.room
    unfold drift
    have := Nat.mul_le_mul_right (2 ^ (62 - P.logN)) (Nat.succ_le_succ (weight_le P K))
    simp only [Nat.succ_eq_add_one] at this
    omega

/-- **C78**, whole computations: encrypt numbers, run a program of operations on them, decrypt.  With primitives of fitting
sizes, whatever the key bits, the masks and the noise: the run returns and every result of up to 63 words is exact. -/
theorem C78_program {P : Par} {K : Secret} {ηks ηbs B : Nat} {pc : Cloud} (hK : K.Bounded ηks ηbs B)
    (hf : Fits P ηks ηbs B pc.params.quadWeight) (h1 : pc.msgMod = 32) (h2 : pc.carryMod = 1)
    (h3 : pc.params.bitPrecision = 5) (h4 : pc.polySize = P.N) (sh : Shipped pc)
    (build : Build) (seed : Nat → Nat) (ms : List (Int × Nat))
    (hm : ∀ mw ∈ ms, -2 ^ 63 < mw.1 ∧ mw.1 < 2 ^ 63 ∧ mw.2 ≤ 63 ∧ mw.1.natAbs < 2 ^ mw.2)
    (p : List Instr) (hwf : wfProg p ms.length) {ls : List Nat} (hlen : lenProg p (ms.map (·.2)) = some ls) :
    Yields (do
        let xs ← encryptInputs (clientKey P K) pc.msgMod build seed ms
        runProg (arithCt (scheme P K) pc) p xs)
      (fun zs => zs.length = (valProg p (ms.map (·.1))).length ∧ ∀ i (hi : i < zs.length), zs[i].length ≤ 63 →
        Returns (parmDecrypt (clientKey P K) build zs[i]) ((valProg p (ms.map (·.1))).getD i 0) 0) := by
  have st := C78_setting hK hf h1 h2 h3 h4
  refine Yields.bind (encryptInputs_spec st build ms seed hm) fun xs hx => ?_
  have e : xs.length = ms.length := by rw [← hx.1]; simp
  refine (runProg_valid st p (ScalarsOk.use (Or.inr sh)) hx (by rwa [e]) hlen).mono ?_
  rintro zs ⟨z1, _, z3⟩
  exact ⟨z1.symm, fun i hi h63 => (z3 i hi).1.decrypt st build h63⟩

/-! ### Single samples -/

/-- **C78**, the linear operations are exact on phases, for all sizes. -/
theorem C78_linear (P : Par) (K : Secret) : Linear (scheme P K) (clientKey P K) where
  phase_add x y := by
    show Lwe.phase P.big K.large _ = Lwe.phase P.big K.large x + Lwe.phase P.big K.large y
    unfold Lwe.phase scheme
    simp only [mul_add, sum_add_distrib]
    ring
  phase_neg x := by
    show Lwe.phase P.big K.large _ = - Lwe.phase P.big K.large x
    unfold Lwe.phase scheme
    simp only [mul_neg, sum_neg_distrib]
    ring
  phase_mulC x k := by
    show Lwe.phase P.big K.large _ = Lwe.phase P.big K.large x * k
    unfold Lwe.phase scheme
    simp only [sub_mul, sum_mul, mul_assoc]
  phase_addPt x p := by
    show Lwe.phase P.big K.large _ = Lwe.phase P.big K.large x + p
    unfold Lwe.phase scheme
    ring

/-- what is lost when a coefficient is rounded to a position -/
def lost (P : Par) (x : BitVec 64) : BitVec 64 := x - BitVec.ofInt 64 (position P.logN x * 2 ^ (63 - P.logN))

/-- **C78**, the drift of a bootstrap, exactly: rounding of the body and of the mask coefficients at the ones of the small key,
noise of the key switching key times the digits of the mask, rounding of the decomposition at the ones of the large key. -/
theorem C78_drift (P : Par) (K : Secret) (c : Lwe (Nat × Nat)) :
    c.phase P.big K.large = BitVec.ofInt 64 (endPos P K (keySwitch P (K.ksk P) c) * 2 ^ (63 - P.logN)) +
      (lost P (keySwitch P (K.ksk P) c).b -
        ∑ t ∈ range P.n, BitVec.ofInt 64 (K.small t).toInt * lost P ((keySwitch P (K.ksk P) c).a t)) +
      ∑ p ∈ P.big, ∑ t ∈ range P.ksLevel, BitVec.ofInt 64 (dec P.ksBase P.ksLevel (c.a p) t * K.ksNoise p t) +
      ∑ p ∈ P.big, BitVec.ofInt 64 (K.large p).toInt *
        (∑ t ∈ range P.ksLevel, BitVec.ofInt 64 (dec P.ksBase P.ksLevel (c.a p) t) * gadget P.ksBase P.ksLevel t - c.a p) := by
  have h0 := keySwitch_phase P K c
  have h1 : ∑ p ∈ P.big, ∑ t ∈ range P.ksLevel,
        BitVec.ofInt 64 (dec P.ksBase P.ksLevel (c.a p) t) * (K.ksk P p t).phase (range P.n) K.small =
      ∑ p ∈ P.big, BitVec.ofInt 64 (K.large p).toInt *
        ∑ t ∈ range P.ksLevel, BitVec.ofInt 64 (dec P.ksBase P.ksLevel (c.a p) t) * gadget P.ksBase P.ksLevel t +
      ∑ p ∈ P.big, ∑ t ∈ range P.ksLevel, BitVec.ofInt 64 (dec P.ksBase P.ksLevel (c.a p) t * K.ksNoise p t) := by
    rw [← sum_add_distrib]
    refine sum_congr rfl fun p _ => ?_
    rw [mul_sum, ← sum_add_distrib]
    refine sum_congr rfl fun t _ => ?_
    unfold Secret.ksk
    rw [phase_lweEnc, ofInt_mul']
    ring
  have h2 : BitVec.ofInt 64 (endPos P K (keySwitch P (K.ksk P) c) * 2 ^ (63 - P.logN)) +
      (lost P (keySwitch P (K.ksk P) c).b -
        ∑ t ∈ range P.n, BitVec.ofInt 64 (K.small t).toInt * lost P ((keySwitch P (K.ksk P) c).a t)) =
      (keySwitch P (K.ksk P) c).phase (range P.n) K.small := by
    rw [ofInt_endPos]
    unfold lost Lwe.phase
    simp only [mul_sub, sum_sub_distrib]
    ring
  rw [h2, h0, h1]
  simp only [mul_sub, sum_sub_distrib]
  unfold Lwe.phase
  ring

/-- **C78**, one bootstrap: if the drift (the three sums of `C78_drift`) is at most `D` and the noise of the blind rotation at
most `B`, this bootstrap is as C63 asks. -/
theorem C78_sample (P : Par) (K : Secret) (hlog : P.logN ≤ 62) {B D : Nat} (T : Nat) (acc : List (BitVec 64))
    (c : Lwe (Nat × Nat))
    (hd : Near (c.phase P.big K.large)
      (BitVec.ofInt 64 (endPos P K (keySwitch P (K.ksk P) c) * 2 ^ (63 - P.logN))) D)
    (hn : Near ((blindRotate P (K.bsk P) acc (keySwitch P (K.ksk P) c)).phase P K.large 0)
      (ext P.N (fun j => acc.getD j 0) (endPos P K (keySwitch P (K.ksk P) c))) B) :
    BootOk (clientKey P K) P.N B D T acc c := by
  rintro hl -
  rw [← phase_extract, ext_negacyclic (N_pos P) acc hl] at hn
  obtain ⟨d, hd1, hd2⟩ := hd
  obtain ⟨e, he1, he2⟩ := hn
  obtain ⟨k1, k2⟩ := position_of_end P hlog (endPos P K (keySwitch P (K.ksk P) c)) d
  exact ⟨_, d, e, k1, hd1, he1, hd2.trans k2, he2⟩

/-! ### Cases -/

namespace Case

/-- 64 key bits, one polynomial of size 2048, decompositions with 3 digits of 12 bits and 8 digits of 4 bits -/
def par : Par := { k := 1, logN := 11, n := 64, pbsBase := 12, pbsLevel := 3, ksBase := 4, ksLevel := 8 }

/-- These sizes fit the shipped `quad_weight` for all noises up to `2^15` in the bootstrapping key, `2^30` in the key switching
key and `2^53` in encryptions. -/
theorem fits : Fits par (2 ^ 30) (2 ^ 15) (2 ^ 53) Params.M4C0.quadWeight where
  logN := by decide
  pbs := by decide
  ks := by decide
  noise := by norm_num [par, Par.nu, Par.N]
  room := by norm_num [par, Par.ksDrift, Par.N, tolWeight, Params.M4C0]

/-- some key of this size: every third bit is a one, masks and noises by linear formulas -/
def key : Secret where
  small t := t % 3 == 1
  large p := (p.1 + p.2) % 3 == 0
  ksMask p t j := BitVec.ofNat 64 ((p.2 * 1000003 + t * 7919 + j) * 6364136223846793005)
  ksNoise p t := ((p.2 * 31 + t * 17) % 2001 : Nat) - 1000
  bsMask r u t v j := BitVec.ofNat 64 ((r * 1000003 + u * 7919 + t * 104729 + v * 13 + j) * 6364136223846793005)
  bsNoise r u t j := ((r * 31 + u * 17 + t * 7 + j * 3) % 201 : Nat) - 100
  encMask seed p := BitVec.ofNat 64 ((seed * 1000003 + p.2) * 6364136223846793005)
  encNoise seed := Demo.noise seed

theorem bounded : key.Bounded (2 ^ 30) (2 ^ 15) (2 ^ 53) where
  ks p t := by
    show ((((p.2 * 31 + t * 17) % 2001 : Nat) : Int) - 1000).natAbs ≤ _
    omega
  bs r u t j := by
    show ((((r * 31 + u * 17 + t * 7 + j * 3) % 201 : Nat) : Int) - 100).natAbs ≤ _
    omega
  enc := Demo.noise_le

/-- the program of C63: `(x + y)·x` and its sign, on encryptions of 5 and -6 -/
example : Yields (do
      let xs ← encryptInputs (clientKey par key) Demo.cloud12.msgMod .release id [(5, 3), (-6, 4)]
      runProg (arithCt (scheme par key) Demo.cloud12) [.add 0 1, .mul 2 0, .sgn 3] xs)
    (fun zs => zs.length = 5 ∧ ∀ i (hi : i < zs.length), zs[i].length ≤ 63 →
      Returns (parmDecrypt (clientKey par key) .release zs[i]) (([5, -6, -1, -5, -1] : List Int).getD i 0) 0) :=
  C78_program bounded fits rfl rfl rfl rfl Demo.shipped12 .release id [(5, 3), (-6, 4)] (by decide)
    [.add 0 1, .mul 2 0, .sgn 3] (by decide) (ls := [3, 4, 5, 10, 1]) (by decide)

/-- the worst case does not fit with the number of key bits as in the shipped parameter set (over 700) and this `N`: one
rounding per bit is more than the room -/
theorem not_fits {P : Par} {ηks ηbs B q : Nat} (hn : 127 ≤ P.n) (h11 : P.logN ≤ 11) : ¬ Fits P ηks ηbs B q := by
  intro h
  have := h.room
  have h1 : 2 ^ 51 ≤ 2 ^ (62 - P.logN) := Nat.pow_le_pow_right (by norm_num) (by omega)
  have h2 : 128 * 2 ^ 51 ≤ (P.n + 1) * 2 ^ (62 - P.logN) := Nat.mul_le_mul (by omega) h1
  omega

end Case
end Parm.Tfhe
