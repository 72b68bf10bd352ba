import Verif.Proof.Encryption

/-!
# A scheme satisfying the contract

LWE over `ℤ/2^64` with one mask coefficient and a secret key, nonzero noise (up to `2^53`)
in fresh encryptions and bootstrap outputs, and a bootstrap that rounds to `2N = 4096`
positions.  It shows that the hypotheses of the correctness theorems can be met; all
examples beside the theorems use it.
-/

namespace Parm.Demo

/-- secret key -/
def sk : BitVec 64 := 0x1234567#64

/-- phase `b - a·s` -/
def phase (c : BitVec 64 × BitVec 64) : BitVec 64 := c.2 - c.1 * sk

/-- some noise in `[-2^53, 2^53]` -/
def noise (seed : Nat) : Int := (seed * 2718281828459045 % (2 ^ 54 + 1) : Nat) - 2 ^ 53

/-- a ciphertext of phase `p + noise`, with mask derived from the seed -/
def enc (seed : Nat) (p : BitVec 64) : BitVec 64 × BitVec 64 :=
  let a := BitVec.ofNat 64 (seed * 6364136223846793005 + 1442695040888963407)
  (a, a * sk + p + BitVec.ofInt 64 (noise seed))

/-- position on the `2N = 4096` grid nearest to the phase -/
def position (p : BitVec 64) : Nat := (p.toNat + 2 ^ 51) / 2 ^ 52 % 4096

def scheme : Scheme where
  C := BitVec 64 × BitVec 64
  add a b := (a.1 + b.1, a.2 + b.2)
  neg a := (-a.1, -a.2)
  mulC a k := (a.1 * k, a.2 * k)
  addPt a p := (a.1, a.2 + p)
  pbs acc c := enc c.1.toNat (negacyclic acc (position (phase c)))

def ck : ClientKey scheme where
  phase := phase
  encrypt seed mu := enc seed (mu * 576460752303423488#64)

theorem noise_le (s : Nat) : (noise s).natAbs ≤ 2 ^ 53 := by
  unfold noise
  have : s * 2718281828459045 % (2 ^ 54 + 1) < 2 ^ 54 + 1 := Nat.mod_lt _ (by norm_num)
  omega

theorem phase_enc (s : Nat) (p : BitVec 64) : phase (enc s p) = p + BitVec.ofInt 64 (noise s) := by
  unfold phase enc
  ring

theorem position_spec (p : BitVec 64) : ∃ d : Int, d.natAbs ≤ 2 ^ 51 ∧
    p = BitVec.ofInt 64 ((position p : Int) * (2 ^ 64 / (2 * 2048) : Nat) + d) := by
  have hp := p.isLt
  obtain ⟨q, hq⟩ : ∃ q : Nat, q = (p.toNat + 2 ^ 51) / 2 ^ 52 := ⟨_, rfl⟩
  have hpos : position p = q % 4096 := by rw [hq]; rfl
  refine ⟨(p.toNat : Int) - 2 ^ 52 * q, by omega, ?_⟩
  have e : p = BitVec.ofInt 64 (p.toNat : Int) := by simp
  conv_lhs => rw [e]
  rw [ofInt_eq_iff, hpos]
  refine ⟨q / 4096, ?_⟩
  norm_num
  omega

theorem encode_eq (mu : BitVec 64) :
    mu * 576460752303423488#64 = BitVec.ofInt 64 ((mu.toNat : Int) * 2 ^ 59) := by
  rw [ofInt_mul']
  have h1 : BitVec.ofInt 64 (2 ^ 59) = 576460752303423488#64 := by decide
  rw [h1]
  simp

theorem sound (T : Nat) : Sound scheme ck 2048 (2 ^ 53) (2 ^ 51) T where
  phase_add a b := by show (a.2 + b.2) - (a.1 + b.1) * sk = (a.2 - a.1 * sk) + (b.2 - b.1 * sk); ring
  phase_neg a := by show (-a.2) - (-a.1) * sk = -(a.2 - a.1 * sk); ring
  phase_mulC a k := by show (a.2 * k) - (a.1 * k) * sk = (a.2 - a.1 * sk) * k; ring
  phase_addPt a p := by show (a.2 + p) - a.1 * sk = (a.2 - a.1 * sk) + p; ring
  phase_encrypt seed mu _ := by
    refine ⟨noise seed, noise_le seed, ?_⟩
    have : ck.phase (ck.encrypt seed mu) = phase (enc seed (mu * 576460752303423488#64)) := rfl
    rw [this, phase_enc, ofInt_add', encode_eq]
  phase_pbs acc c _ _ _ _ _ := by
    obtain ⟨d, hd, hp⟩ := position_spec (phase c)
    exact ⟨position (phase c), d, noise c.1.toNat, Nat.mod_lt _ (by norm_num), hd, noise_le _, hp,
      phase_enc _ _⟩

/-- the cloud part: shipped parameters, polynomial size 2048, no chain table -/
def cloud : Cloud :=
  { params := Params.M4C0, msgMod := 32, carryMod := 1, polySize := 2048, asc := [], build := .release }

theorem setting (asc : List (Nat × Asc)) (b : Build) :
    Setting scheme ck { cloud with asc := asc, build := b } (2 ^ 53) (2 ^ 51) where
  msgMod := rfl
  carryMod := rfl
  bitPrecision := rfl
  polySize := ⟨11, by norm_num, by norm_num, rfl⟩
  sound := sound _
  tolerance := by
    show tolWeight 100 * 2 ^ 53 + 2 ^ 51 < 2 ^ 58
    norm_num [tolWeight]

/-- the vector `l` encrypted under the demo key -/
def encVec (l : List Int) : Ctxt scheme.C :=
  (List.range l.length).map fun j => encryptWord ck 32 j (l.getD j 0)

theorem valid_encVec (l : List Int) (h : ∀ d ∈ l, IsDigit d) : Valid ck (2 ^ 53) (encVec l) (value l) := by
  refine ⟨fun i => l.getD i 0, ?_, ?_⟩
  · intro i hi
    have hi' : i < l.length := by simpa [encVec] using hi
    refine ⟨?_, ?_⟩
    · simp only [encVec, List.getElem_map, List.getElem_range]
      exact encryptWord_spec (setting [] .release) _ _
    · simp only [List.getD_eq_getElem?_getD, List.getElem?_eq_getElem hi', Option.getD_some]
      exact h _ (List.getElem_mem hi')
  · simp [encVec, value]

/-- 5 as a three-word ciphertext -/
theorem valid5 : Valid ck (2 ^ 53) (encVec [1, 0, 1]) 5 :=
  valid_encVec [1, 0, 1] (by unfold IsDigit; decide)

/-- -6 as a four-word ciphertext in a redundant representation -/
theorem validm6 : Valid ck (2 ^ 53) (encVec [0, 1, 0, -1]) (-6) :=
  valid_encVec [0, 1, 0, -1] (by unfold IsDigit; decide)

/-- the demo setting, release build without chain table -/
theorem st : Setting scheme ck cloud (2 ^ 53) (2 ^ 51) := setting [] .release

end Parm.Demo
