import Verif.Proof.Encryption
import Verif.Proof.Instance

/-!
# A conforming scheme with the largest admissible drift

The smallest admissible polynomial (`N = 32`: one box of the table per message), so that the rounding of a phase to the
`2N`-grid is off by up to `2^57`, and noise `2^53` that always points away from zero.  It meets the contract of every
correctness theorem; it serves to show what may go wrong when an operation is used outside of its contract.
-/

namespace Parm.Edge

/-- position on the `2N = 64` grid nearest to the phase -/
def position (p : BitVec 64) : Nat := (p.toNat + 2 ^ 57) / 2 ^ 58 % 64

/-- the noise of a fresh bootstrap -/
def noise (p : BitVec 64) : Int := if p.toNat < 2 ^ 58 then 2 ^ 53 else -2 ^ 53

def scheme : Scheme where
  C := BitVec 64
  add a b := a + b
  neg a := -a
  mulC a k := a * k
  addPt a p := a + p
  pbs acc c := negacyclic acc (position c) + BitVec.ofInt 64 (noise c)

def ck : ClientKey scheme where
  phase c := c
  encrypt _ mu := mu * 576460752303423488#64 + BitVec.ofInt 64 (2 ^ 53)

theorem noise_le (p : BitVec 64) : (noise p).natAbs ≤ 2 ^ 53 := by
  unfold noise
  split_ifs <;> decide

theorem position_spec (p : BitVec 64) : ∃ d : Int, d.natAbs ≤ 2 ^ 57 ∧
    p = BitVec.ofInt 64 ((position p : Int) * (2 ^ 64 / (2 * 32) : Nat) + d) := by
  have hp := p.isLt
  obtain ⟨q, hq⟩ : ∃ q : Nat, q = (p.toNat + 2 ^ 57) / 2 ^ 58 := ⟨_, rfl⟩
  have hpos : position p = q % 64 := by rw [hq]; rfl
  refine ⟨(p.toNat : Int) - 2 ^ 58 * q, by omega, ?_⟩
  have e : p = BitVec.ofInt 64 (p.toNat : Int) := by simp
  conv_lhs => rw [e]
  rw [ofInt_eq_iff, hpos]
  refine ⟨q / 64, ?_⟩
  norm_num
  omega

theorem sound (T : Nat) : Sound scheme ck 32 (2 ^ 53) (2 ^ 57) T where
  phase_add _ _ := rfl
  phase_neg _ := rfl
  phase_mulC _ _ := rfl
  phase_addPt _ _ := rfl
  phase_encrypt _ mu _ := by
    refine ⟨2 ^ 53, by decide, ?_⟩
    show mu * 576460752303423488#64 + BitVec.ofInt 64 (2 ^ 53) = _
    rw [ofInt_add', Demo.encode_eq]
  phase_pbs _ c _ _ _ _ _ := by
    obtain ⟨d, hd, hp⟩ := position_spec c
    exact ⟨position c, d, noise c, Nat.mod_lt _ (by norm_num), hd, noise_le _, hp, rfl⟩

/-- the cloud part: shipped parameters, polynomial size 32 -/
def cloud : Cloud :=
  { params := Params.M4C0, msgMod := 32, carryMod := 1, polySize := 32, asc := [], build := .release }

theorem st : Setting scheme ck cloud (2 ^ 53) (2 ^ 57) where
  msgMod := rfl
  carryMod := rfl
  bitPrecision := rfl
  polySize := ⟨5, by norm_num, by norm_num, rfl⟩
  sound := sound _
  tolerance := by
    show tolWeight 100 * 2 ^ 53 + 2 ^ 57 < 2 ^ 58
    norm_num [tolWeight]

/-- the vector `l` encrypted -/
def enc (l : List Int) : Ctxt scheme.C := l.map (encryptWord ck 32 0)

theorem valid_enc (l : List Int) (h : ∀ d ∈ l, IsDigit d) : Valid ck (2 ^ 53) (enc l) (value l) := by
  refine ⟨fun i => l.getD i 0, ?_, ?_⟩
  · intro i hi
    have hi' : i < l.length := by simpa [enc] using hi
    refine ⟨?_, ?_⟩
    · simp only [enc, List.getElem_map, List.getD_eq_getElem?_getD, List.getElem?_eq_getElem hi', Option.getD_some]
      exact encryptWord_spec st _ _
    · simp only [List.getD_eq_getElem?_getD, List.getElem?_eq_getElem hi', Option.getD_some]
      exact h _ (List.getElem_mem hi')
  · simp [enc, value]

end Parm.Edge
