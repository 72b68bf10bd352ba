import Verif.Proof.Encryption
import Verif.Proof.Instance

/-!
# Schemes at the very edge of the noise budget

The smallest admissible polynomial (`N = 32`), fresh noise always exactly `+B`, and a phase rounded upwards on the
`2N`-grid whenever the drift bound `D` allows it.  Such a scheme is sound for every `B` and every `D ≥ 2^57`.
-/

namespace Parm.Tight

/-- the position above the phase if it is at most `D` away, the one below otherwise -/
def position (D : Nat) (p : BitVec 64) : Nat := (p.toNat + D) / 2 ^ 58 % 64

def scheme (B D : Nat) : Scheme where
  C := BitVec 64
  add a b := a + b
  neg a := -a
  mulC a k := a * k
  addPt a p := a + p
  pbs acc c := negacyclic acc (position D c) + BitVec.ofInt 64 B

def ck (B D : Nat) : ClientKey (scheme B D) where
  phase c := c
  encrypt _ mu := mu * 576460752303423488#64 + BitVec.ofInt 64 B

theorem position_spec (D : Nat) (h1 : 2 ^ 57 ≤ D) (h2 : D ≤ 2 ^ 58) (p : BitVec 64) : ∃ d : Int, d.natAbs ≤ D ∧
    p = BitVec.ofInt 64 ((position D p : Int) * (2 ^ 64 / (2 * 32) : Nat) + d) := by
  have hp := p.isLt
  obtain ⟨q, hq⟩ : ∃ q : Nat, q = (p.toNat + D) / 2 ^ 58 := ⟨_, rfl⟩
  have hpos : position D p = q % 64 := by rw [hq]; rfl
  refine ⟨(p.toNat : Int) - 2 ^ 58 * q, by omega, ?_⟩
  have e : p = BitVec.ofInt 64 (p.toNat : Int) := by simp
  conv_lhs => rw [e]
  rw [ofInt_eq_iff, hpos]
  refine ⟨q / 64, ?_⟩
  norm_num
  omega

theorem sound (B D : Nat) (h1 : 2 ^ 57 ≤ D) (h2 : D ≤ 2 ^ 58) (T : Nat) : Sound (scheme B D) (ck B D) 32 B D T where
  phase_add _ _ := rfl
  phase_neg _ := rfl
  phase_mulC _ _ := rfl
  phase_addPt _ _ := rfl
  phase_encrypt _ mu _ := by
    refine ⟨B, by simp, ?_⟩
    show mu * 576460752303423488#64 + BitVec.ofInt 64 B = _
    rw [ofInt_add', Demo.encode_eq]
  phase_pbs _ c _ _ _ _ _ := by
    obtain ⟨d, hd, hp⟩ := position_spec D h1 h2 c
    exact ⟨position D c, d, B, Nat.mod_lt _ (by norm_num), hd, by simp, hp, rfl⟩

/-- the cloud part: shipped parameters but for `quad_weight`, polynomial size 32 -/
def cloud (q : Nat) : Cloud :=
  { params := { Params.M4C0 with quadWeight := q }, msgMod := 32, carryMod := 1, polySize := 32, asc := [],
    build := .release }

/-- the vector `l` encrypted -/
def enc (B D : Nat) (l : List Int) : Ctxt (scheme B D).C := l.map (encryptWord (ck B D) 32 0)

theorem encryptWord_holds (B D : Nat) (h1 : 2 ^ 57 ≤ D) (h2 : D ≤ 2 ^ 58) (seed : Nat) (m : Int) :
    WordEnc (ck B D) B (encryptWord (ck B D) 32 seed m) m 1 := by
  refine ⟨rfl, ?_⟩
  show ∃ e : Int, _ ∧ (ck B D).phase ((ck B D).encrypt seed (miToMu 32 m)) = _
  have hl := Int.emod_nonneg m (show (32 : Int) ≠ 0 by norm_num)
  have hu := Int.emod_lt_of_pos m (show (0 : Int) < 32 by norm_num)
  have hmu : ((miToMu 32 m).toNat : Int) = m % 32 := by
    unfold miToMu
    rw [BitVec.toNat_ofInt, Int.toNat_of_nonneg (Int.emod_nonneg _ (by norm_num))]
    norm_num
    omega
  obtain ⟨e, he, hp⟩ := (sound B D h1 h2 0).phase_encrypt seed (miToMu 32 m) (by omega)
  refine ⟨e, by simpa using he, ?_⟩
  rw [hp, hmu, ofInt_eq_iff]
  refine ⟨-(m / 32), ?_⟩
  omega

theorem valid_enc (B D : Nat) (h1 : 2 ^ 57 ≤ D) (h2 : D ≤ 2 ^ 58) (l : List Int) (h : ∀ d ∈ l, IsDigit d) :
    Valid (ck B D) B (enc B D l) (value l) := by
  refine ⟨fun i => l.getD i 0, ?_, ?_⟩
  · intro i hi
    have hi' : i < l.length := by simpa [enc] using hi
    refine ⟨?_, ?_⟩
    · simp only [enc, List.getElem_map, List.getD_eq_getElem?_getD, List.getElem?_eq_getElem hi', Option.getD_some]
      exact encryptWord_holds B D h1 h2 _ _
    · simp only [List.getD_eq_getElem?_getD, List.getElem?_eq_getElem hi', Option.getD_some]
      exact h _ (List.getElem_mem hi')
  · simp [enc, value]

end Parm.Tight
