import Verif.Proof.WeightHash
import Verif.Proof.Merged
import Mathlib.Data.Nat.ModEq

/-!
# The bounds computed on hashes hold over equal ciphertexts
-/

namespace Parm
open HashW

section
variable (ι : Nat → Nat)

/-- the scheme of hashes -/
abbrev fpAll : Scheme where
  C := BitVec 64
  add a b := a + b
  neg a := - a
  mulC a k := a * k
  addPt a p := a + 12345#64 * p
  pbs acc a := a * (2#64 * a + 1#64) + 7770001#64 + 31337#64 * BitVec.ofNat 64 (hashAcc acc)

theorem fpAll_lawful : Lawful fpAll where
  add _ _ := rfl
  neg _ := rfl
  mulC a k := by
    show a * k = k.toInt • a
    rw [zsmul_eq_mul, mul_comm]
    congr 1
    exact (BitVec.ofInt_toInt (x := k)).symm
  addPt := ⟨⟨⟨fun p => 12345#64 * p, by simp⟩, fun p q => BitVec.mul_add⟩, fun a p => rfl⟩

theorem ofNat_mod (n : Nat) : BitVec.ofNat 64 (n % P) = BitVec.ofNat 64 n := by
  have h : P = 2 ^ 64 := by unfold P; norm_num
  rw [h]
  apply BitVec.eq_of_toNat_eq
  rw [BitVec.toNat_ofNat, BitVec.toNat_ofNat, Nat.mod_mod]

theorem ofNat_boot (a l : Nat) : BitVec.ofNat 64 (hBoot a l) =
    BitVec.ofNat 64 a * (2#64 * BitVec.ofNat 64 a + 1#64) + 7770001#64 + 31337#64 * BitVec.ofNat 64 l := by
  unfold hBoot
  rw [ofNat_mod, BitVec.ofNat_add, BitVec.ofNat_add, BitVec.ofNat_mul, BitVec.ofNat_add, BitVec.ofNat_mul, BitVec.ofNat_mul]

theorem ofNat_hAdd (a b : Nat) : BitVec.ofNat 64 (hAdd a b) = BitVec.ofNat 64 a + BitVec.ofNat 64 b := by
  unfold hAdd
  rw [ofNat_mod, BitVec.ofNat_add]

theorem ofNat_hNeg (a : Nat) : BitVec.ofNat 64 (hNeg a) = - BitVec.ofNat 64 a := by
  unfold hNeg
  rw [ofNat_mod, BitVec.ofNat_mul, show P - 1 = 18446744073709551615 by unfold P; rfl,
    show BitVec.ofNat 64 18446744073709551615 = -1#64 by decide, BitVec.neg_mul, BitVec.one_mul]

theorem ofNat_hMul (a : Nat) (k : BitVec 64) : BitVec.ofNat 64 (hMul a k.toNat) = BitVec.ofNat 64 a * k := by
  unfold hMul
  rw [ofNat_mod, BitVec.ofNat_mul, BitVec.ofNat_toNat, BitVec.setWidth_eq]

theorem ofNat_hPt (a : Nat) (p : BitVec 64) : BitVec.ofNat 64 (hPt a p.toNat) = BitVec.ofNat 64 a + 12345#64 * p := by
  unfold hPt
  rw [ofNat_mod, BitVec.ofNat_add, BitVec.ofNat_mul, BitVec.ofNat_toNat, BitVec.setWidth_eq]

/-- the hash of a term is its value in that scheme -/
theorem fp_eval (t : Term) : BitVec.ofNat 64 (t.hashW ι).fp = t.eval fpAll fun i => BitVec.ofNat 64 (ι i) := by
  induction t with
  | input i => rw [(hashW_eval ι).1]; rfl
  | boot acc t ih =>
    rw [(hashW_eval ι).2.1]
    refine (ofNat_boot _ _).trans ?_
    rw [ih]; rfl
  | add s t hs ht =>
    rw [(hashW_eval ι).2.2.1]
    refine (ofNat_hAdd _ _).trans ?_
    rw [hs, ht]; rfl
  | neg t ht =>
    rw [(hashW_eval ι).2.2.2.1]
    refine (ofNat_hNeg _).trans ?_
    rw [ht]; rfl
  | mulC t k ht =>
    rw [(hashW_eval ι).2.2.2.2.1]
    refine (ofNat_hMul _ _).trans ?_
    rw [ht]; rfl
  | addPt t p ht =>
    rw [(hashW_eval ι).2.2.2.2.2]
    refine (ofNat_hPt _ _).trans ?_
    rw [ht]; rfl

/-- the hash of a bootstrapped word depends on the hash modulo the modulus -/
theorem hBoot_congr {a b : Nat} (h : BitVec.ofNat 64 a = BitVec.ofNat 64 b) (l : Nat) : hBoot a l = hBoot b l := by
  have e : BitVec.ofNat 64 (hBoot a l) = BitVec.ofNat 64 (hBoot b l) := by rw [ofNat_boot, ofNat_boot, h]
  have lt : ∀ a, hBoot a l < 2 ^ 64 := fun a => by
    unfold hBoot P
    exact Nat.mod_lt _ (by norm_num)
  have e := congrArg BitVec.toNat e
  rwa [BitVec.toNat_ofNat, BitVec.toNat_ofNat, Nat.mod_eq_of_lt (lt a), Nat.mod_eq_of_lt (lt b)] at e

/-- samples that are equal ciphertexts have equal hashes -/
theorem fp_of_sid {a b : Term} (ha : Mg.IsSample a) (hb : Mg.IsSample b) (e : Mg.sid a = Mg.sid b) : (a.hashW ι).fp = (b.hashW ι).fp := by
  rcases ha with ⟨i, rfl⟩ | ⟨acc, s, rfl⟩ <;> rcases hb with ⟨j, rfl⟩ | ⟨acc', t, rfl⟩
  · have : 2 * i = 2 * j := e
    rw [show i = j by omega]
  · have : 2 * i = 2 * _ + 1 := e
    omega
  · have : 2 * _ + 1 = 2 * j := e
    omega
  · have : 2 * lookupNo (acc, s.comb) + 1 = 2 * lookupNo (acc', t.comb) + 1 := e
    have h := lookupNo_injective (a₁ := (acc, s.comb)) (a₂ := (acc', t.comb)) (by omega)
    injection h with h1 h2
    subst h1
    rw [(hashW_eval ι).2.1, (hashW_eval ι).2.1]
    refine hBoot_congr ?_ _
    rw [fp_eval, fp_eval]
    exact Mg.eval_of_comb fpAll_lawful _ _ s t (Nat.le_max_left _ _) (Nat.le_max_right _ _) h2

/-- the weight over equal ciphertexts -/
theorem Term.mergedWeight_le_quad (t : Term) : t.mergedWeight ≤ quad (t.hashW ι).ms := by
  refine Mg.merged_le (φ := fun a => (a.hashW ι).fp) (fun a ha b hb e => fp_of_sid ι (Mg.isSample_of_mem ha) (Mg.isSample_of_mem hb) e) ?_
  refine le_trans (Finset.sum_le_sum fun h _ => ?_) (sum_look (t.samples.image (fun a => (a.hashW ι).fp)) _)
  exact Nat.pow_le_pow_left (Term.look_ge ι h t.samples t) 2

end
end Parm
