import Verif.Proof.KtScript
import Verif.Proof.ScalarMul

/-!
# The prototype of the recoding: property C72
-/

namespace Parm
open KtScript

theorem bitLen32_log2 {k : Nat} (h0 : k ≠ 0) (hk : k < 2 ^ 32) : bitLen32 (BitVec.ofNat 32 k) = Nat.log2 k + 1 := by
  obtain ⟨b1, b2, b3, -⟩ := bitLen32_spec h0 hk
  generalize bitLen32 (BitVec.ofNat 32 k) = L at *
  have e1 : Nat.log2 k < L := (Nat.log2_lt h0).2 b2
  have e2 : L - 1 ≤ Nat.log2 k := (Nat.le_log2 h0).2 b1
  omega

/-- **C72.** The script and the library recode every `u32` alike: the release build of `koyama_tsuruoka_vec` returns what
`kt` returns, and a debug build returns this or panics by overflow. -/
theorem C72_agree {lg : Nat → Nat} {k : Nat} (hk : k < 2 ^ 32) (hl : lg k = Nat.log2 k) :
    Returns (koyamaTsuruokaVec .release k) (kt lg k) 0 ∧
    (Returns (koyamaTsuruokaVec .debug k) (kt lg k) 0 ∨ Fails (koyamaTsuruokaVec .debug k) (.panic .overflow)) := by
  have main : Returns (koyamaTsuruokaVec .release k) (kt lg k) 0 := by
    by_cases h0 : k = 0
    · subst h0
      exact Returns.pure _
    by_cases h1 : k = 1
    · subst h1
      exact Returns.pure _
    obtain ⟨ds, d1, -⟩ := koyamaTsuruoka_spec h0 hk
    have h32 := (bitLen32_spec h0 hk).2.2.2
    have hL := bitLen32_log2 h0 hk
    have e := core_sim (bt := u32Bit .release k) (pred := u32BitPred .release k) (k := k) (L := Nat.log2 k)
      (fun i hi => Returns.u32Bit .release k (by omega)) (fun i hi => Returns.u32BitPred k (by omega)) h0 h1 hl
    rw [← hL, ← koyamaTsuruokaVec_eq .release h0 h1] at e
    obtain ⟨_, _, _, hs⟩ := d1 (St.init Sched.seq)
    rw [← e _ _ _ hs]
    exact d1
  refine ⟨main, ?_⟩
  rcases DebugLike.koyamaTsuruokaVec k with ⟨ds', e1, e2⟩ | h | ⟨f, h1, h2⟩
  · rw [(main.unique e2).1]
    exact Or.inl e1
  · exact Or.inr h
  · obtain ⟨_, _, _, hs⟩ := main (St.init Sched.seq)
    rw [h2] at hs
    cases hs

theorem bitAt_low {k n i : Nat} (h : i < n) : bitAt (k % 2 ^ n + 2 ^ n) i = bitAt k i := by
  unfold bitAt
  congr 1
  obtain ⟨d, rfl⟩ : ∃ d, n = i + 1 + d := ⟨n - (i + 1), by omega⟩
  have e : 2 ^ (i + 1 + d) = 2 ^ i * (2 * 2 ^ d) := by ring
  rw [e, Nat.add_mul_div_left _ _ (Nat.two_pow_pos i), Nat.mod_mul_right_div_self, Nat.add_mul_mod_self_left,
    Nat.mod_mul_right_mod]

/-- **C72.** What the script computes for numbers of any size (the library stops at 32 bits) and whatever the floating-point
logarithm `n`: digits in {-1,0,1} that stand for the low `n` bits of `k` with a one in front. -/
theorem C72_value (lg : Nat → Nat) {k : Nat} (h0 : k ≠ 0) (h1 : k ≠ 1) :
    (∀ d ∈ kt lg k, IsDigit d) ∧ value (kt lg k) = ((k % 2 ^ lg k + 2 ^ lg k : Nat) : Int) ∧ (kt lg k).getLast? = some 1 ∧
    lg k + 1 ≤ (kt lg k).length ∧ (kt lg k).length ≤ lg k + 2 ∧
    ∀ r : List Int, (∀ d ∈ r, IsDigit d) → value r = ((k % 2 ^ lg k + 2 ^ lg k : Nat) : Int) →
      (kt lg k).countP (· ≠ 0) ≤ r.countP (· ≠ 0) + 1 := by
  obtain ⟨n, hn⟩ : ∃ n, lg k = n := ⟨_, rfl⟩
  rw [hn]
  have hmod := Nat.mod_lt k (Nat.two_pow_pos n)
  have hb : ∀ i < n + 1, Returns (pure (bitAt (k % 2 ^ n + 2 ^ n) i) : M Int) (bitAt (k % 2 ^ n + 2 ^ n) i) 0 :=
    fun i _ => Returns.pure _
  have hp : ∀ i < n + 1, Returns (pure (bitAt (k % 2 ^ n + 2 ^ n) i - 1) : M Int) (bitAt (k % 2 ^ n + 2 ^ n) i - 1) 0 :=
    fun i _ => Returns.pure _
  obtain ⟨ds, d1, d2, d3, d4, d5, d6, -, d8⟩ := ktCoreG_spec hb hp (by omega) (by simp)
    (by rw [pow_succ]; omega)
  have e := core_sim (bt := fun i => pure (bitAt (k % 2 ^ n + 2 ^ n) i)) (pred := fun i => pure (bitAt (k % 2 ^ n + 2 ^ n) i - 1))
    (fun i hi => (Returns.pure _).congr (bitAt_low hi) rfl)
    (fun i hi => (Returns.pure _).congr (by rw [bitAt_low hi]) rfl) h0 h1 hn
  obtain ⟨_, _, _, hs⟩ := d1 (St.init Sched.seq)
  rw [← e _ _ _ hs]
  exact ⟨d2, d3, d4, d6, d5, d8⟩

/-- **C72.** So the script is right exactly when the logarithm is.  (In double precision `log2(2^49 - 1)` is 49.) -/
theorem C72_right_iff (lg : Nat → Nat) {k : Nat} (h0 : k ≠ 0) (h1 : k ≠ 1) : value (kt lg k) = k ↔ lg k = Nat.log2 k := by
  rw [(C72_value lg h0 h1).2.1]
  obtain ⟨n, hn⟩ : ∃ n, lg k = n := ⟨_, rfl⟩
  rw [hn]
  have hmod := Nat.mod_lt k (Nat.two_pow_pos n)
  constructor
  · intro h
    have h : k % 2 ^ n + 2 ^ n = k := by exact_mod_cast h
    have a1 : n ≤ Nat.log2 k := (Nat.le_log2 h0).2 (by omega)
    have a2 : Nat.log2 k < n + 1 := (Nat.log2_lt h0).2 (by rw [pow_succ]; omega)
    omega
  · rintro rfl
    have b1 := Nat.log2_self_le h0
    have b2 := Nat.lt_log2_self (n := k)
    rw [pow_succ] at b2
    have : k % 2 ^ Nat.log2 k = k - 2 ^ Nat.log2 k := by
      rw [Nat.mod_eq_sub_mod b1, Nat.mod_eq_of_lt (by omega)]
    rw [this]
    congr 1
    omega

/-- a recoding of more than 32 bits -/
example : kt Nat.log2 (2 ^ 40 - 2 ^ 3) = List.replicate 3 0 ++ [-1] ++ List.replicate 36 0 ++ [1] := by decide +kernel

/-- a wrong one -/
example : value (kt (fun _ => 49) (2 ^ 49 - 1)) = 2 ^ 50 - 1 := by
  rw [(C72_value (fun _ => 49) (by norm_num) (by norm_num)).2.1]
  norm_num

end Parm
