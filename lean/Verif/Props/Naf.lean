import Verif.Proof.Naf

/-!
# Recodings of scalars: properties C28–C31
-/

namespace Parm

/-- number of one bits of a 32-bit number -/
def binWeight (k : Nat) : Nat := (List.range 32).countP fun i => k.testBit i

/-- number of nonzero digits -/
def digitWeight (ds : List Int) : Nat := ds.countP (· ≠ 0)

/-- no two neighbouring nonzero digits -/
def NonAdjacent (ds : List Int) : Prop :=
  ∀ i, ds.getD i 0 = 0 ∨ ds.getD (i + 1) 0 = 0

theorem popN_countP (k : Nat) : ∀ n : Nat,
    popN k n = ((List.range n).countP (fun i => k.testBit i) : Nat)
  | 0 => rfl
  | n + 1 => by
    rw [List.range_succ, List.countP_append]
    simp only [popN]
    rw [popN_countP k n]
    push_cast
    congr 1
    unfold bitAt
    rw [List.countP_singleton, Nat.testBit_eq_decide_div_mod_eq]
    rcases Nat.mod_two_eq_zero_or_one (k / 2 ^ n) with h | h <;> simp [h]

theorem popN_mono (k : Nat) {n m : Nat} (h : n ≤ m) : popN k n ≤ popN k m := by
  obtain ⟨e, rfl⟩ : ∃ e, m = n + e := ⟨m - n, by omega⟩
  induction e with
  | zero => exact le_refl _
  | succ e ih =>
    have := ih (by omega)
    have hb := bitAt_cases k (n + e)
    show _ ≤ popN k (n + e) + bitAt k (n + e)
    omega

/-- **C28.** In a release build `koyama_tsuruoka_vec(k)` is a signed binary representation of
`k` for every nonzero `u32`: digits in {-1,0,1}, value `k`, leading digit 1, and between
`bitlen(k)` and `bitlen(k) + 1` digits. -/
theorem C28_koyama_tsuruoka {k : Nat} (h0 : k ≠ 0) (hk : k < 2 ^ 32) :
    ∃ ds, Returns (koyamaTsuruokaVec .release k) ds 0 ∧ (∀ d ∈ ds, IsDigit d) ∧
      value ds = k ∧ ds.getLast? = some 1 ∧
      ∀ l, 2 ^ l ≤ k → k < 2 ^ (l + 1) → l + 1 ≤ ds.length ∧ ds.length ≤ l + 2 := by
  obtain ⟨ds, d1, d2, d3, d4, d5, d6, _⟩ := koyamaTsuruoka_spec h0 hk
  refine ⟨ds, d1, d2, d3, d4, fun l hl1 hl2 => ?_⟩
  obtain ⟨b1, b2, b3, _⟩ := bitLen32_spec h0 hk
  generalize bitLen32 (BitVec.ofNat 32 k) = L at *
  have e1 : l < L := by
    by_contra hc
    have : 2 ^ L ≤ 2 ^ l := Nat.pow_le_pow_right (by norm_num) (by omega)
    omega
  have e2 : L - 1 < l + 1 := by
    by_contra hc
    have : 2 ^ (l + 1) ≤ 2 ^ (L - 1) := Nat.pow_le_pow_right (by norm_num) (by omega)
    omega
  omega

/-- **C28**, `k = 0`: the single digit 0. -/
theorem C28_zero (b : Build) : Returns (koyamaTsuruokaVec b 0) [0] 0 := Returns.pure _

/-- **C28**, the debug build does not return for every `k`: 91 overflows (`naf.rs:134`). -/
theorem C28_debug_panics : Fails (koyamaTsuruokaVec .debug 91) (.panic .overflow) := fun _ => rfl

/-- Case: a recoding with both signs. -/
example : Returns (koyamaTsuruokaVec .release 239) [-1, 0, 0, 0, -1, 0, 0, 0, 1] 0 := Returns.run fun s => ⟨s.region, rfl⟩

/-- **C29** (partial: the documented equality with the NAF weight is false, see
`C29_not_naf_weight`).  The recoding never has more nonzero digits than the binary
representation. -/
theorem C29_weight_partial {k : Nat} (h0 : k ≠ 0) (hk : k < 2 ^ 32) :
    ∃ ds, Returns (koyamaTsuruokaVec .release k) ds 0 ∧ value ds = k ∧ digitWeight ds ≤ binWeight k := by
  obtain ⟨ds, d1, _, d3, _, _, _, d7, _⟩ := koyamaTsuruoka_spec h0 hk
  refine ⟨ds, d1, d3, ?_⟩
  have := popN_mono k (bitLen32_spec h0 hk).2.2.2
  rw [popN_countP k 32] at this
  unfold digitWeight binWeight
  omega

/-- **C29**, negation of the documented claim: for `k = 7` the recoding has three nonzero
digits although a non-adjacent form of 7 has two. -/
theorem C29_not_naf_weight :
    ∃ k ds nf, Returns (koyamaTsuruokaVec .release k) ds 0 ∧ value ds = k ∧
      (∀ d ∈ nf, IsDigit d) ∧ NonAdjacent nf ∧ value nf = k ∧ digitWeight nf < digitWeight ds := by
  refine ⟨7, [1, 1, 1], [-1, 0, 0, 1], Returns.run fun s => ⟨s.region, rfl⟩, by decide, ?_, ?_, by decide, by decide⟩
  · simp [IsDigit]
  · intro i
    rcases i with _ | _ | _ | _ | i <;> simp

/-- **C30** (partial: the documented non-adjacency and the range `k ≥ 2^31` fail, see the
theorems below).  Below `2^31`, `naf_vec(k)` has digits in {-1,0,1} and value `k`, in both
builds. -/
theorem C30_naf_vec_partial (b : Build) {k : Nat} (h0 : k ≠ 0) (hk : k < 2 ^ 31) :
    ∃ ds, Returns (nafVec b k) ds 0 ∧ (∀ d ∈ ds, IsDigit d) ∧ value ds = k := by
  obtain ⟨b1, b2, b3, b4⟩ := bitLen32_spec h0 (show k < 2 ^ 32 by omega)
  have hL : bitLen32 (BitVec.ofNat 32 k) ≤ 31 := by
    by_contra hc
    have : 2 ^ 31 ≤ 2 ^ (bitLen32 (BitVec.ofNat 32 k) - 1) := Nat.pow_le_pow_right (by norm_num) (by omega)
    omega
  obtain ⟨ds, d1, d2, d3, _⟩ := nafVec_spec b (k := k) (K := k) h0 (by rw [pow_succ]; omega) id
    (fun l hl => Returns.u32Bit b k (by omega))
  exact ⟨ds, d1, d2, d3⟩

/-- Case: a run of ones is shortened. -/
example : Returns (nafVec .debug 28) [0, 0, -1, 0, 0, 1] 0 := Returns.run fun s => ⟨s.region, rfl⟩

/-- **C30**, negation: the result need not be non-adjacent. -/
theorem C30_adjacent : ∃ k ds, Returns (nafVec .release k) ds 0 ∧ value ds = k ∧ ¬ NonAdjacent ds := by
  refine ⟨11, [-1, 0, 1, 1, 0], Returns.run fun s => ⟨s.region, rfl⟩, by decide, fun h => ?_⟩
  have := h 2
  simp at this

theorem bitLen32_top {k : Nat} (h : 2 ^ 31 ≤ k) (hk : k < 2 ^ 32) :
    bitLen32 (BitVec.ofNat 32 k) = 32 := by
  obtain ⟨b1, b2, b3, b4⟩ := bitLen32_spec (k := k) (by omega) hk
  by_contra hc
  have : 2 ^ bitLen32 (BitVec.ofNat 32 k) ≤ 2 ^ 31 := Nat.pow_le_pow_right (by norm_num) (by omega)
  omega

/-- **C30**, negation: for `k ≥ 2^31` the release build returns a representation of
`k + (k mod 2)·2^32`, so every odd such `k` is wrong. -/
theorem C30_top_bit_release {k : Nat} (h : 2 ^ 31 ≤ k) (hk : k < 2 ^ 32) :
    ∃ ds, Returns (nafVec .release k) ds 0 ∧ (∀ d ∈ ds, IsDigit d) ∧
      value ds = ((k + k % 2 * 2 ^ 32 : Nat) : Int) := by
  have hL := bitLen32_top h hk
  obtain ⟨ds, d1, d2, d3, _⟩ := nafVec_spec .release (k := k) (K := k + k % 2 * 2 ^ 32) (by omega)
    (by rw [hL]; omega) (by omega) (by
      rw [hL]
      intro l hl
      unfold u32Bit
      by_cases hl32 : l < 32
      · rw [if_pos hl32]
        refine (Returns.pure _).congr ?_ rfl
        unfold bitAt
        have e : (k + k % 2 * 2 ^ 32) % 2 ^ 32 = k % 2 ^ 32 := by omega
        have h1 : ∀ a : Nat, a / 2 ^ l % 2 = (a % 2 ^ 32) / 2 ^ l % 2 := by
          intro a
          have hp : (2 : Nat) ^ 32 = 2 ^ l * 2 ^ (32 - l) := by rw [← pow_add]; congr 1; omega
          rw [hp, Nat.mod_mul_right_div_self]
          obtain ⟨r, hr⟩ : ∃ r, 32 - l = r + 1 := ⟨31 - l, by omega⟩
          rw [hr, pow_succ, Nat.mod_mul_left_mod]
        rw [h1 k, h1 (k + _), e]
      · have : l = 32 := by omega
        subst this
        rw [if_neg (by omega)]
        refine (Returns.pure _).congr ?_ rfl
        unfold bitAt
        have : (k + k % 2 * 2 ^ 32) / 2 ^ 32 = k % 2 := by omega
        rw [this]
        simp)
  exact ⟨ds, d1, d2, d3⟩

theorem nafLoop_fails (b : Build) {k K : Nat} {e : Fault} : ∀ (n i : Nat) {vec : List Int} {low1 : Nat},
    NafInv K vec i low1 → (∀ l, i ≤ l → l < i + n → Returns (u32Bit b k l) (bitAt K l) 0) →
    Fails (u32Bit b k (i + n)) e → Fails (nafLoop b k (n + 1) i vec low1) e
  | 0, i, vec, low1, _, _, hf => by
    unfold nafLoop nafStep
    exact (hf.bind).bind
  | n + 1, i, vec, low1, h, hb, hf => by
    obtain ⟨v1, l1, h1, h2⟩ := nafStep_spec b h (hb i (le_refl _) (by omega))
    refine h1.bind_fails ?_
    show Fails (nafLoop b k (n + 1) (i + 1) v1 l1) e
    refine nafLoop_fails b n (i + 1) h2 (fun l hl hl' => hb l (by omega) (by omega)) ?_
    rw [show i + 1 + n = i + (n + 1) by omega]
    exact hf

/-- **C30**, negation: for every `k ≥ 2^31` the debug build panics (shift by 32). -/
theorem C30_top_bit_debug {k : Nat} (h : 2 ^ 31 ≤ k) (hk : k < 2 ^ 32) :
    Fails (nafVec .debug k) (.panic .overflow) := by
  unfold nafVec
  rw [if_neg (by omega), if_neg (by omega), bitLen32_top h hk]
  refine nafLoop_fails .debug (K := k) 32 0 (vec := []) (low1 := 0)
    ⟨rfl, le_refl _, ⟨fun i hi => absurd hi (by simp), by simp [valueN, Nat.mod_one]⟩,
        fun l h1 h2 => by omega, fun h => by omega⟩
    (fun l _ hl => Returns.u32Bit .debug k (by omega)) ?_
  unfold u32Bit
  rw [if_neg (by omega)]
  exact fun _ => rfl

/-- Case: `k = 2^31 + 1`. -/
example : 2 ^ 31 ≤ 2147483649 ∧ 2147483649 < 2 ^ 32 ∧ 2147483649 % 2 = 1 := by decide

/-- **C31.** For every nonzero `u32` and every window width `1 ≤ b ≤ 31` the windows of
`wind_shifts` (release build) are odd, below `2^b` in absolute value, do not overlap, and sum
to `k`. -/
theorem C31_wind_shifts {k : Nat} (h0 : k ≠ 0) (hk : k < 2 ^ 32) {b : Nat} (hb : 1 ≤ b)
    (hb31 : b ≤ 31) :
    ∃ ws, Returns (windShifts .release k b) ws 0 ∧
      (ws.map fun w => w.1 * 2 ^ w.2).sum = (k : Int) ∧
      (∀ w ∈ ws, w.1 % 2 = 1 ∧ w.1.natAbs < 2 ^ b ∧ w.2 ≤ 32) ∧
      ws.Pairwise (fun a c => a.2 + b ≤ c.2) := by
  obtain ⟨ws, w1, w2, w3, w4, _⟩ := windShifts_spec h0 hk hb hb31
  refine ⟨ws, w1, w2, fun w hw => ?_, w4⟩
  have := w3 w hw
  have := (bitLen32_spec h0 hk).2.2.2
  exact ⟨by tauto, by tauto, by omega⟩

/-- Case: a negative window. -/
example : Returns (windShifts .release 0xfff001 12) [(1, 0), (-1, 12), (1, 24)] 0 := Returns.run fun s => ⟨s.region, rfl⟩

/-- **C31**, `k = 0`: the recoding `[0]` has no nonzero digit, the window is the empty tail, so
the single window is `(0, 1)`: even, i.e. not a key of the chain table. -/
theorem C31_zero : Returns (windShifts .release 0 12) [(0, 1)] 0 := Returns.run fun s => ⟨s.region, rfl⟩

end Parm
