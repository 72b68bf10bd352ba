import Verif.Proof.NafWeight
import Verif.Props.NafLocal
import Mathlib.Data.Finset.Card

/-! **C30**: exactly how many nonzero digits `naf_vec` has, and for which numbers it has more than necessary. -/

namespace Parm

/-- From bit `i` upwards `k` reads 1 1, then 0 1 repeated `m` times, then 0, then 1 1: two runs of at least two ones,
with `m` single ones between them, and single zeros between all of these. -/
def HasGap (k i m : Nat) : Prop :=
  k.testBit i ∧ k.testBit (i + 1) ∧ (∀ r, r ≤ m → ¬ k.testBit (i + 2 + 2 * r)) ∧ (∀ r, r < m → k.testBit (i + 3 + 2 * r)) ∧
    k.testBit (i + 3 + 2 * m) ∧ k.testBit (i + 4 + 2 * m)

/-- at bit `l` begins a run of ones which is the upper run of such a gap, with at least one single one in it -/
def GapBelow (k l : Nat) : Prop := ∃ i m, 1 ≤ m ∧ l = i + 3 + 2 * m ∧ HasGap k i m

theorem padBits_testBit (k i : Nat) : (padBits k (i + 3) = 1 ↔ k.testBit i) ∧ (padBits k (i + 3) = 0 ↔ ¬ k.testBit i) := by
  rw [padBits_add]
  exact bitAt_testBit k i

theorem nafEvent_iff (k l : Nat) : nafEvent (padBits k) l = 1 ↔ GapBelow k l := by
  have e : nafEvent (padBits k) l = 1 ↔ nafCr (padBits k) l = 1 ∧ padBits k l = 0 ∧ padBits k (l + 1) = 1 ∧
      padBits k (l + 2) = 0 ∧ padBits k (l + 3) = 1 ∧ padBits k (l + 4) = 1 := by
    unfold nafEvent
    split_ifs with h <;> simp [h]
  rw [e]
  constructor
  · rintro ⟨c, b0, b1, b2, b3, b4⟩
    obtain ⟨i, m, rfl, g1, g2, g3, g4⟩ := nafCr_back (padBits_cases k) ⟨rfl, rfl, rfl⟩ l c b2
    refine ⟨i, m, ?_, rfl, (padBits_testBit k _).1.1 g1, (padBits_testBit k (i + 1)).1.1 g2, fun r hr => ?_, fun r hr => ?_,
      (padBits_testBit k _).1.1 b3, ?_⟩
    · by_contra hm
      obtain rfl : m = 0 := by omega
      rw [Nat.mul_zero, Nat.add_zero, g1] at b0
      omega
    · refine (padBits_testBit k _).2.1 ?_
      rw [show i + 2 + 2 * r + 3 = i + 5 + 2 * r by omega]
      exact g3 r hr
    · refine (padBits_testBit k _).1.1 ?_
      rw [show i + 3 + 2 * r + 3 = i + 6 + 2 * r by omega]
      exact g4 r hr
    · refine (padBits_testBit k _).1.1 ?_
      rw [show i + 4 + 2 * m + 3 = i + 3 + 2 * m + 4 by omega]
      exact b4
  · rintro ⟨i, m, hm, rfl, g1, g2, g3, g4, g5, g6⟩
    have z : ∀ r, r ≤ m → padBits k (i + 5 + 2 * r) = 0 := fun r hr => by
      rw [show i + 5 + 2 * r = i + 2 + 2 * r + 3 by omega]
      exact (padBits_testBit k _).2.2 (g3 r hr)
    have o : ∀ r, r < m → padBits k (i + 6 + 2 * r) = 1 := fun r hr => by
      rw [show i + 6 + 2 * r = i + 3 + 2 * r + 3 by omega]
      exact (padBits_testBit k _).1.2 (g4 r hr)
    refine ⟨nafCr_forth (padBits_cases k) ((padBits_testBit k _).1.2 g1) ((padBits_testBit k (i + 1)).1.2 g2) z o m
      (le_refl _), ?_, ?_, ?_, (padBits_testBit k _).1.2 g5, ?_⟩
    · have := z (m - 1) (by omega)
      rwa [show i + 5 + 2 * (m - 1) = i + 3 + 2 * m by omega] at this
    · have := o (m - 1) (by omega)
      rwa [show i + 6 + 2 * (m - 1) = i + 3 + 2 * m + 1 by omega] at this
    · have := z m (le_refl _)
      rwa [show i + 5 + 2 * m = i + 3 + 2 * m + 2 by omega] at this
    · rw [show i + 3 + 2 * m + 4 = i + 4 + 2 * m + 3 by omega]
      exact (padBits_testBit k _).1.2 g6

open Classical in
theorem wtN_events (k : Nat) : ∀ n : Nat,
    wtN (nafEvent (padBits k)) n = (((Finset.range n).filter (GapBelow k)).card : Nat)
  | 0 => rfl
  | n + 1 => by
    rw [wtN, wtN_events k n, Finset.range_add_one, Finset.filter_insert]
    by_cases h : GapBelow k n
    · rw [if_pos h, Finset.card_insert_of_notMem (by simp), (nafEvent_iff k n).2 h]
      push_cast
      simp
    · have : nafEvent (padBits k) n = 0 := by
        have h' := mt (nafEvent_iff k n).1 h
        unfold nafEvent at h' ⊢
        split_ifs at h' ⊢ <;> simp_all
      rw [if_neg h, this]
      simp

theorem wtN_extend {d : Nat → Int} {n m : Nat} (h : n ≤ m) (hz : ∀ l, n ≤ l → d l = 0) : wtN d m = wtN d n := by
  induction m, h using Nat.le_induction with
  | base => rfl
  | succ m hm ih => rw [wtN, ih, hz m hm]; simp

theorem trueDigit_value (k : Nat) : ∀ n : Nat,
    valueN (trueDigit (padBits k)) n = ((k % 2 ^ n : Nat) : Int) - nafCr (padBits k) (n + 1) * 2 ^ n
  | 0 => by
    have : nafCr (padBits k) 1 = 0 := by
      have := padBits_cases k 3
      simp only [nafCr, maj, show padBits k (0 + 2) = 0 from rfl]
      rw [if_neg (by rw [Nat.zero_add]; omega)]
    rw [Nat.zero_add, this]
    simp [valueN, Nat.mod_one]
  | n + 1 => by
    rw [valueN, trueDigit_value k n, mod_two_pow_succ]
    unfold trueDigit
    rw [padBits_add]
    ring

/-- a non-adjacent form of `k`, and the weight of `naf_vec` in terms of it -/
theorem nafVec_weight (b : Build) {k : Nat} (h2 : 1 < k) (hk : k < 2 ^ 31) {ds : List Int}
    (hd : Returns (nafVec b k) ds 0) : ∃ nf : List Int, (∀ d ∈ nf, IsDigit d) ∧ NonAdjacent nf ∧ value nf = k ∧
      (digitWeight ds : Int) = digitWeight nf + wtN (nafEvent (padBits k)) 32 := by
  obtain ⟨d1, d2, d3, d4⟩ := nafVec_digits b h2 hk hd
  obtain ⟨ds', e1, e2, e3⟩ := C30_naf_vec_partial b (k := k) (by omega) hk
  obtain ⟨rfl, -⟩ := hd.unique e1
  have hz : ∀ l, 34 ≤ l → padBits k l = 0 := fun l hl => d3 l (by omega)
  have hg : ∀ l, ((List.range 32).map (trueDigit (padBits k))).getD l 0 = if l < 32 then trueDigit (padBits k) l else 0 :=
    fun l => by
    split_ifs with h
    · simp [List.getD_eq_getElem?_getD, h]
    · exact List.getD_eq_default _ _ (by simpa using h)
  have hdig : ∀ d ∈ (List.range 32).map (trueDigit (padBits k)), IsDigit d := by
    intro d hd
    obtain ⟨l, -, rfl⟩ := List.mem_map.1 hd
    exact trueDigit_digit (padBits_cases k) l
  have hcr : nafCr (padBits k) 33 = 0 := by
    rw [nafCr, maj, hz (32 + 3) (by omega), hz (32 + 2) (by omega)]
    have := nafCr_cases (β := padBits k) 32
    rw [if_neg (by omega)]
  refine ⟨(List.range 32).map (trueDigit (padBits k)), hdig, fun i => ?_, ?_, ?_⟩
  · rw [hg, hg]
    rcases trueDigit_nonadjacent (padBits_cases k) i with h | h
    · left; split_ifs <;> first | exact h | rfl
    · right; split_ifs <;> first | exact h | rfl
  · rw [value_eq_valueN (d := trueDigit (padBits k)) (fun i hi => by simp), List.length_map, List.length_range,
      trueDigit_value, hcr, Nat.mod_eq_of_lt (by omega)]
    simp
  · have w1 := wtN_list ds e2
    have w2 := wtN_list _ hdig
    rw [wtN_congr (d' := trueDigit (padBits k)) (fun i hi => by
      rw [hg, if_pos (by simpa using hi)]), List.length_map, List.length_range] at w2
    rw [wtN_congr (d' := nafDigit (padBits k)) (fun i _ => d4 i)] at w1
    rw [← wtN_extend d1 (fun l hl => by
      rw [← d4 l, List.getD_eq_default _ _ (by omega)])] at w1
    have w3 := naf_weight (padBits_cases k) ⟨rfl, rfl, rfl⟩ 32
    have w4 : nafAhead (padBits k) 32 = 0 := by
      unfold nafAhead
      rw [hz (32 + 2) (by omega)]
      simp
    unfold digitWeight
    rw [← w1, ← w2, w3, w4]
    ring

open Classical in
/-- **C30**, exact weight: for `1 < k < 2^31`, in both builds, `naf_vec(k)` has as many nonzero digits as the non-adjacent
form, plus one for each place where two runs of at least two ones are linked by at least one single one, with single zeros
in between. -/
theorem C30_weight (b : Build) {k : Nat} (h2 : 1 < k) (hk : k < 2 ^ 31) {ds nf : List Int}
    (hd : Returns (nafVec b k) ds 0) (hn : ∀ d ∈ nf, IsDigit d) (hna : NonAdjacent nf) (hv : value nf = k) :
    digitWeight ds = digitWeight nf + ((Finset.range 32).filter (GapBelow k)).card := by
  obtain ⟨nf', n1, n2, n3, n4⟩ := nafVec_weight b h2 hk hd
  have h1 := C66_naf_minimal hn hna n1 (by rw [hv, n3])
  have h2 := C66_naf_minimal n1 n2 hn (by rw [hv, n3])
  have h3 := wtN_events k 32
  omega

/-- **C30**, exact: `naf_vec(k)` has the fewest nonzero digits possible if and only if there is no such place. -/
theorem C30_minimal_iff (b : Build) {k : Nat} (h2 : 1 < k) (hk : k < 2 ^ 31) {ds : List Int}
    (hd : Returns (nafVec b k) ds 0) :
    (∀ r : List Int, (∀ d ∈ r, IsDigit d) → value r = k → digitWeight ds ≤ digitWeight r) ↔
      ∀ i m, 1 ≤ m → ¬ HasGap k i m := by
  classical
  obtain ⟨nf, n1, n2, n3, -⟩ := nafVec_weight b h2 hk hd
  have hw := C30_weight b h2 hk hd n1 n2 n3
  constructor
  · intro h i m hm hg
    have h1 := h nf n1 n3
    have h0 : ((Finset.range 32).filter (GapBelow k)).card = 0 := by omega
    rw [Finset.card_eq_zero, Finset.filter_eq_empty_iff] at h0
    refine h0 (x := i + 3 + 2 * m) ?_ ⟨i, m, hm, rfl, hg⟩
    rw [Finset.mem_range]
    by_contra hc
    have := hg.2.2.2.2.1
    rw [Nat.testBit_lt_two_pow (lt_of_lt_of_le hk (Nat.pow_le_pow_right (by norm_num) (by omega)))] at this
    cases this
  · intro h r r1 r2
    have h0 : ((Finset.range 32).filter (GapBelow k)).card = 0 := by
      rw [Finset.card_eq_zero, Finset.filter_eq_empty_iff]
      rintro l - ⟨i, m, hm, -, hg⟩
      exact h i m hm hg
    have := C66_naf_minimal n1 n2 r1 (by rw [n3, r2])
    omega

/-- Case: `107 = 0b1101011` has such a place; `naf_vec` gives it five nonzero digits, four suffice. -/
example : HasGap 107 0 1 := by
  refine ⟨by decide, by decide, fun r hr => ?_, fun r hr => ?_, by decide, by decide⟩
  · interval_cases r <;> decide
  · interval_cases r; decide

example : Returns (nafVec .release 107) [-1, 0, 1, 1, 0, -1, 0, 1] 0 := Returns.run fun s => ⟨s.region, rfl⟩

end Parm
