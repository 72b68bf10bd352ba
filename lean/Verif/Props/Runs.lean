import Verif.Props.Naf

/-!
# The recoding compared with the non-adjacent form: property C66

`naf.rs:91-94` says of `koyama_tsuruoka_vec`: "same Hamming weight as NAF, but greater average
length of zeros".  The first half is false (C29, `k = 7`).  Here is how far it is true: the
weight is at most one above the smallest weight of any signed binary representation, and the
zeros never form more runs than in the non-adjacent form.

The quantities below are defined on digit lists alone (least significant digit first).
-/

namespace Parm

/-- number of maximal blocks of neighbouring nonzero digits -/
def blocks : List Int → Nat
  | [] => 0
  | [d] => if d = 0 then 0 else 1
  | d :: e :: r => (if d ≠ 0 ∧ e = 0 then 1 else 0) + blocks (e :: r)

/-- number of maximal runs of neighbouring zeros -/
def zeroRuns : List Int → Nat
  | [] => 0
  | [d] => if d = 0 then 1 else 0
  | d :: e :: r => (if d = 0 ∧ e ≠ 0 then 1 else 0) + zeroRuns (e :: r)

/-- the average length of a run of zeros is `digits that are zero / zeroRuns`;
`LongerRuns a b` compares the averages of two lists without division -/
def LongerRuns (a b : List Int) : Prop :=
  b.countP (· = 0) * zeroRuns a ≤ a.countP (· = 0) * zeroRuns b

/-! ### Facts about digit lists -/

/-- the deduction allowed for a list starting with `d` and a pending carry `c` -/
def slack (r : List Int) (c : Int) : Nat := if r.headD 0 = 0 ∨ c = 0 then 0 else 1

theorem blocks_cons (d : Int) (r : List Int) :
    blocks (d :: r) = (if d ≠ 0 ∧ r.headD 0 = 0 then 1 else 0) + blocks r := by
  cases r with
  | nil => by_cases h : d = 0 <;> simp [blocks, h]
  | cons e r => rfl

theorem digitWeight_cons (d : Int) (r : List Int) :
    digitWeight (d :: r) = digitWeight r + (if d = 0 then 0 else 1) := by
  unfold digitWeight
  by_cases h : d = 0 <;> simp [h]

theorem blocks_le_aux : ∀ (r q : List Int) (c : Int), (∀ d ∈ r, IsDigit d) → (∀ d ∈ q, IsDigit d) →
    IsDigit c → value r + c = value q → blocks r ≤ digitWeight q + slack r c
  | [], q, c, _, _, _, _ => by simp [blocks]
  | d :: r, q, c, hr, hq, hc, hv => by
    obtain ⟨q0, q', hq0, hq', hv', hw⟩ : ∃ q0 q', IsDigit q0 ∧ (∀ e ∈ q', IsDigit e) ∧
        value q = q0 + 2 * value q' ∧ digitWeight q = digitWeight q' + (if q0 = 0 then 0 else 1) := by
      cases q with
      | nil => exact ⟨0, [], by simp [IsDigit], by simp, by simp [value, valueN], by simp⟩
      | cons q0 q' => exact ⟨q0, q', hq q0 (by simp), fun e he => hq e (by simp [he]), value_cons _ _,
          digitWeight_cons _ _⟩
    have hd : IsDigit d := hr d (by simp)
    rw [value_cons, hv'] at hv
    have hrec := fun c' hc' e => blocks_le_aux r q' c' (fun e he => hr e (by simp [he])) hq' hc' e
    obtain ⟨c', hc'⟩ : ∃ c' : Int, c' = value q' - value r := ⟨_, rfl⟩
    have h1 : 2 * c' = d + c - q0 := by omega
    have hcd : IsDigit c' := by unfold IsDigit at *; omega
    have h2 := hrec c' hcd (by omega)
    rw [blocks_cons, hw]
    unfold slack at h2 ⊢
    simp only [List.headD_cons]
    unfold IsDigit at *
    by_cases x1 : d = 0 <;> by_cases x2 : r.headD 0 = 0 <;> by_cases x3 : q0 = 0 <;> by_cases x4 : c = 0 <;>
      by_cases x5 : c' = 0 <;> simp only [x1, x2, x3, x4, x5, ne_eq, not_true, not_false_iff, true_and,
        and_true, false_and, and_false, true_or, or_true, or_self, if_true, if_false] at h2 ⊢ <;> omega

/-- a representation has at most as many blocks as any other representation of the same number
has nonzero digits -/
theorem blocks_le {r q : List Int} (hr : ∀ d ∈ r, IsDigit d) (hq : ∀ d ∈ q, IsDigit d)
    (hv : value r = value q) : blocks r ≤ digitWeight q := by
  have := blocks_le_aux r q 0 hr hq (by simp [IsDigit]) (by omega)
  simpa [slack] using this

theorem NonAdjacent.tail {d : Int} {r : List Int} (h : NonAdjacent (d :: r)) : NonAdjacent r :=
  fun i => by simpa using h (i + 1)

/-- in a non-adjacent form every nonzero digit is a block -/
theorem NonAdjacent.blocks : ∀ {r : List Int}, NonAdjacent r → Parm.blocks r = digitWeight r
  | [], _ => rfl
  | d :: r, h => by
    rw [blocks_cons, digitWeight_cons, NonAdjacent.blocks h.tail]
    have h0 : d = 0 ∨ r.headD 0 = 0 := by
      have := h 0
      cases r <;> simpa using this
    by_cases hd : d = 0
    · simp [hd]
    · rw [if_pos ⟨hd, h0.resolve_left hd⟩, if_neg hd]; omega

theorem zeroRuns_cons (d : Int) (r : List Int) :
    zeroRuns (d :: r) = (if d = 0 ∧ r.headD 1 ≠ 0 then 1 else 0) + zeroRuns r := by
  cases r with
  | nil => by_cases h : d = 0 <;> simp [zeroRuns, h]
  | cons e r => rfl

/-- runs and blocks alternate -/
theorem zeroRuns_blocks : ∀ (r : List Int) (h : r ≠ []),
    zeroRuns r + 1 = blocks r + (if r.headD 1 = 0 then 1 else 0) + (if r.getLast h = 0 then 1 else 0)
  | [], h => absurd rfl h
  | [d], _ => by by_cases h : d = 0 <;> simp [zeroRuns, blocks, h]
  | d :: e :: r, _ => by
    have ih := zeroRuns_blocks (e :: r) (by simp)
    rw [List.getLast_cons (by simp), zeroRuns_cons, blocks_cons]
    simp only [List.headD_cons] at ih ⊢
    by_cases x1 : d = 0 <;> by_cases x2 : e = 0 <;> simp only [x1, x2, ne_eq, not_true, not_false_iff, true_and,
        and_true, false_and, and_false, if_true, if_false] at ih ⊢ <;> omega

theorem head_even {r : List Int} (hr : ∀ d ∈ r, IsDigit d) (h : r ≠ []) :
    r.headD 1 = 0 ↔ value r % 2 = 0 := by
  cases r with
  | nil => exact absurd rfl h
  | cons d r =>
    have := hr d (by simp)
    rw [value_cons, List.headD_cons]
    unfold IsDigit at this
    omega

/-! ### The property -/

/-- **C66**, the yardstick: a non-adjacent form has the smallest number of nonzero digits among
all signed binary representations of its value. -/
theorem C66_naf_minimal {nf r : List Int} (hn : ∀ d ∈ nf, IsDigit d) (hna : NonAdjacent nf)
    (hr : ∀ d ∈ r, IsDigit d) (hv : value nf = value r) : digitWeight nf ≤ digitWeight r := by
  rw [← hna.blocks]
  exact blocks_le hn hr hv

/-- **C66**, weight.  For every nonzero `u32` the recoding needs at most one nonzero digit more
than *any* signed binary representation of `k`, hence the weight of the non-adjacent form or
one more. -/
theorem C66_weight {k : Nat} (h0 : k ≠ 0) (hk : k < 2 ^ 32) :
    ∃ ds, Returns (koyamaTsuruokaVec .release k) ds 0 ∧ value ds = k ∧
      (∀ r : List Int, (∀ d ∈ r, IsDigit d) → value r = k → digitWeight ds ≤ digitWeight r + 1) ∧
      ∀ nf : List Int, (∀ d ∈ nf, IsDigit d) → NonAdjacent nf → value nf = k →
        digitWeight ds = digitWeight nf ∨ digitWeight ds = digitWeight nf + 1 := by
  obtain ⟨ds, d1, d2, d3, _, _, _, _, d8⟩ := koyamaTsuruoka_spec h0 hk
  refine ⟨ds, d1, d3, d8, fun nf hn hna hv => ?_⟩
  have h1 := d8 nf hn hv
  have h2 := C66_naf_minimal hn hna d2 (by rw [hv, d3])
  unfold digitWeight at *
  omega

/-- **C66**, runs of zeros.  For every nonzero `u32` the zeros of the recoding form at most as
many runs as those of any non-adjacent form of `k`. -/
theorem C66_runs {k : Nat} (h0 : k ≠ 0) (hk : k < 2 ^ 32) :
    ∃ ds, Returns (koyamaTsuruokaVec .release k) ds 0 ∧ value ds = k ∧
      ∀ nf : List Int, (∀ d ∈ nf, IsDigit d) → NonAdjacent nf → value nf = k →
        zeroRuns ds ≤ zeroRuns nf := by
  obtain ⟨ds, d1, d2, d3, d4, _⟩ := koyamaTsuruoka_spec h0 hk
  refine ⟨ds, d1, d3, fun nf hn hna hv => ?_⟩
  have hds : ds ≠ [] := by rintro rfl; simp at d4
  have hnf : nf ≠ [] := by rintro rfl; simp [value, valueN] at hv; omega
  have e1 := zeroRuns_blocks ds hds
  have e2 := zeroRuns_blocks nf hnf
  have hb := blocks_le d2 hn (by rw [hv, d3])
  rw [← hna.blocks] at hb
  have hl : ds.getLast hds = 1 := by
    rw [List.getLast?_eq_some_getLast hds] at d4
    simpa using d4
  have h1 := head_even d2 hds
  have h2 := head_even hn hnf
  rw [d3] at h1
  rw [hv, ← h1] at h2
  rw [hl] at e1
  simp only [h2] at e2
  split_ifs at e1 e2 <;> omega

/-- Case: 239 = 11101111 in binary; the recoding and the non-adjacent form have three nonzero
digits and two runs. -/
example : zeroRuns [-1, 0, 0, 0, -1, 0, 0, 0, 1] = 2 ∧ digitWeight [-1, 0, 0, 0, -1, 0, 0, 0, 1] = 3 := by decide

/-- Case: 27 = 11011; the recoding [1,1,0,1,1] has one run, the non-adjacent form
[-1,0,-1,0,0,1] has two. -/
example : Returns (koyamaTsuruokaVec .release 27) [1, 1, 0, 1, 1] 0 ∧ zeroRuns [1, 1, 0, 1, 1] = 1 ∧
    zeroRuns [-1, 0, -1, 0, 0, 1] = 2 := ⟨Returns.run fun s => ⟨s.region, rfl⟩, by decide, by decide⟩

/-- **C66**, both weights occur: 239 meets the non-adjacent form, 7 is one above it. -/
theorem C66_tight :
    (∃ ds, Returns (koyamaTsuruokaVec .release 239) ds 0 ∧ digitWeight ds = 3 ∧
      ∀ r : List Int, (∀ d ∈ r, IsDigit d) → value r = 239 → 3 ≤ digitWeight r) ∧
    (∃ ds, Returns (koyamaTsuruokaVec .release 7) ds 0 ∧ digitWeight ds = 3 ∧
      ∃ r : List Int, (∀ d ∈ r, IsDigit d) ∧ value r = 7 ∧ digitWeight r = 2) := by
  refine ⟨⟨[-1, 0, 0, 0, -1, 0, 0, 0, 1], Returns.run fun s => ⟨s.region, rfl⟩, by decide, fun r hr hv => ?_⟩,
    ⟨[1, 1, 1], Returns.run fun s => ⟨s.region, rfl⟩, by decide, [-1, 0, 0, 1], by simp [IsDigit], by decide,
      by decide⟩⟩
  have := blocks_le (r := [-1, 0, 0, 0, -1, 0, 0, 0, 1]) (q := r) (by simp [IsDigit]) hr (by rw [hv]; decide)
  simpa [blocks] using this

/-- **C66**, the comment's claim about the average length of a run does not hold number by
number: 14 is recoded as [0,1,1,1] with runs of average length 1, while its non-adjacent form
[0,-1,0,0,1] has average 3/2. -/
theorem C66_not_longer :
    ∃ k ds nf, Returns (koyamaTsuruokaVec .release k) ds 0 ∧ value ds = k ∧
      (∀ d ∈ nf, IsDigit d) ∧ NonAdjacent nf ∧ value nf = k ∧ nf.getLast? = some 1 ∧ ¬ LongerRuns ds nf := by
  refine ⟨14, [0, 1, 1, 1], [0, -1, 0, 0, 1], Returns.run fun s => ⟨s.region, rfl⟩, by decide,
    by simp [IsDigit], ?_, by decide, rfl, by unfold LongerRuns; decide⟩
  intro i
  rcases i with _ | _ | _ | _ | _ | i <;> simp

end Parm
