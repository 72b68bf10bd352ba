import Verif.Model.Tfhe
import Verif.Proof.Encryption
import Mathlib.Algebra.BigOperators.Ring.Finset
import Mathlib.Algebra.BigOperators.Intervals
import Mathlib.Tactic.LinearCombination

/-!
# The textbook primitives meet the contract
-/

namespace Parm.Tfhe
open Finset

/-! ### Distances -/

/-- `x` is `y` up to `b` -/
def Near (x y : BitVec 64) (b : Nat) : Prop := ∃ e : Int, e.natAbs ≤ b ∧ x = y + BitVec.ofInt 64 e

theorem ofInt_zero' : BitVec.ofInt 64 0 = 0 := rfl

theorem Near.refl (x : BitVec 64) : Near x x 0 := ⟨0, le_rfl, by rw [ofInt_zero', add_zero]⟩

theorem Near.of_eq {x y : BitVec 64} (h : x = y) : Near x y 0 := h ▸ Near.refl x

theorem Near.mono {x y : BitVec 64} {b b' : Nat} (h : Near x y b) (hb : b ≤ b') : Near x y b' := by
  obtain ⟨e, h1, h2⟩ := h
  exact ⟨e, h1.trans hb, h2⟩

theorem Near.trans {x y z : BitVec 64} {b c : Nat} (h : Near x y b) (h' : Near y z c) : Near x z (b + c) := by
  obtain ⟨e, h1, rfl⟩ := h
  obtain ⟨f, h2, rfl⟩ := h'
  exact ⟨f + e, by omega, by rw [ofInt_add']; ring⟩

theorem Near.symm {x y : BitVec 64} {b : Nat} (h : Near x y b) : Near y x b := by
  obtain ⟨e, h1, rfl⟩ := h
  exact ⟨-e, by omega, by rw [ofInt_neg']; ring⟩

theorem Near.add {x y x' y' : BitVec 64} {b c : Nat} (h : Near x y b) (h' : Near x' y' c) :
    Near (x + x') (y + y') (b + c) := by
  obtain ⟨e, h1, rfl⟩ := h
  obtain ⟨f, h2, rfl⟩ := h'
  exact ⟨e + f, by omega, by rw [ofInt_add']; ring⟩

theorem Near.neg {x y : BitVec 64} {b : Nat} (h : Near x y b) : Near (-x) (-y) b := by
  obtain ⟨e, h1, rfl⟩ := h
  exact ⟨-e, by omega, by rw [ofInt_neg']; ring⟩

theorem Near.sub {x y x' y' : BitVec 64} {b c : Nat} (h : Near x y b) (h' : Near x' y' c) :
    Near (x - x') (y - y') (b + c) := by
  rw [sub_eq_add_neg, sub_eq_add_neg]; exact h.add h'.neg

theorem Near.smul {x y : BitVec 64} {b : Nat} (h : Near x y b) {d : Int} {c : Nat} (hd : d.natAbs ≤ c) :
    Near (BitVec.ofInt 64 d * x) (BitVec.ofInt 64 d * y) (c * b) := by
  obtain ⟨e, h1, rfl⟩ := h
  refine ⟨d * e, ?_, by rw [ofInt_mul']; ring⟩
  rw [Int.natAbs_mul]; exact Nat.mul_le_mul hd h1

theorem Near.sum {ι : Type} {x y : ι → BitVec 64} {b : ι → Nat} (I : Finset ι) (h : ∀ i ∈ I, Near (x i) (y i) (b i)) :
    Near (∑ i ∈ I, x i) (∑ i ∈ I, y i) (∑ i ∈ I, b i) := by
  classical
  induction I using Finset.induction_on with
  | empty => simpa using Near.refl 0
  | insert i I hi ih =>
    rw [sum_insert hi, sum_insert hi, sum_insert hi]
    exact (h i (mem_insert_self ..)).add (ih fun j hj => h j (mem_insert_of_mem hj))

theorem Near.sum_const {ι : Type} {x y : ι → BitVec 64} {b : Nat} (I : Finset ι) (h : ∀ i ∈ I, Near (x i) (y i) b) :
    Near (∑ i ∈ I, x i) (∑ i ∈ I, y i) (I.card * b) := by
  have := Near.sum I h
  rwa [Finset.sum_const, nsmul_eq_mul, Nat.cast_id] at this

/-! ### Gadget decomposition -/

theorem digitOf_le {β : Nat} (hβ : 1 ≤ β) : ∀ (t : Nat) (y : Int), (digitOf β y t).natAbs ≤ 2 ^ (β - 1)
  | 0, y => by
    unfold digitOf
    obtain ⟨c, rfl⟩ : ∃ c, β = c + 1 := ⟨β - 1, by omega⟩
    have h1 := Int.le_bmod (x := y) (m := 2 ^ (c + 1)) (by positivity)
    have h2 := Int.bmod_lt (x := y) (m := 2 ^ (c + 1)) (by positivity)
    have e : (2 : Nat) ^ (c + 1) = 2 * 2 ^ c := by ring
    simp only [Nat.add_sub_cancel]
    rw [e] at h1 h2 ⊢
    generalize y.bmod (2 * 2 ^ c) = r at *
    generalize (2 : Nat) ^ c = p at *
    omega
  | t + 1, y => by
    unfold digitOf
    exact digitOf_le hβ t _

theorem digitOf_sum (β : Nat) : ∀ (ℓ : Nat) (y : Int),
    ∃ z : Int, ∑ t ∈ range ℓ, digitOf β y t * 2 ^ (β * t) = y + z * 2 ^ (β * ℓ)
  | 0, y => ⟨-y, by simp⟩
  | ℓ + 1, y => by
    obtain ⟨z, hz⟩ := digitOf_sum β ℓ ((y - Int.bmod y (2 ^ β)) / 2 ^ β)
    have hdvd : (y - Int.bmod y (2 ^ β)) = 2 ^ β * ((y - Int.bmod y (2 ^ β)) / 2 ^ β) := by
      rw [Int.mul_ediv_cancel']
      have := Int.dvd_self_sub_bmod (x := y) (m := 2 ^ β)
      push_cast at this
      exact this
    refine ⟨z, ?_⟩
    rw [sum_range_succ']
    have : ∀ t, digitOf β y (t + 1) * 2 ^ (β * (t + 1)) =
        2 ^ β * (digitOf β ((y - Int.bmod y (2 ^ β)) / 2 ^ β) t * 2 ^ (β * t)) := by
      intro t
      conv_lhs => unfold digitOf
      rw [Nat.mul_succ, pow_add]; ring
    simp only [this, ← mul_sum, hz]
    have e0 : digitOf β y 0 = Int.bmod y (2 ^ β) := rfl
    rw [e0, mul_add, ← hdvd, Nat.mul_succ, pow_add]
    ring

theorem dec_le {β ℓ : Nat} (hβ : 1 ≤ β) (x : BitVec 64) (t : Nat) : (dec β ℓ x t).natAbs ≤ 2 ^ (β - 1) := digitOf_le hβ _ _

theorem ofInt_sum {ι : Type} (I : Finset ι) (f : ι → Int) :
    BitVec.ofInt 64 (∑ i ∈ I, f i) = ∑ i ∈ I, BitVec.ofInt 64 (f i) := by
  classical
  induction I using Finset.induction_on with
  | empty => rfl
  | insert i I hi ih => rw [sum_insert hi, sum_insert hi, ofInt_add', ih]

/-- the decomposition is exact up to half the weight of the last digit -/
theorem dec_near {β ℓ : Nat} (h : β * ℓ ≤ 63) (x : BitVec 64) :
    Near (∑ t ∈ range ℓ, BitVec.ofInt 64 (dec β ℓ x t) * gadget β ℓ t) x (2 ^ (63 - β * ℓ)) := by
  obtain ⟨w, hw⟩ : ∃ w, w = 63 - β * ℓ := ⟨_, rfl⟩
  have hw' : 64 - β * ℓ = w + 1 := by omega
  obtain ⟨y, hy⟩ : ∃ y : Nat, y = (x.toNat + 2 ^ w) / 2 ^ (w + 1) := ⟨_, rfl⟩
  obtain ⟨z, hz⟩ := digitOf_sum β ℓ (y : Int)
  have e1 : ∑ t ∈ range ℓ, BitVec.ofInt 64 (dec β ℓ x t) * gadget β ℓ t =
      BitVec.ofInt 64 (2 ^ (w + 1) * (y : Int)) := by
    have : ∀ t, BitVec.ofInt 64 (dec β ℓ x t) * gadget β ℓ t =
        BitVec.ofInt 64 (2 ^ (w + 1) * (digitOf β (y : Int) t * 2 ^ (β * t))) := by
      intro t
      unfold dec gadget
      rw [← ofInt_mul', hw', ← hw, ← hy, pow_add]
      congr 1; ring
    simp only [this]
    rw [← ofInt_sum, ← mul_sum, hz, ofInt_eq_iff]
    refine ⟨z, ?_⟩
    have : (2 : Int) ^ 64 = 2 ^ (w + 1) * 2 ^ (β * ℓ) := by rw [← pow_add]; congr 1; omega
    rw [this]; ring
  rw [e1, ← hw]
  refine ⟨2 ^ (w + 1) * (y : Int) - x.toNat, ?_, ?_⟩
  · have e2 : (2 : Nat) ^ (w + 1) = 2 * 2 ^ w := by ring
    have h1 := Nat.div_add_mod (x.toNat + 2 ^ w) (2 ^ (w + 1))
    have h2 := Nat.mod_lt (x.toNat + 2 ^ w) (show 0 < 2 ^ (w + 1) by positivity)
    rw [← hy] at h1
    have e3 : (2 : Int) ^ (w + 1) * (y : Int) = ((2 ^ (w + 1) * y : Nat) : Int) := by push_cast; rfl
    rw [e3]
    generalize 2 ^ (w + 1) * y = u at *
    omega
  · rw [sub_eq_add_neg, ofInt_add', ofInt_neg']
    have : BitVec.ofInt 64 (x.toNat : Int) = x := by simp
    rw [this]; ring


/-! ### Polynomials -/

/-- coefficients of a polynomial modulo `X^N + 1` -/
def Nega (N : Nat) (f : Poly) : Prop := ∀ i, f (i + N) = - f i

theorem Nega.at {N : Nat} {f : Poly} (h : Nega N f) (r : Int) : ∀ q : Int,
    f (r + q * N) = if q % 2 = 0 then f r else - f r := by
  intro q
  induction q using Int.induction_on with
  | zero => simp
  | succ q ih =>
    rw [show r + ((q : Int) + 1) * N = (r + q * N) + N by ring, h, ih]
    by_cases hq : (q : Int) % 2 = 0
    · rw [if_pos hq, if_neg (by omega)]
    · rw [if_neg hq, if_pos (by omega), neg_neg]
  | pred q ih =>
    have h' := h (r + (-(q : Int) - 1) * N)
    rw [show r + (-(q : Int) - 1) * N + N = r + (-(q : Int)) * N by ring, ih] at h'
    have h'' : f (r + (-(q : Int) - 1) * N) = - (if -(q : Int) % 2 = 0 then f r else - f r) := by rw [h', neg_neg]
    rw [h'']
    by_cases hq : -(q : Int) % 2 = 0
    · rw [if_pos hq, if_neg (by omega)]
    · rw [if_neg hq, if_pos (by omega), neg_neg]

theorem Nega.near {N : Nat} (hN : 0 < N) {f g : Poly} (hf : Nega N f) (hg : Nega N g) {b : Nat}
    (h : ∀ j : Nat, j < N → Near (f j) (g j) b) (i : Int) : Near (f i) (g i) b := by
  have e : i = i % N + i / N * N := by rw [mul_comm]; exact (Int.emod_add_mul_ediv i N).symm
  have h0 := Int.emod_nonneg i (show (N : Int) ≠ 0 by omega)
  have h1 := Int.emod_lt_of_pos i (show (0 : Int) < N by omega)
  have := h (i % N).toNat (by omega)
  rw [Int.toNat_of_nonneg h0] at this
  rw [e, hf.at, hg.at]
  split_ifs
  · exact this
  · exact this.neg

theorem Nega.add {N : Nat} {f g : Poly} (hf : Nega N f) (hg : Nega N g) : Nega N (fun i => f i + g i) := by
  intro i; simp only [hf i, hg i]; ring

theorem Nega.sub {N : Nat} {f g : Poly} (hf : Nega N f) (hg : Nega N g) : Nega N (fun i => f i - g i) := by
  intro i; simp only [hf i, hg i]; ring

theorem Nega.smul {N : Nat} {f : Poly} (c : BitVec 64) (hf : Nega N f) : Nega N (fun i => c * f i) := by
  intro i; simp only [hf i]; ring

theorem Nega.neg {N : Nat} {f : Poly} (hf : Nega N f) : Nega N (fun i => - f i) := by
  intro i; simp only [hf i]

theorem Nega.shift {N : Nat} {f : Poly} (a : Int) (hf : Nega N f) : Nega N (fun i => f (i - a)) := by
  intro i
  simp only
  rw [show i + (N : Int) - a = (i - a) + N by ring, hf]

theorem Nega.sum {ι : Type} {N : Nat} {f : ι → Poly} (I : Finset ι) (hf : ∀ j ∈ I, Nega N (f j)) :
    Nega N (fun i => ∑ j ∈ I, f j i) := by
  intro i
  simp only
  rw [← sum_neg_distrib]
  exact sum_congr rfl fun j hj => hf j hj i

theorem Nega.conv {N : Nat} {f : Poly} (d : Nat → Int) (hf : Nega N f) : Nega N (conv N d f) :=
  Nega.sum _ fun j _ => (hf.shift j).smul _

theorem nega_zero (N : Nat) : Nega N (fun _ => 0) := fun _ => by simp

theorem nega_ext {N : Nat} (hN : 0 < N) (d : Nat → BitVec 64) : Nega N (ext N d) := by
  intro i
  unfold ext
  have h0 := Int.emod_nonneg i (show ((2 * N : Nat) : Int) ≠ 0 by omega)
  have h1 := Int.emod_lt_of_pos i (show (0 : Int) < (2 * N : Nat) by omega)
  have e := Int.emod_add_mul_ediv i (2 * N : Nat)
  generalize i % (2 * N : Nat) = r at *
  generalize i / (2 * N : Nat) = q at *
  have key : (i + N) % (2 * N : Nat) = if r < N then r + N else r - N := by
    subst e
    split_ifs
    · rw [show r + ((2 * N : Nat) : Int) * q + N = (r + N) + ((2 * N : Nat) : Int) * q by ring, Int.add_mul_emod_self_left,
        Int.emod_eq_of_lt (by omega) (by omega)]
    · rw [show r + ((2 * N : Nat) : Int) * q + N = (r - N) + ((2 * N : Nat) : Int) * (q + 1) by push_cast; ring,
        Int.add_mul_emod_self_left, Int.emod_eq_of_lt (by omega) (by omega)]
  rw [key]
  by_cases hr : r < N
  · rw [if_pos hr, if_neg (by omega), if_pos hr]
    congr 3; omega
  · rw [if_neg hr, if_pos (by omega), if_neg hr, neg_neg]

theorem ext_nat {N : Nat} (d : Nat → BitVec 64) {j : Nat} (hj : j < N) : ext N d j = d j := by
  unfold ext
  rw [Int.emod_eq_of_lt (by omega) (by omega), if_pos (by omega), Int.toNat_natCast]

theorem sum_periodic {N : Nat} {F : Int → BitVec 64} (hF : ∀ i, F (i + N) = F i) (c : Int) :
    ∑ j ∈ range N, F (c + j) = ∑ j ∈ range N, F j := by
  have step : ∀ c : Int, ∑ j ∈ range N, F (c + 1 + j) = ∑ j ∈ range N, F (c + j) := by
    intro c
    have h1 := sum_range_succ (fun j : Nat => F (c + j)) N
    have h2 := sum_range_succ' (fun j : Nat => F (c + j)) N
    rw [h1] at h2
    rw [hF] at h2
    simp only [Nat.cast_zero, add_zero] at h2
    have h3 := add_right_cancel h2
    rw [h3]
    refine sum_congr rfl fun j _ => ?_
    congr 1; push_cast; ring
  induction c using Int.induction_on with
  | zero => simp
  | succ c ih => rw [step]; exact ih
  | pred c ih => rw [← ih, ← step]; simp only [sub_add_cancel]

/-- the product of two polynomials with small coefficients is commutative -/
theorem conv_comm {N : Nat} (hN : 0 < N) (d s : Nat → Int) (i : Int) :
    conv N d (ext N fun j => BitVec.ofInt 64 (s j)) i = conv N s (ext N fun j => BitVec.ofInt 64 (d j)) i := by
  obtain ⟨fd, hfd⟩ : ∃ f, f = ext N fun j => BitVec.ofInt 64 (d j) := ⟨_, rfl⟩
  obtain ⟨fs, hfs⟩ : ∃ f, f = ext N fun j => BitVec.ofInt 64 (s j) := ⟨_, rfl⟩
  have nd : Nega N fd := hfd ▸ nega_ext hN _
  have ns : Nega N fs := hfs ▸ nega_ext hN _
  have e1 : conv N d fs i = ∑ j ∈ range N, fd j * fs (i - j) := by
    unfold conv
    refine sum_congr rfl fun j hj => ?_
    rw [hfd, ext_nat _ (mem_range.1 hj)]
  have e2 : conv N s fd i = ∑ j ∈ range N, fd (i - j) * fs j := by
    unfold conv
    refine sum_congr rfl fun j hj => ?_
    rw [hfs, ext_nat _ (mem_range.1 hj), mul_comm]
  rw [← hfd, ← hfs, e1, e2]
  have per : ∀ j : Int, fd (j + N) * fs (i - (j + N)) = fd j * fs (i - j) := by
    intro j
    have : fs (i - j) = - fs (i - (j + N)) := by rw [← ns]; congr 1; ring
    rw [nd, this]; ring
  have h1 := sum_periodic (F := fun j => fd j * fs (i - j)) per (i - (N - 1 : Int))
  rw [← h1, ← sum_range_reflect]
  refine sum_congr rfl fun j hj => ?_
  have := mem_range.1 hj
  have e : i - ((N : Int) - 1) + ((N - 1 - j : Nat) : Int) = i - j := by omega
  simp only [e]
  rw [show i - (i - (j : Int)) = j by ring]

theorem conv_add (N : Nat) (d : Nat → Int) (f g : Poly) (i : Int) :
    conv N d (fun i => f i + g i) i = conv N d f i + conv N d g i := by
  unfold conv
  rw [← sum_add_distrib]
  exact sum_congr rfl fun j _ => mul_add ..

theorem conv_sub (N : Nat) (d : Nat → Int) (f g : Poly) (i : Int) :
    conv N d (fun i => f i - g i) i = conv N d f i - conv N d g i := by
  unfold conv
  rw [← sum_sub_distrib]
  exact sum_congr rfl fun j _ => mul_sub ..

theorem conv_smul (N : Nat) (d : Nat → Int) (c : BitVec 64) (f : Poly) (i : Int) :
    conv N d (fun i => c * f i) i = c * conv N d f i := by
  unfold conv
  rw [mul_sum]
  exact sum_congr rfl fun j _ => by ring

theorem conv_neg (N : Nat) (d : Nat → Int) (f : Poly) (i : Int) : conv N d (fun i => - f i) i = - conv N d f i := by
  unfold conv
  rw [← sum_neg_distrib]
  exact sum_congr rfl fun j _ => by ring

theorem conv_sum {ι : Type} (I : Finset ι) (N : Nat) (d : Nat → Int) (f : ι → Poly) (i : Int) :
    conv N d (fun i => ∑ u ∈ I, f u i) i = ∑ u ∈ I, conv N d (f u) i := by
  unfold conv
  rw [sum_comm]
  exact sum_congr rfl fun j _ => mul_sum ..

theorem conv_conv (N : Nat) (d s : Nat → Int) (f : Poly) (i : Int) :
    conv N d (conv N s f) i = conv N s (conv N d f) i := by
  unfold conv
  simp only [mul_sum]
  rw [sum_comm]
  refine sum_congr rfl fun j _ => sum_congr rfl fun j' _ => ?_
  rw [show i - (j' : Int) - j = i - j - j' by ring]; ring

theorem conv_one {N : Nat} (hN : 0 < N) (d : Nat → Int) (i : Int) :
    conv N d (ext N fun j => BitVec.ofInt 64 (if j = 0 then 1 else 0)) i = ext N (fun j => BitVec.ofInt 64 (d j)) i := by
  rw [conv_comm hN]
  unfold conv
  rw [sum_eq_single 0]
  · simp
  · intro j _ hj
    simp only [if_neg hj, ofInt_zero', zero_mul]
  · intro h; exact absurd (mem_range.2 hN) h

theorem conv_near {N : Nat} {d : Nat → Int} {c : Nat} (hd : ∀ j, (d j).natAbs ≤ c) {f g : Poly} {b : Nat}
    (h : ∀ i, Near (f i) (g i) b) (i : Int) : Near (conv N d f i) (conv N d g i) (N * (c * b)) := by
  have := Near.sum_const (range N) (x := fun j => BitVec.ofInt 64 (d j) * f (i - j))
    (y := fun j => BitVec.ofInt 64 (d j) * g (i - j)) (b := c * b) fun j _ => (h _).smul (hd j)
  rwa [card_range] at this


/-! ### External product and CMux -/

theorem toInt_le (b : Bool) : b.toInt.natAbs ≤ 1 := by cases b <;> decide

theorem phase_extProd (P : Par) (s : Nat × Nat → Bool) (rows : Nat → Nat → Glwe) (c : Glwe) (i : Int) :
    (extProd P rows c).phase P s i = ∑ u ∈ range (P.k + 1), ∑ t ∈ range P.pbsLevel,
      conv P.N (fun j => dec P.pbsBase P.pbsLevel (c.comp P.k u j) t) ((rows u t).phase P s) i := by
  have e : ∀ u t, conv P.N (fun j => dec P.pbsBase P.pbsLevel (c.comp P.k u j) t) ((rows u t).phase P s) i =
      conv P.N (fun j => dec P.pbsBase P.pbsLevel (c.comp P.k u j) t) (rows u t).B i -
      ∑ v ∈ range P.k, conv P.N (keyPoly s v)
        (conv P.N (fun j => dec P.pbsBase P.pbsLevel (c.comp P.k u j) t) ((rows u t).A v)) i := by
    intro u t
    unfold Glwe.phase
    rw [conv_sub, conv_sum]
    congr 1
    exact sum_congr rfl fun v _ => conv_conv ..
  simp only [e, sum_sub_distrib]
  unfold Glwe.phase extProd
  simp only
  congr 1
  simp only [conv_sum]
  rw [sum_comm]
  refine sum_congr rfl fun u _ => ?_
  rw [sum_comm]

/-- the sum of the digits of a polynomial -/
def recompose (P : Par) (f : Poly) : Poly := fun i =>
  ∑ t ∈ range P.pbsLevel, gadget P.pbsBase P.pbsLevel t *
    ext P.N (fun j => BitVec.ofInt 64 (dec P.pbsBase P.pbsLevel (f j) t)) i

theorem N_pos (P : Par) : 0 < P.N := by unfold Par.N; positivity

theorem recompose_near (P : Par) (hg : P.pbsBase * P.pbsLevel ≤ 63) {f : Poly} (hf : Nega P.N f) (i : Int) :
    Near (recompose P f i) (f i) (2 ^ (63 - P.pbsBase * P.pbsLevel)) := by
  refine Nega.near (N_pos P) (Nega.sum _ fun t _ => (nega_ext (N_pos P) _).smul _) hf (fun j hj => ?_) i
  have := dec_near hg (f j)
  have e : recompose P f j = ∑ t ∈ range P.pbsLevel,
      BitVec.ofInt 64 (dec P.pbsBase P.pbsLevel (f j) t) * gadget P.pbsBase P.pbsLevel t := by
    unfold recompose
    refine sum_congr rfl fun t _ => ?_
    rw [ext_nat _ hj, mul_comm]
  rw [← e] at this; exact this

/-- rows of a GGSW ciphertext of the bit `m`, with noise up to `η` -/
structure IsGgsw (P : Par) (s : Nat × Nat → Bool) (rows : Nat → Nat → Glwe) (m : Bool) (η : Nat) : Prop where
  negaA : ∀ u t v, Nega P.N ((rows u t).A v)
  negaB : ∀ u t, Nega P.N (rows u t).B
  near : ∀ u t i, Near ((rows u t).phase P s i)
    (BitVec.ofInt 64 m.toInt * (gadget P.pbsBase P.pbsLevel t * rowPoly P s u i)) η

/-- a ciphertext of polynomials -/
structure Glwe.Ok (P : Par) (c : Glwe) : Prop where
  negaA : ∀ u, Nega P.N (c.A u)
  negaB : Nega P.N c.B

/-- noise of one external product: rounding of the decomposition, noise of the rows -/
def Par.nu (P : Par) (η : Nat) : Nat :=
  (1 + P.k * P.N) * 2 ^ (63 - P.pbsBase * P.pbsLevel) + (P.k + 1) * (P.pbsLevel * (P.N * (2 ^ (P.pbsBase - 1) * η)))

theorem extProd_near {P : Par} {s : Nat × Nat → Bool} {rows : Nat → Nat → Glwe} {m : Bool} {η : Nat}
    (hb : 1 ≤ P.pbsBase) (hg : P.pbsBase * P.pbsLevel ≤ 63) (hr : IsGgsw P s rows m η) {c : Glwe} (hc : c.Ok P) (i : Int) :
    Near ((extProd P rows c).phase P s i) (BitVec.ofInt 64 m.toInt * c.phase P s i) (P.nu η) := by
  rw [phase_extProd]
  -- replace the phases of the rows by what they hold
  have h1 : Near (∑ u ∈ range (P.k + 1), ∑ t ∈ range P.pbsLevel,
        conv P.N (fun j => dec P.pbsBase P.pbsLevel (c.comp P.k u j) t) ((rows u t).phase P s) i)
      (∑ u ∈ range (P.k + 1), ∑ t ∈ range P.pbsLevel,
        conv P.N (fun j => dec P.pbsBase P.pbsLevel (c.comp P.k u j) t)
          (fun i => BitVec.ofInt 64 m.toInt * (gadget P.pbsBase P.pbsLevel t * rowPoly P s u i)) i)
      ((P.k + 1) * (P.pbsLevel * (P.N * (2 ^ (P.pbsBase - 1) * η)))) := by
    have := Near.sum_const (range (P.k + 1)) (b := P.pbsLevel * (P.N * (2 ^ (P.pbsBase - 1) * η)))
      (x := fun u => ∑ t ∈ range P.pbsLevel,
        conv P.N (fun j => dec P.pbsBase P.pbsLevel (c.comp P.k u j) t) ((rows u t).phase P s) i)
      (y := fun u => ∑ t ∈ range P.pbsLevel,
        conv P.N (fun j => dec P.pbsBase P.pbsLevel (c.comp P.k u j) t)
          (fun i => BitVec.ofInt 64 m.toInt * (gadget P.pbsBase P.pbsLevel t * rowPoly P s u i)) i) (by
        intro u _
        have := Near.sum_const (range P.pbsLevel) (b := P.N * (2 ^ (P.pbsBase - 1) * η))
          (x := fun t => conv P.N (fun j => dec P.pbsBase P.pbsLevel (c.comp P.k u j) t) ((rows u t).phase P s) i)
          (y := fun t => conv P.N (fun j => dec P.pbsBase P.pbsLevel (c.comp P.k u j) t)
            (fun i => BitVec.ofInt 64 m.toInt * (gadget P.pbsBase P.pbsLevel t * rowPoly P s u i)) i)
          fun t _ => conv_near (fun j => dec_le hb _ _) (fun i => hr.near u t i) i
        rwa [card_range] at this)
    rwa [card_range] at this
  -- collect the digits
  have h2 : ∑ u ∈ range (P.k + 1), ∑ t ∈ range P.pbsLevel,
        conv P.N (fun j => dec P.pbsBase P.pbsLevel (c.comp P.k u j) t)
          (fun i => BitVec.ofInt 64 m.toInt * (gadget P.pbsBase P.pbsLevel t * rowPoly P s u i)) i =
      BitVec.ofInt 64 m.toInt * (recompose P c.B i - ∑ u ∈ range P.k, conv P.N (keyPoly s u) (recompose P (c.A u)) i) := by
    have hu : ∀ u, ∑ t ∈ range P.pbsLevel,
        conv P.N (fun j => dec P.pbsBase P.pbsLevel (c.comp P.k u j) t)
          (fun i => BitVec.ofInt 64 m.toInt * (gadget P.pbsBase P.pbsLevel t * rowPoly P s u i)) i =
        BitVec.ofInt 64 m.toInt * (if u < P.k then - conv P.N (keyPoly s u) (recompose P (c.A u)) i
          else recompose P c.B i) := by
      intro u
      unfold rowPoly Glwe.comp
      by_cases h : u < P.k
      · simp only [if_pos h, conv_smul, conv_neg]
        rw [← mul_sum]
        congr 1
        unfold recompose
        rw [conv_sum, ← sum_neg_distrib]
        refine sum_congr rfl fun t _ => ?_
        rw [conv_smul, conv_comm (N_pos P)]
        ring
      · simp only [if_neg h, conv_smul]
        rw [← mul_sum]
        congr 1
        unfold recompose
        refine sum_congr rfl fun t _ => ?_
        rw [conv_one (N_pos P)]
    simp only [hu]
    rw [← mul_sum, sum_range_succ, if_neg (by omega)]
    congr 1
    have : ∀ u ∈ range P.k, (if u < P.k then - conv P.N (keyPoly s u) (recompose P (c.A u)) i else recompose P c.B i) =
        - conv P.N (keyPoly s u) (recompose P (c.A u)) i := fun u hu => if_pos (mem_range.1 hu)
    rw [sum_congr rfl this, sum_neg_distrib]
    ring
  -- the rounding of the decomposition
  have h3 : Near (recompose P c.B i - ∑ u ∈ range P.k, conv P.N (keyPoly s u) (recompose P (c.A u)) i) (c.phase P s i)
      ((1 + P.k * P.N) * 2 ^ (63 - P.pbsBase * P.pbsLevel)) := by
    have a1 := recompose_near P hg hc.negaB i
    have a2 := Near.sum_const (range P.k) (x := fun u => conv P.N (keyPoly s u) (recompose P (c.A u)) i)
      (y := fun u => conv P.N (keyPoly s u) (c.A u) i) (b := P.N * (1 * 2 ^ (63 - P.pbsBase * P.pbsLevel)))
      fun u _ => conv_near (fun j => toInt_le _) (fun i => recompose_near P hg (hc.negaA u) i) i
    refine (a1.sub a2).mono (le_of_eq ?_)
    rw [card_range]; ring
  rw [h2] at h1
  refine (h1.trans (h3.smul (toInt_le m))).mono (le_of_eq ?_)
  unfold Par.nu; ring

theorem extProd_ok {P : Par} {s : Nat × Nat → Bool} {rows : Nat → Nat → Glwe} {m : Bool} {η : Nat}
    (hr : IsGgsw P s rows m η) (c : Glwe) : (extProd P rows c).Ok P where
  negaA v := by
    have := Nega.sum (range (P.k + 1)) (f := fun u i => ∑ t ∈ range P.pbsLevel,
      conv P.N (fun j => dec P.pbsBase P.pbsLevel (c.comp P.k u j) t) ((rows u t).A v) i) fun u _ =>
        Nega.sum (range P.pbsLevel) fun t _ => (hr.negaA u t v).conv _
    exact this
  negaB := by
    have := Nega.sum (range (P.k + 1)) (f := fun u i => ∑ t ∈ range P.pbsLevel,
      conv P.N (fun j => dec P.pbsBase P.pbsLevel (c.comp P.k u j) t) (rows u t).B i) fun u _ =>
        Nega.sum (range P.pbsLevel) fun t _ => (hr.negaB u t).conv _
    exact this

theorem cmux_ok {P : Par} {s : Nat × Nat → Bool} {rows : Nat → Nat → Glwe} {m : Bool} {η : Nat}
    (hr : IsGgsw P s rows m η) {c : Glwe} (hc : c.Ok P) (a : Int) : (cmux P rows a c).Ok P where
  negaA u := (hc.negaA u).add ((extProd_ok hr _).negaA u)
  negaB := hc.negaB.add (extProd_ok hr _).negaB

/-- a CMux selects, up to noise -/
theorem cmux_near {P : Par} {s : Nat × Nat → Bool} {rows : Nat → Nat → Glwe} {m : Bool} {η : Nat}
    (hb : 1 ≤ P.pbsBase) (hg : P.pbsBase * P.pbsLevel ≤ 63) (hr : IsGgsw P s rows m η) {c : Glwe} (hc : c.Ok P)
    (a i : Int) : Near ((cmux P rows a c).phase P s i) (c.phase P s (i - m.toInt * a)) (P.nu η) := by
  obtain ⟨d, hd⟩ : ∃ d : Glwe, d = { A := fun u i => c.A u (i - a) - c.A u i, B := fun i => c.B (i - a) - c.B i } := ⟨_, rfl⟩
  have hdok : d.Ok P := by
    subst hd
    exact ⟨fun u => ((hc.negaA u).shift a).sub (hc.negaA u), (hc.negaB.shift a).sub hc.negaB⟩
  have hdp : d.phase P s i = c.phase P s (i - a) - c.phase P s i := by
    subst hd
    unfold Glwe.phase
    simp only [conv_sub, sum_sub_distrib]
    have : ∀ u, conv P.N (keyPoly s u) (fun i => c.A u (i - a)) i = conv P.N (keyPoly s u) (c.A u) (i - a) := by
      intro u
      unfold conv
      refine sum_congr rfl fun j _ => ?_
      simp only
      rw [show i - (j : Int) - a = i - a - j by ring]
    simp only [this]
    ring
  have he := extProd_near hb hg hr hdok i
  have hp : (cmux P rows a c).phase P s i = c.phase P s i + (extProd P rows d).phase P s i := by
    subst hd
    unfold cmux Glwe.phase
    simp only [conv_add, sum_add_distrib]
    ring
  rw [hp]
  refine (((Near.refl _).add he).trans (Near.of_eq ?_)).mono (by omega)
  rw [hdp]
  cases m
  · have : BitVec.ofInt 64 false.toInt = 0 := rfl
    rw [this]
    have : i - false.toInt * a = i := by simp
    rw [this]; ring
  · have : BitVec.ofInt 64 true.toInt = 1 := rfl
    rw [this]
    have : i - true.toInt * a = i - a := by simp
    rw [this]; ring

theorem rotations_near {P : Par} {s : Nat × Nat → Bool} {bsk : Nat → Nat → Nat → Glwe} {sm : Nat → Bool} {η : Nat}
    (hb : 1 ≤ P.pbsBase) (hg : P.pbsBase * P.pbsLevel ≤ 63) (hr : ∀ r, IsGgsw P s (bsk r) (sm r) η) {c : Glwe} (hc : c.Ok P)
    (a : Nat → Int) : ∀ n, (rotations P bsk a n c).Ok P ∧ ∀ i, Near ((rotations P bsk a n c).phase P s i)
      (c.phase P s (i - ∑ t ∈ range n, (sm t).toInt * a t)) (n * P.nu η)
  | 0 => ⟨hc, fun i => by
    refine (Near.of_eq ?_).mono (by omega)
    rw [sum_range_zero, sub_zero]; rfl⟩
  | n + 1 => by
    obtain ⟨ih1, ih2⟩ := rotations_near hb hg hr hc a n
    refine ⟨cmux_ok (hr n) ih1 _, fun i => ?_⟩
    refine ((cmux_near hb hg (hr n) ih1 (a n) i).trans (ih2 _)).trans (Near.of_eq ?_) |>.mono (le_of_eq (by ring))
    rw [sum_range_succ]
    congr 1; ring


/-! ### Keys -/

theorem phase_lweEnc {ι : Type} (I : Finset ι) (s : ι → Bool) (a : ι → BitVec 64) (e : Int) (m : BitVec 64) :
    (lweEnc I s a e m).phase I s = m + BitVec.ofInt 64 e := by
  unfold lweEnc Lwe.phase
  ring

theorem phase_glweEnc (P : Par) (s : Nat × Nat → Bool) (a : Nat → Nat → BitVec 64) (e : Nat → Int) (m : Poly) (i : Int) :
    (glweEnc P s a e m).phase P s i = m i + ext P.N (fun j => BitVec.ofInt 64 (e j)) i := by
  unfold glweEnc Glwe.phase
  ring

theorem ext_near {N : Nat} (hN : 0 < N) {e : Nat → Int} {η : Nat} (h : ∀ j, (e j).natAbs ≤ η) (i : Int) :
    Near (ext N (fun j => BitVec.ofInt 64 (e j)) i) 0 η := by
  refine Nega.near hN (nega_ext hN _) (nega_zero N) (fun j hj => ?_) i
  rw [ext_nat _ hj]
  exact ⟨e j, h j, by rw [zero_add]⟩

theorem nega_rowPoly (P : Par) (s : Nat × Nat → Bool) (u : Nat) : Nega P.N (rowPoly P s u) := by
  unfold rowPoly
  split_ifs
  · exact (nega_ext (N_pos P) _).neg
  · exact nega_ext (N_pos P) _

/-- noise bounds of everything drawn -/
structure Secret.Bounded (K : Secret) (ηks ηbs B : Nat) : Prop where
  ks : ∀ p t, (K.ksNoise p t).natAbs ≤ ηks
  bs : ∀ r u t j, (K.bsNoise r u t j).natAbs ≤ ηbs
  enc : ∀ seed, (K.encNoise seed).natAbs ≤ B

theorem bsk_ggsw {P : Par} {K : Secret} {ηks ηbs B : Nat} (hK : K.Bounded ηks ηbs B) (r : Nat) :
    IsGgsw P K.large (K.bsk P r) (K.small r) ηbs where
  negaA u t v := nega_ext (N_pos P) _
  negaB u t := by
    unfold Secret.bsk glweEnc
    refine Nega.add (Nega.add ?_ ?_) (nega_ext (N_pos P) _)
    · exact Nega.sum _ fun v _ => (nega_ext (N_pos P) _).conv _
    · exact ((nega_rowPoly P K.large u).smul _).smul _
  near u t i := by
    unfold Secret.bsk
    rw [phase_glweEnc]
    have := ((Near.refl (BitVec.ofInt 64 (K.small r).toInt *
      (gadget P.pbsBase P.pbsLevel t * rowPoly P K.large u i))).add (ext_near (N_pos P) (hK.bs r u t) i))
    rw [add_zero, zero_add] at this
    exact this

/-! ### Key switching -/

/-- drift of a key switch -/
def Par.ksDrift (P : Par) (η : Nat) : Nat :=
  P.k * P.N * 2 ^ (63 - P.ksBase * P.ksLevel) + P.k * P.N * (P.ksLevel * (2 ^ (P.ksBase - 1) * η))

theorem card_big (P : Par) : P.big.card = P.k * P.N := by
  unfold Par.big; rw [card_product, card_range, card_range]

theorem keySwitch_phase (P : Par) (K : Secret) (c : Lwe (Nat × Nat)) :
    (keySwitch P (K.ksk P) c).phase (range P.n) K.small = c.b - ∑ p ∈ P.big, ∑ t ∈ range P.ksLevel,
    BitVec.ofInt 64 (dec P.ksBase P.ksLevel (c.a p) t) * (K.ksk P p t).phase (range P.n) K.small := by
  unfold Lwe.phase keySwitch
  simp only [mul_sub, sum_sub_distrib, mul_neg, sum_neg_distrib]
  have : ∑ j ∈ range P.n, BitVec.ofInt 64 (K.small j).toInt * ∑ p ∈ P.big, ∑ t ∈ range P.ksLevel,
        BitVec.ofInt 64 (dec P.ksBase P.ksLevel (c.a p) t) * (K.ksk P p t).a j =
      ∑ p ∈ P.big, ∑ t ∈ range P.ksLevel, BitVec.ofInt 64 (dec P.ksBase P.ksLevel (c.a p) t) *
        ∑ j ∈ range P.n, BitVec.ofInt 64 (K.small j).toInt * (K.ksk P p t).a j := by
    simp only [mul_sum]
    rw [sum_comm]
    refine sum_congr rfl fun p _ => ?_
    rw [sum_comm]
    refine sum_congr rfl fun t _ => sum_congr rfl fun j _ => ?_
    ring
  rw [this]
  ring

theorem keySwitch_near {P : Par} {K : Secret} {ηks ηbs B : Nat} (hK : K.Bounded ηks ηbs B) (hb : 1 ≤ P.ksBase)
    (hg : P.ksBase * P.ksLevel ≤ 63) (c : Lwe (Nat × Nat)) :
    Near ((keySwitch P (K.ksk P) c).phase (range P.n) K.small) (c.phase P.big K.large) (P.ksDrift ηks) := by
  have h0 := keySwitch_phase P K c
  rw [h0]
  have h1 := Near.sum_const P.big (b := P.ksLevel * (2 ^ (P.ksBase - 1) * ηks))
    (x := fun p => ∑ t ∈ range P.ksLevel,
      BitVec.ofInt 64 (dec P.ksBase P.ksLevel (c.a p) t) * (K.ksk P p t).phase (range P.n) K.small)
    (y := fun p => ∑ t ∈ range P.ksLevel,
      BitVec.ofInt 64 (dec P.ksBase P.ksLevel (c.a p) t) *
        (BitVec.ofInt 64 (K.large p).toInt * gadget P.ksBase P.ksLevel t)) (by
      intro p _
      have := Near.sum_const (range P.ksLevel) (b := 2 ^ (P.ksBase - 1) * ηks)
        (x := fun t => BitVec.ofInt 64 (dec P.ksBase P.ksLevel (c.a p) t) * (K.ksk P p t).phase (range P.n) K.small)
        (y := fun t => BitVec.ofInt 64 (dec P.ksBase P.ksLevel (c.a p) t) *
          (BitVec.ofInt 64 (K.large p).toInt * gadget P.ksBase P.ksLevel t)) (by
          intro t _
          refine Near.smul ?_ (dec_le hb _ _)
          unfold Secret.ksk
          rw [phase_lweEnc]
          exact ⟨_, hK.ks p t, rfl⟩)
      rwa [card_range] at this)
  have h2 := Near.sum_const P.big (b := 1 * 2 ^ (63 - P.ksBase * P.ksLevel))
    (x := fun p => ∑ t ∈ range P.ksLevel,
      BitVec.ofInt 64 (dec P.ksBase P.ksLevel (c.a p) t) *
        (BitVec.ofInt 64 (K.large p).toInt * gadget P.ksBase P.ksLevel t))
    (y := fun p => BitVec.ofInt 64 (K.large p).toInt * c.a p) (by
      intro p _
      have := (dec_near hg (c.a p)).smul (toInt_le (K.large p))
      rw [mul_sum] at this
      have e : ∀ t, BitVec.ofInt 64 (dec P.ksBase P.ksLevel (c.a p) t) *
          (BitVec.ofInt 64 (K.large p).toInt * gadget P.ksBase P.ksLevel t) =
          BitVec.ofInt 64 (K.large p).toInt * (BitVec.ofInt 64 (dec P.ksBase P.ksLevel (c.a p) t) *
            gadget P.ksBase P.ksLevel t) := fun t => by ring
      simp only [e]
      exact this)
  refine ((Near.refl c.b).sub (h1.trans h2)).mono (le_of_eq ?_)
  rw [card_big]; unfold Par.ksDrift; ring

/-! ### Modulus switching -/

theorem position_near {logN : Nat} (h : logN ≤ 62) (x : BitVec 64) :
    Near x (BitVec.ofInt 64 (position logN x * 2 ^ (63 - logN))) (2 ^ (62 - logN)) := by
  obtain ⟨w, hw⟩ : ∃ w, w = 62 - logN := ⟨_, rfl⟩
  have hw' : 63 - logN = w + 1 := by omega
  unfold position
  rw [hw', ← hw]
  have e2 : (2 : Nat) ^ (w + 1) = 2 * 2 ^ w := by ring
  obtain ⟨y, hy⟩ : ∃ y : Nat, y = (x.toNat + 2 ^ w) / 2 ^ (w + 1) := ⟨_, rfl⟩
  have h1 := Nat.div_add_mod (x.toNat + 2 ^ w) (2 ^ (w + 1))
  have h2 := Nat.mod_lt (x.toNat + 2 ^ w) (show 0 < 2 ^ (w + 1) by positivity)
  rw [← hy] at h1 ⊢
  have h3 := Nat.div_add_mod y (2 * 2 ^ logN)
  refine ⟨x.toNat - (2 ^ (w + 1) * y : Nat), ?_, ?_⟩
  · generalize 2 ^ (w + 1) * y = u at *
    omega
  · rw [← ofInt_add']
    have e : x = BitVec.ofInt 64 (x.toNat : Int) := by simp
    conv_lhs => rw [e]
    rw [ofInt_eq_iff]
    refine ⟨(y / (2 * 2 ^ logN) : Nat), ?_⟩
    have e3 : (2 : Int) ^ 64 = 2 ^ (w + 1) * (2 * 2 ^ logN) := by
      rw [← pow_succ', ← pow_add]; congr 1; omega
    rw [e3]
    have h3' : (y : Int) = 2 * 2 ^ logN * (y / (2 * 2 ^ logN) : Nat) + (y % (2 * 2 ^ logN) : Nat) := by
      exact_mod_cast h3.symm
    push_cast at h3' ⊢
    rw [← sub_eq_zero]
    linear_combination (2 ^ (w + 1)) * h3'

/-- number of ones of the small key -/
def Secret.weight (P : Par) (K : Secret) : Nat := ∑ t ∈ range P.n, (K.small t).toNat

/-- drift of a bootstrap: key switch and rounding to `2N` positions -/
def drift (P : Par) (K : Secret) (ηks : Nat) : Nat := P.ksDrift ηks + (K.weight P + 1) * 2 ^ (62 - P.logN)

/-- where the blind rotation ends -/
def endPos (P : Par) (K : Secret) (c : Lwe Nat) : Int :=
  position P.logN c.b - ∑ t ∈ range P.n, (K.small t).toInt * position P.logN (c.a t)

theorem ofInt_endPos (P : Par) (K : Secret) (c : Lwe Nat) :
    BitVec.ofInt 64 (endPos P K c * 2 ^ (63 - P.logN)) =
      BitVec.ofInt 64 (position P.logN c.b * 2 ^ (63 - P.logN)) - ∑ t ∈ range P.n,
        BitVec.ofInt 64 (K.small t).toInt * BitVec.ofInt 64 (position P.logN (c.a t) * 2 ^ (63 - P.logN)) := by
  unfold endPos
  rw [sub_mul, sub_eq_add_neg, ofInt_add', ofInt_neg', sum_mul, ofInt_sum, ← sub_eq_add_neg]
  congr 1
  refine sum_congr rfl fun t _ => ?_
  rw [← ofInt_mul', mul_assoc]

theorem endPos_near {P : Par} {K : Secret} (h : P.logN ≤ 62) (c : Lwe Nat) :
    Near (c.phase (range P.n) K.small) (BitVec.ofInt 64 (endPos P K c * 2 ^ (63 - P.logN)))
      ((K.weight P + 1) * 2 ^ (62 - P.logN)) := by
  have h1 := position_near h c.b
  have h2 := Near.sum (range P.n) (b := fun t => (K.small t).toNat * 2 ^ (62 - P.logN))
    (x := fun t => BitVec.ofInt 64 (K.small t).toInt * c.a t)
    (y := fun t => BitVec.ofInt 64 (K.small t).toInt * BitVec.ofInt 64 (position P.logN (c.a t) * 2 ^ (63 - P.logN)))
    fun t _ => (position_near h (c.a t)).smul (by cases K.small t <;> decide)
  rw [ofInt_endPos]
  refine (h1.sub h2).mono (le_of_eq ?_)
  unfold Secret.weight
  rw [← sum_mul]; ring

/-! ### The bootstrap -/

theorem phase_extract (P : Par) (s : Nat × Nat → Bool) (c : Glwe) :
    (extract c).phase P.big s = c.phase P s 0 := by
  unfold Lwe.phase extract Glwe.phase Par.big conv keyPoly
  rw [sum_product]
  simp only [zero_sub]

theorem ext_negacyclic {N : Nat} (hN : 0 < N) (acc : List (BitVec 64)) (hl : acc.length = N) (i : Int) :
    ext N (fun j => acc.getD j 0) i = negacyclic acc (i % (2 * N : Nat)).toNat := by
  unfold ext negacyclic
  have h0 := Int.emod_nonneg i (show ((2 * N : Nat) : Int) ≠ 0 by omega)
  rw [hl]
  generalize i % (2 * N : Nat) = r at *
  by_cases h : r < N
  · rw [if_pos h, if_pos (by omega)]
  · rw [if_neg h, if_neg (by omega)]
    congr 2; omega

theorem bootstrap_near {P : Par} {K : Secret} {ηks ηbs B : Nat} (hK : K.Bounded ηks ηbs B) (hb : 1 ≤ P.pbsBase)
    (hg : P.pbsBase * P.pbsLevel ≤ 63) (acc : List (BitVec 64)) (hl : acc.length = P.N) (c : Lwe (Nat × Nat)) :
    Near ((bootstrap P (K.ksk P) (K.bsk P) acc c).phase P.big K.large)
      (negacyclic acc (endPos P K (keySwitch P (K.ksk P) c) % (2 * P.N : Nat)).toNat) (P.n * P.nu ηbs) := by
  unfold bootstrap
  rw [phase_extract]
  obtain ⟨c', hc'⟩ : ∃ c', c' = keySwitch P (K.ksk P) c := ⟨_, rfl⟩
  rw [← hc']
  unfold blindRotate
  have h := (rotations_near hb hg (fun r => bsk_ggsw (P := P) hK r)
    (c := { A := fun _ _ => 0, B := fun i => ext P.N (fun j => acc.getD j 0) (i + position P.logN c'.b) })
    ⟨fun _ => nega_zero _, by
      have := (nega_ext (N_pos P) (fun j => acc.getD j 0)).shift (-(position P.logN c'.b))
      simpa only [sub_neg_eq_add] using this⟩
    (fun t => position P.logN (c'.a t)) P.n).2 0
  refine (h.trans (Near.of_eq ?_)).mono (by omega)
  rw [← ext_negacyclic (N_pos P) acc hl]
  unfold Glwe.phase conv endPos
  simp only [mul_zero, sum_const_zero, sub_zero]
  congr 1; ring

theorem position_of_end (P : Par) (hlog : P.logN ≤ 62) (κ d : Int) :
    (κ % (2 * P.N : Nat)).toNat < 2 * P.N ∧
    BitVec.ofInt 64 (κ * 2 ^ (63 - P.logN)) + BitVec.ofInt 64 d =
      BitVec.ofInt 64 (((κ % (2 * P.N : Nat)).toNat : Int) * (2 ^ 64 / (2 * P.N) : Nat) + d) := by
  have hN := N_pos P
  have h0 := Int.emod_nonneg κ (show ((2 * P.N : Nat) : Int) ≠ 0 by omega)
  have h1 := Int.emod_lt_of_pos κ (show (0 : Int) < (2 * P.N : Nat) by omega)
  refine ⟨by omega, ?_⟩
  rw [← ofInt_add', ofInt_eq_iff]
  refine ⟨κ / (2 * P.N : Nat), ?_⟩
  have hdiv : 2 ^ 64 / (2 * P.N) = 2 ^ (63 - P.logN) := by
    unfold Par.N
    rw [← pow_succ', Nat.pow_div (by omega) (by norm_num)]
    congr 1; omega
  have e3 : (2 : Int) ^ 64 = 2 ^ (63 - P.logN) * (2 * P.N : Nat) := by
    unfold Par.N
    conv_lhs => rw [show (64 : Nat) = (63 - P.logN) + (P.logN + 1) by omega, pow_add, pow_succ]
    push_cast
    ring
  rw [hdiv, Int.toNat_of_nonneg h0, e3]
  have := Int.emod_add_mul_ediv κ (2 * P.N : Nat)
  generalize κ % (2 * P.N : Nat) = r at *
  generalize κ / (2 * P.N : Nat) = q at *
  rw [← this]
  push_cast
  ring

/-- **The textbook primitives meet the contract**, for all sizes, keys and noise bounds. -/
theorem sound {P : Par} {K : Secret} {ηks ηbs B : Nat} (hK : K.Bounded ηks ηbs B) (hlog : P.logN ≤ 62)
    (hb1 : 1 ≤ P.pbsBase) (hg1 : P.pbsBase * P.pbsLevel ≤ 63) (hb2 : 1 ≤ P.ksBase) (hg2 : P.ksBase * P.ksLevel ≤ 63)
    (hB : P.n * P.nu ηbs ≤ B) (T : Nat) :
    Sound (scheme P K) (clientKey P K) P.N B (drift P K ηks) T where
  phase_add x y := by
    show Lwe.phase P.big K.large _ = Lwe.phase P.big K.large x + Lwe.phase P.big K.large y
    unfold Lwe.phase scheme
    simp only [mul_add, sum_add_distrib]
    ring
  phase_neg x := by
    show Lwe.phase P.big K.large _ = - Lwe.phase P.big K.large x
    unfold Lwe.phase scheme
    simp only [mul_neg, sum_neg_distrib]
    ring
  phase_mulC x k := by
    show Lwe.phase P.big K.large _ = Lwe.phase P.big K.large x * k
    unfold Lwe.phase scheme
    simp only [sub_mul, sum_mul, mul_assoc]
  phase_addPt x p := by
    show Lwe.phase P.big K.large _ = Lwe.phase P.big K.large x + p
    unfold Lwe.phase scheme
    ring
  phase_encrypt seed mu _ := by
    refine ⟨K.encNoise seed, hK.enc seed, ?_⟩
    show Lwe.phase P.big K.large (lweEnc P.big K.large _ _ _) = _
    rw [phase_lweEnc, ofInt_add', ofInt_mul']
    have h1 : BitVec.ofInt 64 (2 ^ 59) = 576460752303423488#64 := by decide
    rw [h1]
    simp
  phase_pbs acc c m n hl _ _ := by
    obtain ⟨d, hd1, hd2⟩ := ((keySwitch_near hK hb2 hg2 c).symm.trans (endPos_near (K := K) hlog (keySwitch P (K.ksk P) c)))
    obtain ⟨e, he1, he2⟩ := bootstrap_near hK hb1 hg1 acc hl c
    obtain ⟨k1, k2⟩ := position_of_end P hlog (endPos P K (keySwitch P (K.ksk P) c)) d
    exact ⟨_, d, e, k1, hd1, he1.trans hB, hd2.trans k2, he2⟩

end Parm.Tfhe
