import Verif.Proof.Merged
import Verif.Proof.AddExact

/-!
# Products with a short factor

Where one factor is padded by trivial zeros, `mul_lwe` gives `0 · x`, an encrypted word that is the zero ciphertext whatever
`x` is.  The half products of such halves are the same ciphertexts, and adding them doubles the weight of every sample.
-/

namespace Parm
namespace Mg
open Wt

/-- the combination of a word -/
noncomputable def cw (w : Word Term) : Comb :=
  match w.ct with
  | .ct t => t.comb
  | .triv p => (0, p)

theorem cw_add (a b : Word Term) : cw (Word.add freeScheme a b) = cw a + cw b := by
  rcases a with ⟨s | p, m⟩ <;> rcases b with ⟨t | q, m'⟩ <;> simp [Word.add, cw, comb_add, comb_addPt, add_comm]

theorem cw_opp (a : Word Term) : cw (Word.opp freeScheme a) = - cw a := by
  rcases a with ⟨s | p, m⟩ <;> simp [Word.opp, cw, comb_neg]

theorem cw_sub (a b : Word Term) : cw (Word.sub freeScheme a b) = cw a - cw b := by
  rw [Word.sub, cw_add, cw_opp, sub_eq_add_neg]

theorem cw_mulConst (a : Word Term) (k : Nat) (hk : k < 2 ^ 31) : cw (Word.mulConst freeScheme a k) = (k : Int) • cw a := by
  have h : ¬ ((k : Int) < 0) := by omega
  have e : wrapI32 (((k : Int)).natAbs : Int) = k := by
    unfold wrapI32; rw [Int.bmod]; omega
  have e2 : (BitVec.ofInt 64 (k : Int)).toInt = k := by
    rw [BitVec.toInt_ofInt]
    simp only [Int.bmod]
    omega
  rcases a with ⟨s | p, m⟩
  · simp only [Word.mulConst, h, if_false, cw, e]
    rw [comb_mulC, e2]
  · simp only [Word.mulConst, h, if_false, cw, e]
    rw [Prod.smul_mk, smul_zero, zsmul_eq_mul, mul_comm]
    rfl

theorem cw_triv (pc : Cloud) : cw (encryptWordTriv Term pc 0) = 0 := by
  have : miToPt pc.msgMod 0 = 0 := by simp [miToPt, miToMu]
  simp only [cw, encryptWordTriv, this]
  rfl

theorem cw_sumAt (pc : Cloud) (x y : Ctxt Term) (i : Nat) : cw (sumAt pc x y i) = cw (pd pc x i) + cw (pd pc y i) := by
  unfold sumAt
  split
  · rw [cw_add]
  · rename_i h
    rw [pd_ge (x := y) (by omega), cw_triv, add_zero]

/-- an encrypted word -/
def Enc (w : Word Term) : Prop := w.isTriv = false

theorem Enc.add_left {a : Word Term} (h : Enc a) (b : Word Term) : Enc (Word.add freeScheme a b) := by
  unfold Enc at *; rw [isTriv_add, h]; rfl
theorem Enc.add_right {b : Word Term} (h : Enc b) (a : Word Term) : Enc (Word.add freeScheme a b) := by
  unfold Enc at *; rw [isTriv_add, h, Bool.and_false]
theorem Enc.sub {a : Word Term} (h : Enc a) (b : Word Term) : Enc (Word.sub freeScheme a b) := by
  unfold Enc at *; rw [isTriv_sub, h]; rfl
theorem Enc.mulConst {a : Word Term} (h : Enc a) (k : Int) : Enc (Word.mulConst freeScheme a k) := by
  unfold Enc at *; rw [isTriv_mulConst, h]
theorem Enc.ct {a : Word Term} (h : Enc a) : ∃ t, a.ct = .ct t := by
  rcases isTriv_or a with h' | h'
  · rw [h] at h'; cases h'
  · exact h'
theorem Enc.of_ct {a : Word Term} {t : Term} (h : a.ct = .ct t) : Enc a := not_triv_of_ct h
theorem Enc.not_zero {a : Word Term} (h : Enc a) : a.isTrivZero = false := by
  obtain ⟨t, h⟩ := h.ct
  simp [Word.isTrivZero, h]

theorem Enc.sumAt_left {pc : Cloud} {x y : Ctxt Term} {i : Nat} (h : Enc (pd pc x i)) : Enc (sumAt pc x y i) := by
  unfold sumAt
  split
  · exact h.add_left _
  · exact h

theorem Enc.afterCarry {w q : Nat → Word Term} {i : Nat} (h : Enc (w i)) : Enc (afterCarry w q i) := by
  unfold Wt.afterCarry
  split
  · exact (h.sub _).add_left _
  · exact h.sub _

theorem cw_afterCarry (w q : Nat → Word Term) (i : Nat) :
    cw (afterCarry w q i) = cw (w i) - (2 : Int) • cw (q i) + if 0 < i then cw (q (i - 1)) else 0 := by
  unfold Wt.afterCarry
  split
  · rw [cw_add, cw_sub, show ((2 : Int)) = ((2 : Nat) : Int) from rfl, cw_mulConst _ 2 (by decide)]
  · rw [cw_sub, show ((2 : Int)) = ((2 : Nat) : Int) from rfl, cw_mulConst _ 2 (by decide), add_zero]

theorem cw_carryIn (r : Nat) (w : Nat → Word Term) (i : Nat) :
    cw (Wt.carryIn r w i) = (3 : Int) • cw (w i) + if r < i then cw (w (i - 1)) else 0 := by
  unfold Wt.carryIn
  split
  · rw [cw_add, show ((3 : Int)) = ((3 : Nat) : Int) from rfl, cw_mulConst _ 3 (by decide)]
  · rw [show ((3 : Int)) = ((3 : Nat) : Int) from rfl, cw_mulConst _ 3 (by decide), add_zero]

theorem rzero_zero {x : Ctxt Term} {pc : Cloud} (h : Enc (pd pc x 0)) (hl : 0 < x.length) : rzero x = 0 := by
  by_contra hc
  have := rzero_low x (i := 0) (by omega) hl
  rw [pd_lt hl] at h
  rw [h.not_zero] at this
  cases this

theorem rzero_ge {x : Ctxt Term} {k : Nat} (hk : k ≤ x.length) (h : ∀ i (hi : i < x.length), i < k → x[i].isTrivZero = true) :
    k ≤ rzero x := by
  by_contra hc
  have := rzero_at x (by omega)
  rw [h _ (by omega) (by omega)] at this
  cases this

theorem rzero_ne {x : Ctxt Term} {pc : Cloud} {k : Nat} (h : Enc (pd pc x k)) (hk : k < x.length) : rzero x ≤ k := by
  by_contra hc
  have := rzero_low x (i := k) (by omega) hk
  rw [pd_lt hk] at h
  rw [h.not_zero] at this
  cases this

/-- the first carry and the first refreshed word of a sum of zero ciphertexts -/
noncomputable def K0 (pc : Cloud) : Comb := (Finsupp.single (2 * lookupNo (accOf pc (lut2 lutF4), 0) + 1) 1, 0)
/-- the number of the refreshed word -/
noncomputable def k1 (pc : Cloud) : ℕ := 2 * lookupNo (accOf pc (lut2 lutId), - ((2 : Int) • K0 pc)) + 1

/-- low words of a product with zero -/
structure Low (pc : Cloud) (z : Ctxt Term) : Prop where
  len : 2 ≤ z.length
  enc0 : Enc (pd pc z 0)
  zero : cw (pd pc z 0) = 0
  enc1 : Enc (pd pc z 1)
  one : cw (pd pc z 1) = (Finsupp.single (k1 pc) 1, 0)

/-- sum of the first two rows -/
theorem low_first {pc : Cloud} {x y : Ctxt Term} (hx : 2 ≤ x.length) (hy : 2 ≤ y.length) (e0 : Enc (pd pc x 0))
    (z0 : cw (pd pc x 0) = 0) (e1 : Enc (pd pc x 1)) (z1 : cw (pd pc x 1) = 0) (f0 : pd pc y 0 = encryptWordTriv Term pc 0)
    (f1 : Enc (pd pc y 1)) (g1 : cw (pd pc y 1) = 0) : Ensures (ctAdd freeScheme pc x y) (Low pc) := by
  have ht : (encryptWordTriv Term pc 0).isTrivZero = true := by simp [encryptWordTriv, Word.isTrivZero, miToPt, miToMu]
  have hrx : rzero x = 0 := rzero_zero e0 (by omega)
  have hry : rzero y = 1 := by
    have h1 := rzero_ne f1 (by omega)
    have h2 := rzero_ge (x := y) (k := 1) (by omega) fun i hi h => by
      have : i = 0 := by omega
      subst this
      rw [pd_lt hi] at f0
      rw [f0, ht]
    omega
  refine Ensures.call ((add_exact pc x y).mono ?_)
  rintro z (⟨h, _⟩ | ⟨_, h, _⟩ | ⟨_, _, n, r, q, h⟩)
  · omega
  · omega
  have hr : r = 1 := by rw [h.rdef]; omega
  have hn := h.lt
  subst hr
  have hs0 : Enc (sumAt pc x y 0) := e0.sumAt_left
  have hs1 : Enc (sumAt pc x y 1) := e1.sumAt_left
  have hc0 : cw (sumAt pc x y 0) = 0 := by rw [cw_sumAt, z0, f0, cw_triv, add_zero]
  have hc1 : cw (sumAt pc x y 1) = 0 := by rw [cw_sumAt, z1, g1, add_zero]
  have hq0 := h.qLow 0 (by omega)
  have hq1 : cw (q 1) = K0 pc := by
    have he : Enc (Wt.carryIn 1 (sumAt pc x y) 1) := by
      unfold Wt.carryIn
      rw [if_neg (by omega)]
      exact hs1.mulConst 3
    obtain ⟨t, et⟩ := he.ct
    rw [h.qHigh 1 (by omega) hn t et]
    have hct := cw_carryIn 1 (sumAt pc x y) 1
    rw [hc1] at hct
    simp only [Nat.lt_irrefl, if_false, smul_zero, add_zero] at hct
    simp only [cw, et] at hct
    simp only [cw, comb_boot, K0, hct]
  refine ⟨by rw [h.len]; omega, ?_, ?_, ?_, ?_⟩
  · rw [h.zLow 0 (by omega)]; exact hs0.afterCarry
  · rw [h.zLow 0 (by omega), cw_afterCarry, hc0, hq0, cw_triv]
    simp
  all_goals
    obtain ⟨t, et⟩ := (Enc.afterCarry (q := q) hs1).ct
    rw [h.zHigh 1 (by omega) hn t et]
  · exact Enc.of_ct rfl
  · have hct := cw_afterCarry (sumAt pc x y) q 1
    rw [hc1, hq1] at hct
    simp only [Nat.one_pos, if_true, Nat.sub_self, hq0, cw_triv, add_zero, zero_sub] at hct
    simp only [cw, et] at hct
    simp only [cw, comb_boot, k1, hct]

/-- adding further rows -/
theorem low_next {pc : Cloud} {x y : Ctxt Term} (hx : Low pc x) {k : Nat} (hk : 2 ≤ k) (hy : k < y.length)
    (hz : ∀ i, i < k → pd pc y i = encryptWordTriv Term pc 0) (he : Enc (pd pc y k)) :
    Ensures (ctAdd freeScheme pc x y) (Low pc) := by
  have ht : (encryptWordTriv Term pc 0).isTrivZero = true := by simp [encryptWordTriv, Word.isTrivZero, miToPt, miToMu]
  have hl := hx.len
  have hrx : rzero x = 0 := rzero_zero hx.enc0 (by omega)
  have hry : rzero y = k := by
    have h1 := rzero_ne he hy
    have h2 := rzero_ge (x := y) (k := k) (by omega) fun i hi h => by
      have := hz i h
      rw [pd_lt hi] at this
      rw [this, ht]
    omega
  refine Ensures.call ((add_exact pc x y).mono ?_)
  rintro z (⟨h, _⟩ | ⟨_, h, _⟩ | ⟨_, _, n, r, q, h⟩)
  · omega
  · omega
  have hr : r = k := by rw [h.rdef]; omega
  have hn := h.lt
  have low : ∀ i, i < r → cw (pd pc z i) = cw (pd pc x i) := by
    intro i hi
    rw [h.zLow i hi, cw_afterCarry, cw_sumAt, hz i (by omega), cw_triv, h.qLow i hi, cw_triv, h.qLow (i - 1) (by omega), cw_triv]
    simp
  refine ⟨by rw [h.len]; omega, ?_, ?_, ?_, ?_⟩
  · rw [h.zLow 0 (by omega)]; exact hx.enc0.sumAt_left.afterCarry
  · rw [low 0 (by omega), hx.zero]
  · rw [h.zLow 1 (by omega)]; exact hx.enc1.sumAt_left.afterCarry
  · rw [low 1 (by omega), hx.one]

/-- `u` was bootstrapped for the word -/
def Bw (u : Term) (w : Word Term) : Prop := ∃ t, w.ct = .ct t ∧ u ∈ t.booted

theorem Bw.add_left {u : Term} {a : Word Term} (h : Bw u a) (b : Word Term) : Bw u (Word.add freeScheme a b) := by
  obtain ⟨t, e, hu⟩ := h
  rcases a with ⟨s | p, m⟩
  · cases e
    rcases b with ⟨v | q, m'⟩
    · exact ⟨_, rfl, by simp [Term.booted, hu]⟩
    · exact ⟨_, rfl, by simp [Term.booted, hu]⟩
  · cases e

theorem Bw.add_right {u : Term} {b : Word Term} (h : Bw u b) (a : Word Term) : Bw u (Word.add freeScheme a b) := by
  obtain ⟨t, e, hu⟩ := h
  rcases b with ⟨s | p, m⟩
  · cases e
    rcases a with ⟨v | q, m'⟩
    · exact ⟨_, rfl, by simp [Term.booted, hu]⟩
    · exact ⟨_, rfl, by simp [Term.booted, hu]⟩
  · cases e

theorem Bw.opp {u : Term} {a : Word Term} (h : Bw u a) : Bw u (Word.opp freeScheme a) := by
  obtain ⟨t, e, hu⟩ := h
  rcases a with ⟨s | p, m⟩
  · cases e
    exact ⟨_, rfl, by simp [Term.booted, hu]⟩
  · cases e

theorem Bw.mulConst {u : Term} {a : Word Term} (h : Bw u a) (k : Nat) : Bw u (Word.mulConst freeScheme a k) := by
  obtain ⟨t, e, hu⟩ := h
  have hk : ¬ ((k : Int) < 0) := by omega
  rcases a with ⟨s | p, m⟩
  · cases e
    simp only [Word.mulConst, hk, if_false]
    exact ⟨_, rfl, by simp [Term.booted, hu]⟩
  · cases e

theorem Bw.not_triv {u : Term} {a : Word Term} (h : Bw u a) : a.isTrivZero = false := by
  obtain ⟨t, e, _⟩ := h
  exact (Enc.of_ct e).not_zero

theorem Bw.afterCarry {u : Term} {w q : Nat → Word Term} {i : Nat} (h : Bw u (w i)) : Bw u (afterCarry w q i) := by
  unfold Wt.afterCarry
  split
  · exact (h.add_left _).add_left _
  · exact h.add_left _

theorem Bw.lut {u : Term} {pc : Cloud} {acc : List (BitVec 64)} {w z : Word Term} (h : LutE pc acc w z) (hw : Bw u w) : Bw u z := by
  obtain ⟨t, e, hu⟩ := hw
  rw [h t e]
  exact ⟨_, rfl, by simp [Term.booted, hu]⟩

/-- `u` was bootstrapped for the ciphertext -/
def Bc (u : Term) (z : Ctxt Term) : Prop := ∃ w ∈ z, Bw u w

theorem Bc.of_pd {u : Term} {pc : Cloud} {z : Ctxt Term} {i : Nat} (h : Bw u (pd pc z i)) : Bc u z := by
  by_cases hi : i < z.length
  · rw [pd_lt hi] at h
    exact ⟨_, List.getElem_mem hi, h⟩
  · rw [pd_ge (by omega)] at h
    obtain ⟨t, e, _⟩ := h
    cases e

theorem Bc.pd {u : Term} (pc : Cloud) {z : Ctxt Term} (h : Bc u z) : ∃ i, i < z.length ∧ Bw u (pd pc z i) := by
  obtain ⟨w, hw, h⟩ := h
  obtain ⟨i, hi, rfl⟩ := List.mem_iff_getElem.1 hw
  exact ⟨i, hi, by rwa [pd_lt hi]⟩

/-- a sum keeps what was bootstrapped for its operands -/
theorem bc_add {u : Term} {pc : Cloud} {x y : Ctxt Term} (h : Bc u x ∨ Bc u y) : Ensures (ctAdd freeScheme pc x y) (Bc u) := by
  refine Ensures.call ((add_exact pc x y).mono ?_)
  have nz : ∀ {x : Ctxt Term}, rzero x = x.length → ¬ Bc u x := by
    rintro x h ⟨w, hw, hb⟩
    obtain ⟨i, hi, rfl⟩ := List.mem_iff_getElem.1 hw
    have := rzero_low x (i := i) (by omega) hi
    rw [hb.not_triv] at this
    cases this
  rintro z (⟨h1, rfl⟩ | ⟨_, h1, rfl⟩ | ⟨_, _, n, r, q, h1⟩)
  · exact h.resolve_left (nz h1)
  · exact h.resolve_right (nz h1)
  have fin : ∀ i, i < n → Bw u (sumAt pc x y i) → Bc u z := by
    intro i hi hb
    have hb := hb.afterCarry (q := q)
    refine Bc.of_pd (pc := pc) (i := i) ?_
    by_cases hr : r ≤ i
    · exact Bw.lut (h1.zHigh i hr hi) hb
    · rw [h1.zLow i (by omega)]; exact hb
  have strip : ∀ {x : Ctxt Term} {i : Nat}, i < x.length → Bw u (pd pc x i) → i < x.length - lzero x := by
    intro x i hi hb
    by_contra hc
    rw [pd_lt hi] at hb
    have := lzero_high x (i := i) (by omega) hi
    rw [hb.not_triv] at this
    cases this
  have hn := h1.strip
  rcases h with h | h
  · obtain ⟨i, hi, hb⟩ := h.pd pc
    have := strip hi hb
    refine fin i (by omega) ?_
    unfold sumAt
    split
    · exact hb.add_left _
    · exact hb
  · obtain ⟨i, hi, hb⟩ := h.pd pc
    have := strip hi hb
    refine fin i (by omega) ?_
    unfold sumAt
    rw [if_pos hi]
    exact hb.add_right _

/-- a word of weight 36 was bootstrapped -/
def Heavy (z : Ctxt Term) : Prop := ∃ u, Bc u z ∧ u.mergedWeight = 36

theorem heavy_add {pc : Cloud} {x y : Ctxt Term} (h : Heavy x ∨ Heavy y) : Ensures (ctAdd freeScheme pc x y) Heavy := by
  rcases h with ⟨u, h, hw⟩ | ⟨u, h, hw⟩
  · exact (bc_add (.inl h)).mono fun z hz => ⟨u, hz, hw⟩
  · exact (bc_add (.inr h)).mono fun z hz => ⟨u, hz, hw⟩

theorem Heavy.append_right {x : Ctxt Term} (h : Heavy x) (t : Ctxt Term) : Heavy (t ++ x) := by
  obtain ⟨u, ⟨w, hw, hb⟩, h⟩ := h
  exact ⟨u, ⟨w, by simp [hw], hb⟩, h⟩

theorem Heavy.append_left {x : Ctxt Term} (h : Heavy x) (t : Ctxt Term) : Heavy (x ++ t) := by
  obtain ⟨u, ⟨w, hw, hb⟩, h⟩ := h
  exact ⟨u, ⟨w, by simp [hw], hb⟩, h⟩

theorem Heavy.map_opp {x : Ctxt Term} (h : Heavy x) : Heavy (x.map (Word.opp freeScheme)) := by
  obtain ⟨u, ⟨w, hw, hb⟩, h⟩ := h
  exact ⟨u, ⟨_, List.mem_map_of_mem hw, hb.opp⟩, h⟩

/-- the sum of two products with zero -/
theorem heavy_low {pc : Cloud} {x y : Ctxt Term} (hx : Low pc x) (hy : Low pc y) : Ensures (ctAdd freeScheme pc x y) Heavy := by
  have hlx := hx.len
  have hly := hy.len
  have hrx : rzero x = 0 := rzero_zero hx.enc0 (by omega)
  have hry : rzero y = 0 := rzero_zero hy.enc0 (by omega)
  refine Ensures.call ((add_exact pc x y).mono ?_)
  rintro z (⟨h, _⟩ | ⟨_, h, _⟩ | ⟨_, _, n, r, q, h⟩)
  · omega
  · omega
  have hr : r = 0 := by rw [h.rdef]; omega
  subst hr
  have hn : 1 < n := by
    have : 1 < x.length - lzero x := by
      by_contra hc
      have := lzero_high x (i := 1) (by omega) (by omega)
      have h1 := hx.enc1
      rw [pd_lt (by omega)] at h1
      rw [h1.not_zero] at this
      cases this
    have := h.strip
    omega
  have hs1 : Enc (sumAt pc x y 1) := hx.enc1.sumAt_left
  have hc : Enc (Wt.carryIn 0 (sumAt pc x y) 1) := by
    unfold Wt.carryIn
    rw [if_pos (by omega)]
    exact (hs1.mulConst 3).add_left _
  obtain ⟨u, eu⟩ := hc.ct
  have hq := h.qHigh 1 (by omega) hn u eu
  refine ⟨u, Bc.of_pd (pc := pc) (i := 1) (Bw.lut (h.zHigh 1 (by omega) hn) ?_), ?_⟩
  · unfold Wt.afterCarry
    rw [if_pos (by omega)]
    refine Bw.add_left ?_ _
    unfold Word.sub
    refine Bw.add_right (Bw.opp (Bw.mulConst ?_ 2)) _
    rw [hq]
    exact ⟨_, rfl, by simp [Term.booted]⟩
  · have e := cw_carryIn 0 (sumAt pc x y) 1
    simp only [Nat.one_pos, if_true, Nat.sub_self] at e
    rw [cw_sumAt, cw_sumAt, hx.one, hy.one, hx.zero, hy.zero] at e
    have e : u.comb.1 = Finsupp.single (k1 pc) 6 := by
      simp only [cw, eu] at e
      rw [e]
      simp [← Finsupp.single_add, Finsupp.smul_single]
    unfold Term.mergedWeight
    rw [e, Finsupp.support_single _ (by norm_num)]
    simp

/-- one factor is encrypted and the other one trivially zero -/
def ZeroProd (pc : Cloud) (x y : Ctxt Term) : Prop :=
  x.length = y.length ∧ ((∀ w ∈ x, Enc w) ∧ (∀ w ∈ y, w = encryptWordTriv Term pc 0) ∨
    (∀ w ∈ y, Enc w) ∧ (∀ w ∈ x, w = encryptWordTriv Term pc 0))

theorem ZeroProd.take {pc : Cloud} {x y : Ctxt Term} (h : ZeroProd pc x y) (n : Nat) : ZeroProd pc (x.take n) (y.take n) := by
  refine ⟨by simp [h.1], h.2.imp (fun ⟨a, b⟩ => ⟨?_, ?_⟩) (fun ⟨a, b⟩ => ⟨?_, ?_⟩)⟩
  all_goals intro w hw; first | exact a w (List.mem_of_mem_take hw) | exact b w (List.mem_of_mem_take hw)

theorem ZeroProd.drop {pc : Cloud} {x y : Ctxt Term} (h : ZeroProd pc x y) (n : Nat) : ZeroProd pc (x.drop n) (y.drop n) := by
  refine ⟨by simp [h.1], h.2.imp (fun ⟨a, b⟩ => ⟨?_, ?_⟩) (fun ⟨a, b⟩ => ⟨?_, ?_⟩)⟩
  all_goals intro w hw; first | exact a w (List.mem_of_mem_drop hw) | exact b w (List.mem_of_mem_drop hw)

theorem decrypt_zero {pc : Cloud} (hm : pc.msgMod = 32) :
    Ensures (decryptMi (S := freeScheme) none (encryptWordTriv Term pc 0)) fun k => k = ((0 : Nat) : Int) := by
  unfold decryptMi decryptMu encryptWordTriv
  simp only [hm]
  exact Ensures.bind (P := fun a => a = 0) (Ensures.pure (by decide)) fun a h => Ensures.pure (by subst h; decide)

theorem mulLwe_zero {pc : Cloud} (hm : pc.msgMod = 32) {x y : Word Term}
    (h : Enc x ∧ y = encryptWordTriv Term pc 0 ∨ Enc y ∧ x = encryptWordTriv Term pc 0) :
    Ensures (mulLwe freeScheme pc x y) fun z => Enc z ∧ cw z = 0 := by
  unfold mulLwe
  rcases h with ⟨hx, rfl⟩ | ⟨hy, rfl⟩
  · refine Ensures.ite (fun h => ?_) fun _ => Ensures.ite (fun _ => ?_) fun h => ?_
    · rw [hx] at h; cases h
    · refine (decrypt_zero hm).bind fun k hk => Ensures.pure ?_
      subst hk
      exact ⟨hx.mulConst _, by rw [cw_mulConst _ 0 (by decide)]; simp⟩
    · exact absurd rfl h
  · refine Ensures.ite (fun _ => ?_) fun h => ?_
    · refine (decrypt_zero hm).bind fun k hk => Ensures.pure ?_
      subst hk
      exact ⟨hy.mulConst _, by rw [cw_mulConst _ 0 (by decide)]; simp⟩
    · exact absurd rfl h

/-- a row of the table of products with zero -/
structure ZRow (pc : Cloud) (l j : Nat) (row : Ctxt Term) : Prop where
  len : row.length = 2 * l
  low : ∀ i, i < j → pd pc row i = encryptWordTriv Term pc 0
  enc : ∀ i, j ≤ i → i < j + l → Enc (pd pc row i)
  zero : ∀ i, cw (pd pc row i) = 0

theorem low_loop {pc : Cloud} {l : Nat} : ∀ (rows : List (Ctxt Term)) (k : Nat) (cur other : Ctxt Term), 2 ≤ k → k + rows.length ≤ l →
    Low pc cur → (∀ j (hj : j < rows.length), ZRow pc l (k + j) rows[j]) → Ensures (reduceLoop freeScheme pc rows cur other) (Low pc)
  | [], _, _, _, _, _, hc, _ => Ensures.pure hc
  | row :: rows, k, cur, other, hk, hl, hc, hr => by
    have h0 := hr 0 (by simp)
    simp only [List.length_cons] at hl
    simp only [List.getElem_cons_zero, Nat.add_zero] at h0
    unfold reduceLoop
    refine (low_next hc hk (by rw [h0.len]; omega) h0.low (h0.enc k le_rfl (by omega))).bind fun z hz => ?_
    refine low_loop (l := l) rows (k + 1) z cur (by omega) (by omega) hz fun j hj => ?_
    have := hr (j + 1) (by simp; omega)
    simp only [List.getElem_cons_succ] at this
    rwa [show k + 1 + j = k + (j + 1) by omega]

theorem low_schoolbook {pc : Cloud} (hm : pc.msgMod = 32) {x y : Ctxt Term} (h : ZeroProd pc x y) (hl : 2 ≤ x.length) :
    Ensures (mulSchoolbook freeScheme pc x y) (Low pc) := by
  unfold mulSchoolbook
  refine (fill_exact (fun _ _ z => Enc z ∧ cw z = 0) h.1 fun i j hi hj => mulLwe_zero hm ?_).bind ?_
  · exact h.2.imp (fun ⟨a, b⟩ => ⟨a _ (List.getElem_mem _), b _ (List.getElem_mem _)⟩)
      (fun ⟨a, b⟩ => ⟨a _ (List.getElem_mem _), b _ (List.getElem_mem _)⟩)
  rintro rows ⟨h1, h2⟩
  have hrow : ∀ j (hj : j < rows.length), ZRow pc x.length j rows[j] := by
    intro j hj
    obtain ⟨mid, hml, e, hmid⟩ := h2 j hj (by rw [← h.1]; omega)
    have hz : ∀ i (hi : i < mid.length), Enc mid[i] ∧ cw mid[i] = 0 := fun i hi => hmid i hi (by omega)
    have hjx : j < x.length := by omega
    have hlen : rows[j].length = 2 * x.length := by rw [e]; simp [trivCt]; omega
    have hlow : ∀ i, i < j → pd pc rows[j] i = encryptWordTriv Term pc 0 := by
      intro i hi
      rw [pd_lt (by omega)]
      simp only [e]
      rw [List.getElem_append_left (by simp [trivCt]; omega), List.getElem_append_left (by simp [trivCt]; omega)]
      simp [trivCt]
    have hmd : ∀ i, j ≤ i → i < j + x.length → Enc (pd pc rows[j] i) ∧ cw (pd pc rows[j] i) = 0 := by
      intro i h3 h4
      rw [pd_lt (by omega)]
      simp only [e]
      rw [List.getElem_append_left (by simp [trivCt]; omega), List.getElem_append_right (by simp [trivCt]; omega)]
      exact hz _ _
    refine ⟨hlen, hlow, fun i h3 h4 => (hmd i h3 h4).1, fun i => ?_⟩
    by_cases h3 : i < j
    · rw [hlow i h3, cw_triv]
    · by_cases h4 : i < j + x.length
      · exact (hmd i (by omega) h4).2
      · by_cases h5 : i < rows[j].length
        · rw [pd_lt h5]
          simp only [e]
          rw [List.getElem_append_right (by simp [trivCt]; omega)]
          simp [trivCt, cw_triv]
        · rw [pd_ge (by omega), cw_triv]
  unfold reduceMulsquary
  refine Ensures.idx.bind fun m0 ⟨g0, e0⟩ => Ensures.idx.bind fun m1 ⟨g1, e1⟩ => ?_
  have r0 := hrow 0 g0
  have r1 := hrow 1 g1
  rw [e0] at r0
  rw [e1] at r1
  refine (low_first (by rw [r0.len]; omega) (by rw [r1.len]; omega) (r0.enc 0 le_rfl (by omega)) (r0.zero 0)
    (r0.enc 1 (by omega) (by omega)) (r0.zero 1) (r1.low 0 (by omega)) (r1.enc 1 le_rfl (by omega)) (r1.zero 1)).bind
    fun s hs => ?_
  refine low_loop (l := x.length) _ 2 _ _ le_rfl (by simp; omega) hs fun j hj => ?_
  rw [List.getElem_drop]
  exact hrow _ _

theorem mulAlign_eq {pc : Cloud} {x y : Ctxt Term} (h : x.length = y.length) : mulAlign freeScheme pc x y = (x, y) := by
  simp [mulAlign, h]

/-- a heavy half product, or two products of the lower halves with zero, make a heavy product -/
theorem heavy_karatsuba {pc : Cloud} {mulRec : Ctxt Term → Ctxt Term → M (Ctxt Term)} {x y : Ctxt Term} {n : Nat} (hn : n = (x.length + 1) / 2)
    (h : (Ensures (mulRec (x.drop n) (y.drop n)) (Low pc) ∧ Ensures (mulRec (x.take n) (y.take n)) (Low pc)) ∨
      Ensures (mulRec (x.drop n) (y.drop n)) Heavy ∨ Ensures (mulRec (x.take n) (y.take n)) Heavy) :
    Ensures (mulKaratsuba freeScheme pc mulRec x y) Heavy := by
  unfold mulKaratsuba
  refine Ensures.ite (fun _ => Ensures.panic _) fun _ => ?_
  dsimp only
  rw [← hn]
  refine (Ensures.par2 (P := fun r => Heavy r.2.2) (Q := fun _ => True) ?_ (Ensures.trivial _)).bind ?_
  · have key : Ensures (par2 (mulRec (x.drop n) (y.drop n)) (mulRec (x.take n) (y.take n))) fun r =>
        Ensures (ctAdd freeScheme pc r.1 r.2) Heavy := by
      rcases h with ⟨h1, h2⟩ | h | h
      · exact (h1.par2 h2).mono fun r hr => heavy_low hr.1 hr.2
      · exact (h.par2 (Ensures.trivial _)).mono fun r hr => heavy_add (.inl hr.1)
      · exact (Ensures.par2 (Ensures.trivial _) h).mono fun r hr => heavy_add (.inr hr.2)
    refine key.bind fun r hr => hr.bind fun p hp => Ensures.pure ?_
    exact hp.map_opp.append_right _
  · rintro ⟨⟨a, b, naNb⟩, c⟩ ⟨h1, -⟩
    refine (heavy_add (.inr h1)).bind fun cn hcn => ?_
    refine Ensures.ite (fun _ => heavy_add (.inr hcn)) fun _ => ?_
    exact (heavy_add (.inr hcn)).bind fun bc hbc => heavy_add (.inr hbc)

/-- a longer product with zero -/
theorem heavy_zero {pc : Cloud} (hm : pc.msgMod = 32) : ∀ (fuel : Nat) {x y : Ctxt Term}, ZeroProd pc x y → 16 ≤ x.length → x.length ≠ 17 →
    Ensures (mulImpl freeScheme pc fuel x y) Heavy
  | fuel, x, y, h, h1, h2 => by
    unfold mulImpl
    rw [mulAlign_eq h.1]
    dsimp only
    refine Ensures.ite (fun h => by omega) fun _ => Ensures.ite (fun h => by omega) fun _ => Ensures.ite (fun h => by omega) fun _ =>
      Ensures.ite (fun h32 => ?_) fun _ => Ensures.err _
    match fuel with
    | 0 => exact Ensures.panic _
    | fuel + 1 =>
      refine heavy_karatsuba rfl ?_
      have low : ∀ {u v : Ctxt Term}, ZeroProd pc u v → 2 ≤ u.length → u.length < 16 →
          Ensures (mulImpl freeScheme pc fuel u v).call (Low pc) := by
        intro u v huv l1 l2
        refine Ensures.call ?_
        unfold mulImpl
        rw [mulAlign_eq huv.1]
        dsimp only
        refine Ensures.ite (fun h => by omega) fun _ => Ensures.ite (fun h => by omega) fun _ => Ensures.ite (fun _ => ?_) fun h => by omega
        exact low_schoolbook hm huv l1
      by_cases h16 : (x.length + 1) / 2 = 16
      · exact .inr (.inr (heavy_zero hm fuel (h.take _) (by simp; omega) (by simp; omega)).call)
      · exact .inl ⟨low (h.drop _) (by simp; omega) (by simp; omega), low (h.take _) (by simp; omega) (by simp; omega)⟩

/-- a product of 32 words by at most 16 words -/
theorem heavy_mul {pc : Cloud} (hm : pc.msgMod = 32) (fuel : Nat) {x y : Ctxt Term} (hx : x.length = 32) (hy : y.length ≤ 16)
    (he : ∀ w ∈ x, Enc w) : Ensures (mulImpl freeScheme pc fuel x y) Heavy ∧ Ensures (mulImpl freeScheme pc fuel y x) Heavy := by
  have hz : ZeroProd pc (x.drop 16) ((y ++ List.replicate (x.length - y.length) (encryptWordTriv Term pc 0)).drop 16) := by
    refine ⟨by simp; omega, .inl ⟨fun w hw => he w (List.mem_of_mem_drop hw), fun w hw => ?_⟩⟩
    rw [List.drop_append, List.drop_eq_nil_of_le hy, List.nil_append, List.drop_replicate] at hw
    exact List.eq_of_mem_replicate hw
  have hz' : ZeroProd pc ((y ++ List.replicate (x.length - y.length) (encryptWordTriv Term pc 0)).drop 16) (x.drop 16) :=
    ⟨hz.1.symm, hz.2.symm.imp (fun ⟨a, b⟩ => ⟨a, b⟩) fun ⟨a, b⟩ => ⟨a, b⟩⟩
  have hx0 : x ++ List.replicate (y.length - x.length) (encryptWordTriv Term pc 0) = x := by
    rw [show y.length - x.length = 0 by omega]; simp
  have hl : (y ++ List.replicate (x.length - y.length) (encryptWordTriv Term pc 0)).length = 32 := by simp; omega
  constructor
  all_goals
    unfold mulImpl mulAlign
    simp only [hx0]
    refine Ensures.ite (fun h => by omega) fun _ => Ensures.ite (fun h => by omega) fun _ => Ensures.ite (fun h => by omega) fun _ =>
      Ensures.ite (fun h32 => ?_) fun _ => Ensures.err _
    match fuel with
    | 0 => exact Ensures.panic _
    | fuel + 1 => ?_
  · refine heavy_karatsuba (n := 16) (by rw [hx]) (.inr (.inl ?_))
    exact (heavy_zero hm fuel hz (by simp; omega) (by simp; omega)).call
  · refine heavy_karatsuba (n := 16) (by rw [hl]) (.inr (.inl ?_))
    exact (heavy_zero hm fuel hz' (by simp; omega) (by simp; omega)).call

/-- a product of 16 or more words by none -/
theorem heavy_mul_nil {pc : Cloud} (hm : pc.msgMod = 32) (fuel : Nat) {x : Ctxt Term} (h1 : 16 ≤ x.length) (h2 : x.length ≤ 32)
    (h3 : x.length ≠ 17) (he : ∀ w ∈ x, Enc w) :
    Ensures (mulImpl freeScheme pc fuel x []) Heavy ∧ Ensures (mulImpl freeScheme pc fuel [] x) Heavy := by
  have hz : ZeroProd pc x (List.replicate x.length (encryptWordTriv Term pc 0)) :=
    ⟨by simp, .inl ⟨he, fun w hw => List.eq_of_mem_replicate hw⟩⟩
  have hz' : ZeroProd pc (List.replicate x.length (encryptWordTriv Term pc 0)) x :=
    ⟨hz.1.symm, hz.2.symm.imp (fun ⟨a, b⟩ => ⟨a, b⟩) fun ⟨a, b⟩ => ⟨a, b⟩⟩
  have key : ∀ u v u' v' : Ctxt Term, mulAlign freeScheme pc u v = mulAlign freeScheme pc u' v' →
      mulImpl freeScheme pc fuel u v = mulImpl freeScheme pc fuel u' v' := by
    intro u v u' v' e
    unfold mulImpl
    rw [e]
  constructor
  · rw [key x [] x (List.replicate x.length (encryptWordTriv Term pc 0)) (by rw [mulAlign_eq hz.1]; unfold mulAlign; simp)]
    exact heavy_zero hm fuel hz h1 h3
  · rw [key [] x (List.replicate x.length (encryptWordTriv Term pc 0)) x (by rw [mulAlign_eq hz'.1]; unfold mulAlign; simp)]
    exact heavy_zero hm fuel hz' (by simpa) (by simpa)

end Mg
end Parm
