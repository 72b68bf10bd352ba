import Verif.Proof.MergedMul

/-!
# Products with a shifted ciphertext, over equal ciphertexts
-/

namespace Parm
namespace Mg
open Wt

/-- a word of weight 26 or more was bootstrapped -/
def Heavier (z : Ctxt Term) : Prop := ∃ u, Bc u z ∧ 26 ≤ u.mergedWeight

theorem heavier_add {pc : Cloud} {x y : Ctxt Term} (h : Heavier x ∨ Heavier y) : Ensures (ctAdd freeScheme pc x y) Heavier := by
  rcases h with ⟨u, h, hw⟩ | ⟨u, h, hw⟩
  · exact (bc_add (.inl h)).mono fun z hz => ⟨u, hz, hw⟩
  · exact (bc_add (.inr h)).mono fun z hz => ⟨u, hz, hw⟩

theorem Heavier.append_right {x : Ctxt Term} (h : Heavier x) (t : Ctxt Term) : Heavier (t ++ x) := by
  obtain ⟨u, ⟨w, hw, hb⟩, h⟩ := h
  exact ⟨u, ⟨w, by simp [hw], hb⟩, h⟩

theorem Heavier.map_opp {x : Ctxt Term} (h : Heavier x) : Heavier (x.map (Word.opp freeScheme)) := by
  obtain ⟨u, ⟨w, hw, hb⟩, h⟩ := h
  exact ⟨u, ⟨_, List.mem_map_of_mem hw, hb.opp⟩, h⟩

theorem Enc.sumAt_right {pc : Cloud} {x y : Ctxt Term} {i : Nat} (hi : i < y.length) (h : Enc (pd pc y i)) : Enc (sumAt pc x y i) := by
  unfold sumAt
  rw [if_pos hi]
  exact h.add_right _

/-- number of the words that are refreshed with a carry -/
noncomputable def k2 (pc : Cloud) : ℕ := 2 * lookupNo (accOf pc (lut2 lutId), - K0 pc) + 1

/-- the sum of the first two rows of a product with a ciphertext that starts with two zeros -/
structure Mid (pc : Cloud) (z : Ctxt Term) : Prop where
  len : 4 ≤ z.length
  enc0 : Enc (pd pc z 0)
  enc2 : Enc (pd pc z 2)
  two : cw (pd pc z 2) = (Finsupp.single (k2 pc) 1, 0)
  enc3 : Enc (pd pc z 3)
  three : cw (pd pc z 3) = (Finsupp.single (k2 pc) 1, 0)

theorem stripped {pc : Cloud} {x : Ctxt Term} {i : Nat} (hi : i < x.length) (h : Enc (pd pc x i)) : i < x.length - lzero x := by
  by_contra hc
  have := lzero_high x (i := i) (by omega) hi
  rw [pd_lt hi] at h
  rw [h.not_zero] at this
  cases this

theorem mid_first {pc : Cloud} {x y : Ctxt Term} (hx : 4 ≤ x.length) (hy : 4 ≤ y.length) (e0 : Enc (pd pc x 0))
    (z0 : ∀ i, i < 4 → cw (pd pc x i) = 0) (f0 : pd pc y 0 = encryptWordTriv Term pc 0)
    (f1 : ∀ i, 1 ≤ i → i < 4 → Enc (pd pc y i)) (g1 : ∀ i, i < 4 → cw (pd pc y i) = 0) : Ensures (ctAdd freeScheme pc x y) (Mid pc) := by
  have ht : (encryptWordTriv Term pc 0).isTrivZero = true := by simp [encryptWordTriv, Word.isTrivZero, miToPt, miToMu]
  have hrx : rzero x = 0 := rzero_zero e0 (by omega)
  have hry : rzero y = 1 := by
    have h1 := rzero_ne (f1 1 (by omega) (by omega)) (by omega)
    have h2 := rzero_ge (x := y) (k := 1) (by omega) fun i hi h => by
      have : i = 0 := by omega
      subst this
      rw [pd_lt hi] at f0
      rw [f0, ht]
    omega
  refine Ensures.call ((add_exact pc x y).mono ?_)
  rintro z (⟨h, _⟩ | ⟨_, h, _⟩ | ⟨_, _, n, r, q, h⟩)
  · omega
  · omega
  have hr : r = 1 := by rw [h.rdef]; omega
  have hn : 3 < n := by
    have := stripped (by omega) (f1 3 (by omega) (by omega))
    have := h.strip
    omega
  subst hr
  have hs : ∀ i, 1 ≤ i → i < 4 → Enc (sumAt pc x y i) := fun i h1 h2 => (f1 i h1 h2).sumAt_right (by omega)
  have hc : ∀ i, i < 4 → cw (sumAt pc x y i) = 0 := fun i hi => by rw [cw_sumAt, z0 i hi, g1 i hi, add_zero]
  have hq0 := h.qLow 0 (by omega)
  have hq : ∀ i, 1 ≤ i → i < 4 → cw (q i) = K0 pc := by
    intro i h1 h2
    have he : Enc (Wt.carryIn 1 (sumAt pc x y) i) := by
      unfold Wt.carryIn
      split
      · exact ((hs i h1 h2).mulConst 3).add_left _
      · exact (hs i h1 h2).mulConst 3
    obtain ⟨t, et⟩ := he.ct
    rw [h.qHigh i h1 (by omega) t et]
    have hct := cw_carryIn 1 (sumAt pc x y) i
    rw [hc i h2, hc (i - 1) (by omega)] at hct
    simp only [ite_self, smul_zero, add_zero] at hct
    simp only [cw, et] at hct
    simp only [cw, comb_boot, K0, hct]
  have key : ∀ i, 2 ≤ i → i < 4 → Enc (pd pc z i) ∧ cw (pd pc z i) = (Finsupp.single (k2 pc) 1, 0) := by
    intro i h1 h2
    obtain ⟨t, et⟩ := (Enc.afterCarry (q := q) (hs i (by omega) h2)).ct
    rw [h.zHigh i (by omega) (by omega) t et]
    refine ⟨Enc.of_ct rfl, ?_⟩
    have hct := cw_afterCarry (sumAt pc x y) q i
    rw [hc i h2, hq i (by omega) h2, hq (i - 1) (by omega) (by omega), if_pos (by omega)] at hct
    rw [show (0 : Comb) - (2 : Int) • K0 pc + K0 pc = - K0 pc by rw [two_zsmul]; abel] at hct
    simp only [cw, et] at hct
    simp only [cw, comb_boot, k2, hct]
  refine ⟨by rw [h.len]; omega, ?_, (key 2 (by omega) (by omega)).1, (key 2 (by omega) (by omega)).2,
    (key 3 (by omega) (by omega)).1, (key 3 (by omega) (by omega)).2⟩
  rw [h.zLow 0 (by omega)]; exact e0.sumAt_left.afterCarry

theorem weight_431 (a b c : ℕ) (f : ℕ →₀ ℤ) (hf : f = Finsupp.single a 4 + Finsupp.single b 3 + Finsupp.single c 1) :
    26 ≤ ∑ i ∈ f.support, (f i).natAbs ^ 2 := by
  classical
  have key : ∀ s : Finset ℕ, s ⊆ {a, b, c} → ∑ i ∈ s, (f i).natAbs ^ 2 ≤ ∑ i ∈ f.support, (f i).natAbs ^ 2 := by
    intro s _
    rw [← Finset.sum_filter_add_sum_filter_not s (fun i => i ∈ f.support)]
    have : ∑ i ∈ s with i ∉ f.support, (f i).natAbs ^ 2 = 0 := by
      refine Finset.sum_eq_zero fun i hi => ?_
      have := (Finset.mem_filter.1 hi).2
      rw [Finsupp.notMem_support_iff] at this
      rw [this]; rfl
    rw [this, add_zero]
    exact Finset.sum_le_sum_of_subset fun i hi => (Finset.mem_filter.1 hi).2
  refine le_trans ?_ (key {a, b, c} (Finset.Subset.refl _))
  by_cases hab : a = b
  · subst hab
    by_cases hac : a = c
    · subst hac
      rw [hf]; simp
    · rw [Finset.insert_eq_of_mem (by simp), Finset.sum_pair hac, hf]
      simp [Finsupp.single_apply, hac, Ne.symm hac]
  · by_cases hac : a = c
    · subst hac
      rw [show ({a, b, a} : Finset ℕ) = {a, b} by ext; simp; tauto, Finset.sum_pair hab, hf]
      simp [Finsupp.single_apply, hab, Ne.symm hab]
    · by_cases hbc : b = c
      · subst hbc
        rw [show ({a, b, b} : Finset ℕ) = {a, b} by simp, Finset.sum_pair hab, hf]
        simp [Finsupp.single_apply, hab, Ne.symm hab]
      · rw [Finset.sum_insert (by simp [hab, hac]), Finset.sum_pair hbc, hf]
        simp [Finsupp.single_apply, hab, Ne.symm hab, hac, Ne.symm hac, hbc, Ne.symm hbc]

/-- a single sample -/
def One (w : Word Term) : Prop := Enc w ∧ ∃ p, cw w = (Finsupp.single p 1, 0)

theorem heavier_third {pc : Cloud} {x y : Ctxt Term} (hx : Mid pc x) (hy : 4 ≤ y.length)
    (hz : ∀ i, i < 2 → pd pc y i = encryptWordTriv Term pc 0) (h2 : One (pd pc y 2)) (h3 : One (pd pc y 3)) :
    Ensures (ctAdd freeScheme pc x y) Heavier := by
  have ht : (encryptWordTriv Term pc 0).isTrivZero = true := by simp [encryptWordTriv, Word.isTrivZero, miToPt, miToMu]
  have hl := hx.len
  have hrx : rzero x = 0 := rzero_zero hx.enc0 (by omega)
  have hry : rzero y = 2 := by
    have h1 := rzero_ne h2.1 (by omega)
    have h2 := rzero_ge (x := y) (k := 2) (by omega) fun i hi h => by
      have := hz i h
      rw [pd_lt hi] at this
      rw [this, ht]
    omega
  refine Ensures.call ((add_exact pc x y).mono ?_)
  rintro z (⟨h, _⟩ | ⟨_, h, _⟩ | ⟨_, _, n, r, q, h⟩)
  · omega
  · omega
  have hr : r = 2 := by rw [h.rdef]; omega
  subst hr
  have hn : 3 < n := by
    have := stripped (by omega) hx.enc3
    have := h.strip
    omega
  have hs : Enc (sumAt pc x y 3) := hx.enc3.sumAt_left
  have hc : Enc (Wt.carryIn 2 (sumAt pc x y) 3) := by
    unfold Wt.carryIn
    rw [if_pos (by omega)]
    exact (hs.mulConst 3).add_left _
  obtain ⟨u, eu⟩ := hc.ct
  have hq := h.qHigh 3 (by omega) hn u eu
  refine ⟨u, Bc.of_pd (pc := pc) (i := 3) (Bw.lut (h.zHigh 3 (by omega) hn) ?_), ?_⟩
  · unfold Wt.afterCarry
    rw [if_pos (by omega)]
    refine Bw.add_left ?_ _
    unfold Word.sub
    refine Bw.add_right (Bw.opp (Bw.mulConst ?_ 2)) _
    rw [hq]
    exact ⟨_, rfl, by simp [Term.booted]⟩
  · obtain ⟨_, p0, e2⟩ := h2
    obtain ⟨_, p1, e3⟩ := h3
    have e := cw_carryIn 2 (sumAt pc x y) 3
    rw [if_pos (by omega), cw_sumAt, cw_sumAt, hx.three, hx.two, e2, e3] at e
    refine weight_431 (k2 pc) p1 p0 _ ?_
    simp only [cw, eu] at e
    rw [e]
    simp only [Prod.fst_add, Prod.smul_fst, smul_add, Finsupp.smul_single]
    have : (Finsupp.single (k2 pc) 4 : ℕ →₀ ℤ) = Finsupp.single (k2 pc) 3 + Finsupp.single (k2 pc) 1 := by
      rw [← Finsupp.single_add]; rfl
    rw [this]
    simp only [smul_eq_mul, mul_one]
    abel

theorem mulLwe_zeros {pc : Cloud} (hm : pc.msgMod = 32) {x y : Word Term} (hx : Enc x ∨ x = encryptWordTriv Term pc 0)
    (hy : y = encryptWordTriv Term pc 0) : Ensures (mulLwe freeScheme pc x y) fun z => cw z = 0 := by
  rcases hx with hx | rfl
  · exact (mulLwe_zero hm (.inl ⟨hx, hy⟩)).mono fun z hz => hz.2
  · subst hy
    unfold mulLwe
    rw [if_pos (show (encryptWordTriv Term pc 0).isTriv = true from rfl)]
    refine (decrypt_zero hm).bind fun k hk => Ensures.pure ?_
    subst hk
    rw [cw_mulConst _ 0 (by decide)]; simp

theorem mulLwe_one {pc : Cloud} {x y : Word Term} (hx : Enc x) (hy : Enc y) :
    Ensures (mulLwe freeScheme pc x y) One := by
  unfold mulLwe
  refine Ensures.ite (fun h => by rw [hx] at h; cases h) fun _ => Ensures.ite (fun h => by rw [hy] at h; cases h) fun _ => ?_
  refine lutUintE.mono fun z hz => ?_
  obtain ⟨t, et⟩ := (Enc.add_left (hx.mulConst 3) y).ct
  rw [hz t et]
  exact ⟨Enc.of_ct rfl, _, by simp only [cw, comb_boot]; rfl⟩

/-- the second factor starts with two zeros -/
structure Shifted (pc : Cloud) (x y : Ctxt Term) : Prop where
  eq : x.length = y.length
  len : 3 ≤ x.length
  enc : ∀ i (hi : i < x.length), i < 3 → Enc x[i]
  fourth : ∀ hi : 3 < x.length, Enc x[3] ∨ x[3] = encryptWordTriv Term pc 0
  zero : ∀ i (hi : i < y.length), i < 2 → y[i] = encryptWordTriv Term pc 0
  two : ∀ hi : 2 < y.length, Enc y[2]

theorem heavier_loop {pc : Cloud} : ∀ (rows : List (Ctxt Term)) (cur other : Ctxt Term), Heavier cur →
    Ensures (reduceLoop freeScheme pc rows cur other) Heavier
  | [], _, _, hc => Ensures.pure hc
  | row :: rows, cur, other, hc => by
    unfold reduceLoop
    exact (heavier_add (.inl hc)).bind fun z hz => heavier_loop rows z cur hz

theorem heavier_schoolbook {pc : Cloud} (hm : pc.msgMod = 32) {x y : Ctxt Term} (h : Shifted pc x y) :
    Ensures (mulSchoolbook freeScheme pc x y) Heavier := by
  have hl := h.len
  have he := h.eq
  unfold mulSchoolbook
  refine (fill_exact (fun a b z => (Enc a → b = encryptWordTriv Term pc 0 → Enc z ∧ cw z = 0) ∧ (Enc a → Enc b → One z) ∧
      (Enc a ∨ a = encryptWordTriv Term pc 0 → b = encryptWordTriv Term pc 0 → cw z = 0)) h.eq
    fun i j hi hj => ?_).bind ?_
  · intro s z s' e
    exact ⟨fun h1 h2 => mulLwe_zero hm (.inl ⟨h1, h2⟩) s z s' e, fun h1 h2 => mulLwe_one h1 h2 s z s' e,
      fun h1 h2 => mulLwe_zeros hm h1 h2 s z s' e⟩
  rintro rows ⟨h1, h2⟩
  have hrow : ∀ j (hj : j < rows.length), j < 3 → rows[j].length = 2 * x.length ∧
      (∀ i, i < j → pd pc rows[j] i = encryptWordTriv Term pc 0) ∧
      (∀ i, j ≤ i → i < j + 4 → i - j < x.length → ∃ (hi : i - j < x.length) (hj' : j < y.length), (Enc x[i - j] → y[j] = encryptWordTriv Term pc 0 →
        Enc (pd pc rows[j] i) ∧ cw (pd pc rows[j] i) = 0) ∧ (Enc x[i - j] → Enc y[j] → One (pd pc rows[j] i)) ∧
        (Enc x[i - j] ∨ x[i - j] = encryptWordTriv Term pc 0 → y[j] = encryptWordTriv Term pc 0 → cw (pd pc rows[j] i) = 0)) ∧
      (∀ i, j + x.length ≤ i → pd pc rows[j] i = encryptWordTriv Term pc 0) := by
    intro j hj h3
    obtain ⟨mid, hml, e, hmid⟩ := h2 j hj (by omega)
    have hlen : rows[j].length = 2 * x.length := by rw [e]; simp [trivCt]; omega
    refine ⟨hlen, ?_, ?_, ?_⟩
    · intro i hi
      rw [pd_lt (by omega)]
      simp only [e]
      rw [List.getElem_append_left (by simp [trivCt]; omega), List.getElem_append_left (by simp [trivCt]; omega)]
      simp [trivCt]
    · intro i h4 h5 h6
      refine ⟨h6, by omega, ?_⟩
      have ep : pd pc rows[j] i = mid[i - j]'(by omega) := by
        rw [pd_lt (by omega)]
        simp only [e]
        rw [List.getElem_append_left (by simp [trivCt]; omega), List.getElem_append_right (by simp [trivCt]; omega)]
        congr 1
        simp [trivCt]
      rw [ep]
      exact hmid (i - j) (by omega) (by omega)
    · intro i hi
      by_cases h5 : i < rows[j].length
      · rw [pd_lt h5]
        simp only [e]
        rw [List.getElem_append_right (by simp [trivCt]; omega)]
        simp [trivCt]
      · rw [pd_ge (by omega)]
  unfold reduceMulsquary
  refine Ensures.idx.bind fun m0 ⟨g0, e0⟩ => Ensures.idx.bind fun m1 ⟨g1, e1⟩ => ?_
  have r0 := hrow 0 g0 (by omega)
  have r1 := hrow 1 g1 (by omega)
  have r2 := hrow 2 (by omega) (by omega)
  rw [e0] at r0
  rw [e1] at r1
  have c0 : ∀ i, i < 3 → i < x.length → Enc (pd pc m0 i) ∧ cw (pd pc m0 i) = 0 := by
    intro i hi hx
    obtain ⟨a, b, c, _⟩ := r0.2.2.1 i (by omega) (by omega) (by omega)
    exact c (h.enc _ a (by omega)) (h.zero 0 b (by omega))
  have c1 : ∀ i, 1 ≤ i → i < 4 → Enc (pd pc m1 i) ∧ cw (pd pc m1 i) = 0 := by
    intro i h1 hi
    obtain ⟨a, b, c, _⟩ := r1.2.2.1 i (by omega) (by omega) (by omega)
    exact c (h.enc _ a (by omega)) (h.zero 1 b (by omega))
  have c2 : ∀ i, 2 ≤ i → i < 4 → One (pd pc (rows[2]'(by omega)) i) := by
    intro i h1 hi
    obtain ⟨a, b, _, c, _⟩ := r2.2.2.1 i (by omega) (by omega) (by omega)
    exact c (h.enc _ a (by omega)) (h.two b)
  refine (mid_first (x := m0) (y := m1) (by rw [r0.1]; omega) (by rw [r1.1]; omega) (c0 0 (by omega) (by omega)).1 ?_ (r1.2.1 0 (by omega))
    (fun i h1 h2 => (c1 i h1 h2).1) ?_).bind fun s hs => ?_
  · intro i hi
    by_cases h3 : i < x.length
    · by_cases h4 : i < 3
      · exact (c0 i h4 h3).2
      · have : i = 3 := by omega
        subst this
        obtain ⟨a, b, _, _, c⟩ := r0.2.2.1 3 (by omega) (by omega) h3
        exact c (h.fourth h3) (h.zero 0 b (by omega))
    · rw [r0.2.2.2 i (by omega), cw_triv]
  · intro i hi
    by_cases h3 : 1 ≤ i
    · exact (c1 i h3 hi).2
    · rw [r1.2.1 i (by omega), cw_triv]
  · obtain ⟨row, rest, er⟩ : ∃ row rest, rows.drop 2 = row :: rest := by
      rw [List.drop_eq_getElem_cons (by omega)]; exact ⟨_, _, rfl⟩
    have e2 : row = rows[2]'(by omega) := by
      have := List.drop_eq_getElem_cons (l := rows) (i := 2) (by omega)
      rw [er] at this
      exact (List.cons.inj this).1
    rw [er]
    unfold reduceLoop
    rw [e2]
    exact (heavier_third hs (by rw [r2.1]; omega) (fun i hi => r2.2.1 i hi) (c2 2 (by omega) (by omega)) (c2 3 (by omega) (by omega))).bind
      fun z hz => heavier_loop rest z s hz

theorem heavier_karatsuba {pc : Cloud} {mulRec : Ctxt Term → Ctxt Term → M (Ctxt Term)} {x y : Ctxt Term} {n : Nat} (hn : n = (x.length + 1) / 2)
    (h : Ensures (mulRec (x.take n) (y.take n)) Heavier) : Ensures (mulKaratsuba freeScheme pc mulRec x y) Heavier := by
  unfold mulKaratsuba
  refine Ensures.ite (fun _ => Ensures.panic _) fun _ => ?_
  dsimp only
  rw [← hn]
  refine (Ensures.par2 (P := fun r => Heavier r.2.2) (Q := fun _ => True) ?_ (Ensures.trivial _)).bind ?_
  · refine (Ensures.par2 (P := fun _ => True) (Ensures.trivial _) h).bind fun r hr => (heavier_add (.inr hr.2)).bind fun p hp => Ensures.pure ?_
    exact hp.map_opp.append_right _
  · rintro ⟨⟨a, b, naNb⟩, c⟩ ⟨h1, -⟩
    refine (heavier_add (.inr h1)).bind fun cn hcn => ?_
    refine Ensures.ite (fun _ => heavier_add (.inr hcn)) fun _ => ?_
    exact (heavier_add (.inr hcn)).bind fun bc hbc => heavier_add (.inr hbc)

theorem Shifted.take {pc : Cloud} {x y : Ctxt Term} (h : Shifted pc x y) {n : Nat} (hn : 3 ≤ n) : Shifted pc (x.take n) (y.take n) := by
  refine ⟨by simp [h.eq], by have := h.len; simp; omega, ?_, ?_, ?_, ?_⟩
  · intro i hi h4
    rw [List.getElem_take]
    exact h.enc _ _ h4
  · intro hi
    rw [List.getElem_take]
    exact h.fourth _
  · intro i hi h4
    rw [List.getElem_take]
    exact h.zero _ _ h4
  · intro hi
    rw [List.getElem_take]
    exact h.two _

theorem heavier_impl {pc : Cloud} (hm : pc.msgMod = 32) : ∀ (fuel : Nat) {x y : Ctxt Term}, Shifted pc x y →
    Ensures (mulImpl freeScheme pc fuel x y) Heavier
  | fuel, x, y, h => by
    have hl := h.len
    unfold mulImpl
    rw [mulAlign_eq h.eq]
    dsimp only
    refine Ensures.ite (fun h => by omega) fun _ => Ensures.ite (fun h => by omega) fun _ =>
      Ensures.ite (fun _ => heavier_schoolbook hm h) fun h16 => Ensures.ite (fun h32 => ?_) fun _ => Ensures.err _
    match fuel with
    | 0 => exact Ensures.panic _
    | fuel + 1 => exact heavier_karatsuba rfl (heavier_impl hm fuel (h.take (by omega))).call

/-- a product with a ciphertext shifted by two -/
theorem heavier_shift {pc : Cloud} (hm : pc.msgMod = 32) (fuel : Nat) {x y : Ctxt Term} (hx : 3 ≤ x.length)
    (he : ∀ w ∈ x, Enc w) (hy : y ≠ []) (h0 : ∀ w ∈ y, Enc w) :
    Ensures (mulImpl freeScheme pc fuel x (ctShift pc y 2)) Heavier := by
  have hyl : 0 < y.length := List.length_pos_iff.2 hy
  have es : ctShift pc y 2 = encryptWordTriv Term pc 0 :: encryptWordTriv Term pc 0 :: y := by
    simp [ctShift, trivCt, List.replicate]
  have key : ∀ u v u' v' : Ctxt Term, mulAlign freeScheme pc u v = (u', v') → u'.length = v'.length →
      mulImpl freeScheme pc fuel u v = mulImpl freeScheme pc fuel u' v' := by
    intro u v u' v' e e'
    unfold mulImpl
    rw [e, mulAlign_eq e']
  rw [es]
  obtain ⟨u, hu⟩ : ∃ u, u = x ++ List.replicate (y.length + 2 - x.length) (encryptWordTriv Term pc 0) := ⟨_, rfl⟩
  obtain ⟨v, hv⟩ : ∃ v, v = encryptWordTriv Term pc 0 :: encryptWordTriv Term pc 0 ::
    (y ++ List.replicate (x.length - (y.length + 2)) (encryptWordTriv Term pc 0)) := ⟨_, rfl⟩
  have el : u.length = v.length := by rw [hu, hv]; simp; omega
  rw [key _ _ u v (by rw [hu, hv]; simp [mulAlign]) el]
  refine heavier_impl hm fuel ⟨el, by rw [hu]; simp; omega, ?_, ?_, ?_, ?_⟩
  · intro i hi h5
    simp only [hu] at hi ⊢
    have : i < x.length := by
      simp at hi
      omega
    rw [List.getElem_append_left this]
    exact he _ (List.getElem_mem _)
  · intro hi
    simp only [hu] at hi ⊢
    by_cases h5 : 3 < x.length
    · rw [List.getElem_append_left h5]
      exact .inl (he _ (List.getElem_mem _))
    · rw [List.getElem_append_right (by omega)]
      exact .inr (by simp)
  · intro i hi h5
    have : i = 0 ∨ i = 1 := by omega
    rcases this with rfl | rfl <;> simp [hv]
  · intro hi
    simp only [hv, List.getElem_cons_succ]
    rw [List.getElem_append_left hyl]
    exact h0 _ (List.getElem_mem _)

end Mg
end Parm
