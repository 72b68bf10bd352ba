import Verif.Proof.NafDebug

/-!
# When the recoding has more nonzero digits than necessary

The loop of `koyama_tsuruoka_vec` (`naf.rs:118-146`) does not look at the leading bit, so a run of ones that becomes long enough
only with the leading bit is left as it is.
-/

namespace Parm

set_option linter.unusedSimpArgs false

/-- Read from the most significant digit: 1 1, then 0 1 any number of times, then 1. -/
def TopHeavy (ds : List Int) : Prop :=
  ∃ low n, ds = low ++ 1 :: ((List.replicate n [1, 0]).flatten ++ [1, 1])

/-- such digits can be replaced by fewer -/
theorem topHeavy_shorter : ∀ n : Nat,
    value (1 :: ((List.replicate n [1, 0]).flatten ++ [1, 1])) = value (-1 :: ((List.replicate n [0, -1]).flatten ++ [0, 0, 1])) ∧
    (1 :: ((List.replicate n [(1 : Int), 0]).flatten ++ [1, 1])).countP (· ≠ 0) =
      ((-1 : Int) :: ((List.replicate n [0, -1]).flatten ++ [0, 0, 1])).countP (· ≠ 0) + 1 ∧
    ∀ d ∈ (-1 : Int) :: ((List.replicate n [0, -1]).flatten ++ [0, 0, 1]), IsDigit d
  | 0 => ⟨by decide, by decide, fun d hd => by simp at hd; unfold IsDigit; omega⟩
  | n + 1 => by
    obtain ⟨h1, h2, h3⟩ := topHeavy_shorter n
    refine ⟨?_, ?_, ?_⟩
    · simp only [List.replicate_succ, List.flatten_cons, List.cons_append, List.nil_append, value_cons] at h1 ⊢
      omega
    · simp only [List.replicate_succ, List.flatten_cons, List.cons_append, List.nil_append, List.countP_cons] at h2 ⊢
      simp at h2 ⊢
    · intro d hd
      simp only [List.replicate_succ, List.flatten_cons, List.cons_append, List.nil_append, List.mem_cons] at hd h3
      rcases hd with rfl | rfl | rfl | hd
      · simp [IsDigit]
      · simp [IsDigit]
      · simp [IsDigit]
      · exact h3 d (.inr hd)

theorem TopHeavy.shorter {ds : List Int} (h : TopHeavy ds) (hd : ∀ d ∈ ds, IsDigit d) :
    ∃ r : List Int, (∀ d ∈ r, IsDigit d) ∧ value r = value ds ∧ ds.countP (· ≠ 0) = r.countP (· ≠ 0) + 1 := by
  obtain ⟨low, n, rfl⟩ := h
  obtain ⟨h1, h2, h3⟩ := topHeavy_shorter n
  refine ⟨low ++ (-1 :: ((List.replicate n [0, -1]).flatten ++ [0, 0, 1])), ?_, ?_, ?_⟩
  · intro d hd'
    rcases List.mem_append.1 hd' with h | h
    · exact hd d (by simp [h])
    · exact h3 d h
  · rw [value_append, value_append, h1]
  · rw [List.countP_append, List.countP_append, h2]
    omega

/-- ones and zeros that alternate between two heights and leave them at the top -/
theorem alternating {k x : Nat} {z : Int} {ds : List Int} (hl : ds.length = x + 1) (hx : ds.getD x 0 = 1)
    (he : excess k x = z + 2) : ∀ (n i : Nat), x - i = n → i ≤ x → excess k i = z + 1 →
    (∀ j, i ≤ j → j < x → ds.getD j 0 = bitAt k j) → (∀ j, i ≤ j → j ≤ x → z + 1 ≤ excess k j ∧ excess k j ≤ z + 2) →
    ∃ n, ds.drop i = (List.replicate n [1, 0]).flatten ++ [1, 1] := by
  have hdrop : ∀ i, i ≤ x → ds.drop i = ds.getD i 0 :: ds.drop (i + 1) := by
    intro i hi
    rw [List.drop_eq_getElem_cons (by omega)]
    simp [List.getD_eq_getElem?_getD, show i < ds.length by omega]
  intro n
  induction n using Nat.strong_induction_on with
  | _ n ih =>
    intro i hn hi hz hd hw
    have hix : i < x := by
      rcases Nat.lt_or_eq_of_le hi with h | h
      · exact h
      · subst h; omega
    have hb : bitAt k i = 1 := by
      have := (hw (i + 1) (by omega) (by omega)).1
      rw [excess_succ] at this
      have := bitAt_cases k i
      omega
    rw [hdrop i hi, hd i (le_refl _) hix, hb]
    by_cases h1 : i + 1 = x
    · refine ⟨0, ?_⟩
      rw [h1, hdrop x (le_refl _), hx, List.drop_eq_nil_of_le (by omega)]
      rfl
    · have e1 : excess k (i + 1) = z + 2 := by rw [excess_succ, hb, hz]; ring
      have hb' : bitAt k (i + 1) = 0 := by
        have := (hw (i + 1 + 1) (by omega) (by omega)).2
        rw [excess_succ] at this
        have := bitAt_cases k (i + 1)
        omega
      have e2 : excess k (i + 1 + 1) = z + 1 := by rw [excess_succ, hb', e1]; ring
      obtain ⟨m, hm⟩ := ih (x - (i + 1 + 1)) (by omega) (i + 1 + 1) rfl (by omega) e2
        (fun j a b => hd j (by omega) b) fun j a b => hw j (by omega) b
      refine ⟨m + 1, ?_⟩
      rw [hdrop (i + 1) (by omega), hd (i + 1) (by omega) (by omega), hb', hm]
      rfl

/-- a climb by three from the lowest point up to the leading one -/
theorem topHeavy_of_climb {k x w : Nat} {z : Int} {ds : List Int} (hl : ds.length = x + 1) (hx : ds.getD x 0 = 1) (hwx : w ≤ x)
    (hz : excess k w = z) (he : excess k x = z + 2) (hd : ∀ j, w ≤ j → j < x → ds.getD j 0 = bitAt k j)
    (hlo : ∀ j, w ≤ j → j ≤ x → z ≤ excess k j) (hhi : ∀ j, w ≤ j → j ≤ x → excess k j ≤ z + 2) : TopHeavy ds := by
  -- the last lowest point
  obtain ⟨a, ha1, ha2, ha3, ha4⟩ : ∃ a, w ≤ a ∧ a ≤ x ∧ excess k a = z ∧ ∀ j, a < j → j ≤ x → z + 1 ≤ excess k j := by
    have : ∀ n, n ≤ x - w → ∃ a, w ≤ a ∧ a ≤ w + n ∧ excess k a = z ∧ ∀ j, a < j → j ≤ w + n → z + 1 ≤ excess k j := by
      intro n
      induction n with
      | zero => exact fun _ => ⟨w, le_refl _, le_refl _, hz, fun j _ _ => by omega⟩
      | succ n ih =>
        intro hn
        by_cases hc : excess k (w + (n + 1)) = z
        · exact ⟨_, by omega, le_refl _, hc, fun j _ _ => by omega⟩
        · obtain ⟨a, h1, h2, h3, h4⟩ := ih (by omega)
          refine ⟨a, h1, by omega, h3, fun j a1 a2 => ?_⟩
          by_cases hj : j = w + (n + 1)
          · have := hlo j (by omega) (by omega)
            subst hj
            omega
          · exact h4 j a1 (by omega)
    obtain ⟨a, h1, h2, h3, h4⟩ := this (x - w) (le_refl _)
    exact ⟨a, h1, by omega, h3, fun j a1 a2 => h4 j a1 (by omega)⟩
  have hax : a < x := by
    rcases Nat.lt_or_eq_of_le ha2 with h | h
    · exact h
    · subst h; omega
  have hb : bitAt k a = 1 := by
    have := ha4 (a + 1) (by omega) (by omega)
    rw [excess_succ] at this
    have := bitAt_cases k a
    omega
  obtain ⟨n, hn⟩ := alternating (k := k) hl hx he (x - (a + 1)) (a + 1) rfl (by omega) (by rw [excess_succ, hb, ha3]; ring)
    (fun j a1 a2 => hd j (by omega) a2) fun j a1 a2 => ⟨ha4 j (by omega) a2, hhi j (by omega) a2⟩
  refine ⟨ds.take a, n, ?_⟩
  have e : ds.drop a = 1 :: ds.drop (a + 1) := by
    rw [List.drop_eq_getElem_cons (by omega)]
    have := hd a ha1 hax
    rw [List.getD_eq_getElem?_getD, List.getElem?_eq_getElem (by omega), Option.getD_some, hb] at this
    rw [this]
  rw [← hn, ← e, List.take_append_drop]

/-- the end of the recoding: nothing wasted, unless the climb is by two before the leading bit -/
theorem ktFinishG_sharp {bit pred : Nat → M Int} {k kLen : Nat} (hbit : ∀ i < kLen, Returns (bit i) (bitAt k i) 0)
    (hpred : ∀ i < kLen, Returns (pred i) (bitAt k i - 1) 0) (h1k : 1 ≤ kLen) (hlow : 2 ^ (kLen - 1) ≤ k)
    (hhigh : k < 2 ^ kLen) {s : KtSt} (h : KtState k kLen s) (hx : s.x = kLen - 1) (hne : ¬ (s.m = 0 ∧ s.y = s.z + 2)) :
    ∃ vec, Returns (ktFinishG bit pred s) vec 0 ∧ vec.length = kLen + 1 ∧ KtInv k vec (kLen + 1) 0 ∧
      ∃ t, Low k (kLen - 1) t t ∧ wtN (fun i => vec.getD i 0) (kLen + 1) ≤ t + 1 := by
  obtain ⟨hlen, hbase, hy, hmode⟩ := h
  obtain ⟨vec, j, m, x, y, z, u, v, w⟩ := s
  simp only at *
  obtain ⟨L, rfl⟩ : ∃ L, kLen = L + 1 := ⟨kLen - 1, by omega⟩
  simp only [Nat.add_sub_cancel] at hlow hx
  subst hx
  have hb1 : bitAt k x = 1 := by
    unfold bitAt
    have h1 : k / 2 ^ x < 2 := by
      rw [Nat.div_lt_iff_lt_mul (Nat.two_pow_pos x), ← Nat.pow_succ']; exact hhigh
    have h2 : 1 ≤ k / 2 ^ x := by
      rw [Nat.le_div_iff_mul_le (Nat.two_pow_pos x)]; omega
    have : k / 2 ^ x = 1 := by omega
    rw [this]; rfl
  have hb2 : bitAt k (x + 1) = 0 := by
    unfold bitAt
    rw [Nat.div_eq_of_lt hhigh]; rfl
  simp only [Nat.add_sub_cancel]
  by_cases hA : m = 0 ∨ (m = 1 ∧ v ≤ y)
  · have hm : m = 0 ∨ m = 1 := by omega
    have hjx : j ≤ x := by
      rcases hmode with h | h <;> omega
    obtain ⟨vec1, f1, f2, f3, f4⟩ := fillWhile_spec (k := k) (m := m)
      (f := fun i => do
        let t ← bit i
        pure (t - m)) hm (x - j) j vec
      (fun i _ hi => (hbit _ (by omega)).bind0 (Returns.pure _)) (by omega) hbase
    rw [show j + (x - j) = x by omega] at f3 f4
    obtain ⟨g1, g2⟩ := f3.set (t := 1 - m) (m' := m) (by omega) (by rw [hb1]; ring)
      (by unfold IsDigit; omega)
    obtain ⟨e1, e2⟩ := g1.set (t := m) (m' := 0) (by simp only [List.length_set]; omega)
      (by rw [hb2]; ring) (by unfold IsDigit; omega)
    refine ⟨(vec1.set x (1 - m)).set (x + 1) m, ?_, by simp only [List.length_set]; omega, e1, ?_⟩
    · unfold ktFinishG
      simp only [if_pos hA]
      refine f1.bind0 ?_
      rw [show max j x = x by omega]
      exact (Returns.setIdx (by omega)).bind0 (Returns.setIdx (by simp only [List.length_set]; omega))
    · rw [e2, g2]
      rcases hmode with ⟨h0, _, _, _, _, hwt, hl0, hl2, hlow⟩ | ⟨h0, hju, hux, hv, hmax, hwt, hl0, hl2, hlow⟩
      · subst h0
        simp only [zero_mul, one_mul, add_zero, zero_add, abs_one, abs_neg, abs_zero, sub_self, sub_zero] at f4 ⊢
        refine ⟨wtN (fun i => vec1.getD i 0) x, hlow.mono ?_ ?_, ?_⟩ <;> omega
      · subst h0
        simp only [zero_mul, one_mul, add_zero, zero_add, abs_one, abs_neg, abs_zero, sub_self, sub_zero] at f4 ⊢
        refine ⟨wtN (fun i => vec1.getD i 0) x, hlow.mono ?_ ?_, ?_⟩ <;> omega
  · rcases hmode with ⟨h0, _⟩ | ⟨h0, hju, hux, hv, hmax, hwt⟩
    · omega
    · obtain ⟨hwt, hl0, hl2, hlow'⟩ := hwt
      subst h0
      have hvy : y < v := by omega
      have hu1 : u < x := by
        rcases Nat.lt_or_eq_of_le hux with h | h
        · exact h
        · subst h; omega
      have hbu : bitAt k u = 0 := by
        have := hmax (u + 1) (by omega) (by omega)
        rw [excess_succ] at this
        have := bitAt_cases k u
        omega
      obtain ⟨vec1, f1, f2, f3, f4⟩ := fillWhile_spec (k := k) (f := pred) (m := 1)
        (Or.inr rfl) (u - j) j vec
        (fun i _ hi => hpred _ (by omega)) (by omega) hbase
      rw [show j + (u - j) = u by omega] at f3 f4
      obtain ⟨g1, g2⟩ := f3.set (t := 1) (m' := 0) (by omega) (by rw [hbu]; norm_num) (by simp [IsDigit])
      obtain ⟨vec2, p1, p2, p3, p4⟩ := fillWhile_spec (k := k) (f := bit) (m := 0)
        (Or.inl rfl) (x - (u + 1)) (u + 1) (vec1.set u 1)
        (fun i _ hi => (hbit _ (by omega)).congr (by ring) rfl)
        (by simp only [List.length_set]; omega) g1
      rw [show u + 1 + (x - (u + 1)) = x by omega] at p3 p4
      rw [List.length_set] at p2
      obtain ⟨q1, q2⟩ := p3.set (t := 1) (m' := 0) (by omega) (by rw [hb1]; norm_num) (by simp [IsDigit])
      obtain ⟨e1, e2⟩ := q1.set (t := 0) (m' := 0) (by simp only [List.length_set]; omega)
        (by rw [hb2]; ring) (by simp [IsDigit])
      refine ⟨(vec2.set x 1).set (x + 1) 0, ?_, by simp only [List.length_set]; omega, e1, ?_⟩
      · unfold ktFinishG
        rw [if_neg hA]
        refine f1.bind0 ?_
        rw [show max j u = u by omega]
        refine (Returns.setIdx (by omega)).bind0 ?_
        refine p1.bind0 ?_
        rw [show max (u + 1) x = x by omega]
        exact (Returns.setIdx (by omega)).bind0 (Returns.setIdx (by simp only [List.length_set]; omega))
      · rw [e2, q2]
        simp only [popN] at p4 ⊢
        rw [g2, hbu] at p4
        simp only [zero_mul, one_mul, add_zero, zero_add, abs_one, abs_neg, abs_zero, sub_self, sub_zero] at f4 p4 ⊢
        refine ⟨wtN (fun i => vec2.getD i 0) x, hlow'.mono ?_ ?_, ?_⟩ <;> omega

namespace KtScript

/-- the walk stays below the height that would open a run -/
structure Walk (k : Nat) (s : KtSt) : Prop where
  y : s.y = excess k s.x
  top : s.m = 0 → ∀ i, s.w ≤ i → i ≤ s.x → excess k i ≤ s.z + 2

theorem step_walk {k : Nat} {s : KtSt} (h : Walk k s) : Walk k (step k s) := by
  obtain ⟨hy, ht⟩ := h
  have ey : (if bit k s.x = 1 then s.y + 1 else s.y - 1) = excess k (s.x + 1) := by
    rw [excess_succ, ← hy, bit_eq]
    rcases bitAt_cases k s.x with h | h <;> rw [h] <;> norm_num
    omega
  unfold step
  dsimp only
  rw [ey]
  have last : ∀ {z : Int}, excess k (s.x + 1) ≤ z + 2 → ∀ i, s.x + 1 ≤ i → i ≤ s.x + 1 → excess k i ≤ z + 2 :=
    fun h i h1 h2 => by rwa [show i = s.x + 1 by omega]
  split_ifs with h0 h1 h2 h3 h4
  · exact ⟨rfl, fun h => absurd h one_ne_zero⟩
  · exact ⟨rfl, fun _ => last (by dsimp only; omega)⟩
  · refine ⟨rfl, fun _ i a b => ?_⟩
    dsimp only at a b ⊢
    by_cases hi : i ≤ s.x
    · exact ht h0 i a hi
    · rw [show i = s.x + 1 by omega]
      omega
  · exact ⟨rfl, fun _ => last (by dsimp only; omega)⟩
  · exact ⟨rfl, fun h => absurd h h0⟩
  · exact ⟨rfl, fun h => absurd h h0⟩

theorem loop_walk {k : Nat} : ∀ (n : Nat) {s : KtSt}, Walk k s → Walk k (loop k n s)
  | 0, _, h => h
  | n + 1, _, h => loop_walk n (step_walk h)

/-- Either no representation has fewer nonzero digits, or the digits are heavy at the top. -/
theorem kt_minimal {lg : Nat → Nat} {k L : Nat} (h0 : k ≠ 0) (h1 : k ≠ 1) (hl : lg k + 1 = L) (b1 : 2 ^ (L - 1) ≤ k) (b2 : k < 2 ^ L) :
    (∀ r : List Int, (∀ d ∈ r, IsDigit d) → value r = k → (kt lg k).countP (· ≠ 0) ≤ r.countP (· ≠ 0)) ∨ TopHeavy (kt lg k) := by
  obtain ⟨s, hs⟩ : ∃ s : KtSt, s = ⟨List.replicate (L + 1) 0, 0, 0, 0, 0, 0, 0, 0, 0⟩ := ⟨_, rfl⟩
  have hbit : ∀ i < L, Returns (pure (bitAt k i) : M Int) (bitAt k i) 0 := fun i _ => Returns.pure _
  have hpred : ∀ i < L, Returns (pure (bitAt k i - 1) : M Int) (bitAt k i - 1) 0 := fun i _ => Returns.pure _
  have hw : Walk k s := by
    subst hs
    refine ⟨rfl, fun _ i a b => ?_⟩
    dsimp only at a b ⊢
    rw [show i = 0 by omega]
    simp [excess, popN]
  obtain ⟨s', s1, s2, s3⟩ := ktLoopG_spec hbit hpred (L - 1) (s := s) (by
    subst hs
    exact ⟨by simp, ⟨fun i hi => absurd hi (by simp), by simp [valueN, Nat.mod_one]⟩, rfl,
      Or.inl ⟨rfl, le_refl _, le_refl _, rfl, fun i h1 h2 => by
        have : i = 0 := by simp only at h2; omega
        subst this; exact le_refl _, le_refl _, le_refl _, by simp [excess, popN],
        Low.start k⟩⟩) (by subst hs; dsimp only; omega)
  have hx0 : s.x = 0 := by rw [hs]
  have es : s' = loop k (L - 1) s := by
    obtain ⟨_, _, _, e⟩ := s1 (St.init Sched.seq)
    exact (loop_sim hbit hpred (L - 1) (s := s) (by omega) (by rw [hs]) (by rw [hs]) _ _ _ e).1
  have hwalk := loop_walk (L - 1) hw
  rw [← es] at hwalk
  obtain ⟨vec, hvec⟩ : ∃ vec, vec = finish k s' := ⟨_, rfl⟩
  have hk : kt lg k = if vec.getLast? = some 0 then vec.dropLast else vec := by
    unfold kt
    rw [if_neg h0, if_neg h1]
    dsimp only
    rw [hl, ← hs, ← es, ← hvec]
  by_cases hc : s'.m = 0 ∧ s'.y = s'.z + 2
  · right
    obtain ⟨m0, hy⟩ := hc
    obtain ⟨hlen, -, hy', hmode⟩ := s2
    rcases hmode with ⟨-, hjw, hwx, hz, hmin, -⟩ | ⟨m1, -⟩
    · have hj : s'.j ≤ s'.x := by omega
      obtain ⟨f1, f2⟩ := fill_spec (fun i => bit k i - s'.m) (s'.x - s'.j) s'.j s'.vec (by omega)
      have p1 := put_lt (v := fill (fun i => bit k i - s'.m) (s'.x - s'.j) s'.j s'.vec) (j := s'.x) (by omega) (1 - s'.m)
      have p2 := put_lt (v := (fill (fun i => bit k i - s'.m) (s'.x - s'.j) s'.j s'.vec).set s'.x (1 - s'.m)) (j := s'.x + 1)
        (by rw [List.length_set]; omega) s'.m
      have ev : vec = ((fill (fun i => bit k i - s'.m) (s'.x - s'.j) s'.j s'.vec).set s'.x (1 - s'.m)).set (s'.x + 1) s'.m := by
        rw [hvec]
        unfold finish
        rw [if_pos (.inl m0)]
        dsimp only
        rw [show max s'.j s'.x = s'.x by omega, p1, p2]
      have vlen : vec.length = L + 1 := by rw [ev, List.length_set, List.length_set, f1, hlen]
      have vlast : vec.getLast? = some 0 := by
        rw [List.getLast?_eq_getElem?, vlen, Nat.add_sub_cancel, ev, show L = s'.x + 1 by omega,
          List.getElem?_set_self (by rw [List.length_set]; omega), m0]
      rw [hk, if_pos vlast]
      have vd : ∀ i, i < L → vec.dropLast.getD i 0 = vec.getD i 0 := by
        intro i hi
        simp only [List.getD_eq_getElem?_getD]
        rw [List.getElem?_dropLast, if_pos (by omega)]
      refine topHeavy_of_climb (k := k) (x := s'.x) (w := s'.w) (z := s'.z) ?_ ?_ hwx hz.symm (by rw [← hy', hy]) ?_ hmin
        (hwalk.top m0)
      · rw [List.length_dropLast, vlen]; omega
      · rw [vd _ (by omega), ev, getD_set_ne (by omega), getD_set_eq (by omega), m0]
        rfl
      · intro i a b
        rw [vd _ (by omega), ev, getD_set_ne (by omega), getD_set_ne (by omega), f2, if_pos (by omega), m0, sub_zero]
        rfl
    · omega
  · left
    intro r hr hv
    obtain ⟨vec', g1, g2, g3, t, g4, g5⟩ := ktFinishG_sharp hbit hpred (by omega) b1 b2 s2 (by omega) hc
    have ev : vec' = vec := by
      obtain ⟨_, _, _, e⟩ := g1 (St.init Sched.seq)
      rw [hvec]
      refine finish_sim hbit hpred (s := s') (by omega) ?_ _ _ _ e
      have := (loop_sim hbit hpred (L - 1) (s := s) (by omega) (by rw [hs]) (by rw [hs]) _ _ _ (s1 (St.init Sched.seq)).choose_spec.choose_spec.2).2.2
      exact this
    rw [ev] at g2 g3 g5
    rw [← g2] at g3 g5
    rw [wtN_list vec g3.list.1] at g5
    have := g4.whole (by omega) b1 b2 hr hv
    have hle : (kt lg k).countP (· ≠ 0) ≤ vec.countP (· ≠ 0) := by
      rw [hk]
      split_ifs
      · exact (List.dropLast_sublist vec).countP_le
      · exact le_refl _
    omega

end KtScript
end Parm
