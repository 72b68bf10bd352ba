import Verif.Proof.KtScript

/-!
# For which numbers the recoding overflows in a debug build

`koyama_tsuruoka_vec` subtracts 1 from an unsigned bit (`naf.rs:134,154`).  This happens for the digits between a -1 that opens
a run of borrowed ones and the 1 that closes it, so an overflow leaves a second -1 in the same run.
-/

namespace Parm

/-- two digits -1 without a 1 between them, but with a 1 above them, among the first `N` digits -/
def Borrows (ds : List Int) (N : Nat) : Prop :=
  ∃ a b c, a < b ∧ b < c ∧ c < N ∧ ds.getD a 0 = -1 ∧ ds.getD b 0 = -1 ∧ ds.getD c 0 = 1 ∧
    ∀ i, a < i → i < b → ds.getD i 0 ≠ 1

namespace KtScript

theorem put_lt {v : List Int} {j : Nat} (h : j < v.length) (t : Int) : put v j t = v.set j t := if_pos h

theorem fill_spec (f : Nat → Int) : ∀ (n j : Nat) (v : List Int), j + n ≤ v.length →
    (fill f n j v).length = v.length ∧ ∀ i, (fill f n j v).getD i 0 = if j ≤ i ∧ i < j + n then f i else v.getD i 0
  | 0, j, v, _ => ⟨rfl, fun i => by rw [if_neg (by omega)]; rfl⟩
  | n + 1, j, v, h => by
    unfold fill
    rw [put_lt (by omega)]
    obtain ⟨h1, h2⟩ := fill_spec f n (j + 1) (v.set j (f j)) (by rw [List.length_set]; omega)
    refine ⟨by rw [h1, List.length_set], fun i => ?_⟩
    rw [h2]
    by_cases hij : i = j
    · subst hij
      rw [if_neg (by omega), if_pos (by omega), getD_set_eq (by omega)]
    · rw [getD_set_ne hij]
      by_cases hc : j ≤ i ∧ i < j + (n + 1)
      · rw [if_pos hc, if_pos (by omega)]
      · rw [if_neg hc, if_neg (by omega)]

/-- reading bits -/
theorem fill_returns {f : Nat → M Int} {g : Nat → Int} : ∀ (n j : Nat) (v : List Int),
    (∀ i, j ≤ i → i < j + n → Returns (f i) (g i) 0) → j + n ≤ v.length → Returns (fillWhile f n j v) (fill g n j v) 0
  | 0, _, _, _, _ => Returns.pure _
  | n + 1, j, v, h, hl => by
    unfold fillWhile fill
    rw [put_lt (by omega)]
    refine (h j (by omega) (by omega)).bind0 ((Returns.setIdx (by omega)).bind0 ?_)
    exact fill_returns n (j + 1) _ (fun i h1 h2 => h i (by omega) (by omega)) (by rw [List.length_set]; omega)

theorem pred_debug (k : Nat) {i : Nat} (hi : i < 32) :
    (bitAt k i = 1 → Returns (u32BitPred .debug k i) (bitAt k i - 1) 0) ∧
    (bitAt k i = 0 → Fails (u32BitPred .debug k i) (.panic .overflow)) := by
  have e : u32Bit .debug k i = pure (bitAt k i) := by
    unfold Parm.u32Bit
    rw [if_pos hi]
    rfl
  unfold Parm.u32BitPred
  rw [e]
  constructor <;> intro h <;> rw [h]
  · exact (Returns.pure _).congr (by decide) rfl
  · intro s
    rfl

/-- an overflow on the way -/
theorem fill_fails {k : Nat} : ∀ (n j : Nat) (v : List Int), j + n ≤ v.length → j + n ≤ 32 →
    (∃ i, j ≤ i ∧ i < j + n ∧ bitAt k i = 0) → Fails (fillWhile (u32BitPred .debug k) n j v) (.panic .overflow)
  | 0, _, _, _, _, h => by obtain ⟨i, h1, h2, _⟩ := h; omega
  | n + 1, j, v, hl, h32, h => by
    unfold fillWhile
    by_cases hb : bitAt k j = 0
    · exact Fails.bind ((pred_debug k (by omega)).2 hb)
    · have h1 := (pred_debug k (i := j) (by omega)).1 ((bitAt_cases k j).resolve_left hb)
      refine fun s => ?_
      refine (h1.bind_fails ((Returns.setIdx (by omega)).bind_fails ?_)) s
      refine fill_fails n (j + 1) _ (by rw [List.length_set]; omega) (by omega) ?_
      obtain ⟨i, a1, a2, a3⟩ := h
      refine ⟨i, ?_, by omega, a3⟩
      by_contra hc
      exact hb (by rwa [show i = j by omega] at a3)

/-- what is known of the state: where the next run starts, and what stands below it -/
structure DInv (L : Nat) (s : KtSt) : Prop where
  len : s.vec.length = L + 1
  x : s.x < L
  mode : (s.m = 0 ∧ s.j ≤ s.w ∧ s.w ≤ s.x ∧ (s.j = 0 ∨ s.vec.getD (s.j - 1) 0 = 1)) ∨
    (s.m = 1 ∧ 1 ≤ s.j ∧ s.j ≤ s.u ∧ s.u ≤ s.x ∧ s.vec.getD (s.j - 1) 0 = -1 ∧ (s.u < s.x ∨ s.v ≤ s.y))

/-- no two digits -1 without a 1 between them so far -/
def Calm (s : KtSt) : Prop := ∀ a b, a < b → b < s.j → s.vec.getD a 0 = -1 → s.vec.getD b 0 = -1 →
  ∃ i, a < i ∧ i < b ∧ s.vec.getD i 0 = 1

/-- opening a run -/
theorem open_run {L : Nat} {k j w : Nat} {vec : List Int} (hl : vec.length = L + 1) (hj : j ≤ w) (hw : w < L) :
    ∃ v, put (fill (bit k) (w - j) j vec) (max j w) (-1) = v ∧ max j w = w ∧ v.length = L + 1 ∧ v.getD w 0 = -1 ∧
      (∀ i, j ≤ i → i < w → v.getD i 0 = bitAt k i) ∧ ∀ i, i < j → v.getD i 0 = vec.getD i 0 := by
  obtain ⟨h1, h2⟩ := fill_spec (bit k) (w - j) j vec (by omega)
  have e : max j w = w := by omega
  rw [e, put_lt (by omega)]
  refine ⟨_, rfl, rfl, by rw [List.length_set]; omega, getD_set_eq (by omega) _, fun i a b => ?_, fun i a => ?_⟩
  · rw [getD_set_ne (by omega), h2, if_pos (by omega)]; rfl
  · rw [getD_set_ne (by omega), h2, if_neg (by omega)]

/-- closing it -/
theorem close_run {L : Nat} {k j u : Nat} {vec : List Int} (hl : vec.length = L + 1) (hj : j ≤ u) (hu : u < L) :
    ∃ v, put (fill (fun i => bit k i - 1) (u - j) j vec) (max j u) 1 = v ∧ max j u = u ∧ v.length = L + 1 ∧ v.getD u 0 = 1 ∧
      (∀ i, j ≤ i → i < u → v.getD i 0 = bitAt k i - 1) ∧ ∀ i, i < j → v.getD i 0 = vec.getD i 0 := by
  obtain ⟨h1, h2⟩ := fill_spec (fun i => bit k i - 1) (u - j) j vec (by omega)
  have e : max j u = u := by omega
  rw [e, put_lt (by omega)]
  refine ⟨_, rfl, rfl, by rw [List.length_set]; omega, getD_set_eq (by omega) _, fun i a b => ?_, fun i a => ?_⟩
  · rw [getD_set_ne (by omega), h2, if_pos (by omega)]; rfl
  · rw [getD_set_ne (by omega), h2, if_neg (by omega)]

theorem step_dinv {L k : Nat} {s : KtSt} (h : DInv L s) (hx : s.x + 1 < L) :
    DInv L (step k s) ∧ (step k s).x = s.x + 1 ∧ s.j ≤ (step k s).j ∧
      ∀ i, i < s.j → (step k s).vec.getD i 0 = s.vec.getD i 0 := by
  obtain ⟨hl, hxl, hm⟩ := h
  unfold step
  dsimp only
  generalize (if bit k s.x = 1 then s.y + 1 else s.y - 1) = y
  rcases hm with ⟨m0, h1, h2, h3⟩ | ⟨m1, h0, h1, h2, h3, h4⟩
  · rw [if_pos m0]
    split_ifs
    · obtain ⟨v, e1, e2, e3, e4, e5, e6⟩ := open_run (k := k) (vec := s.vec) hl h1 (by omega)
      rw [e1, e2]
      refine ⟨⟨e3, hx, .inr ⟨rfl, ?_, ?_, ?_, ?_, ?_⟩⟩, rfl, ?_, e6⟩ <;> dsimp only
      · omega
      · omega
      · omega
      · simpa using e4
      · exact .inr (le_refl _)
      · omega
    · exact ⟨⟨hl, hx, .inl ⟨m0, by dsimp only; omega, by dsimp only; omega, h3⟩⟩, rfl, le_refl _, fun _ _ => rfl⟩
    · exact ⟨⟨hl, hx, .inl ⟨m0, h1, by dsimp only; omega, h3⟩⟩, rfl, le_refl _, fun _ _ => rfl⟩
  · rw [if_neg (by omega)]
    split_ifs
    · obtain ⟨v, e1, e2, e3, e4, e5, e6⟩ := close_run (k := k) (vec := s.vec) hl h1 (by omega)
      rw [e1, e2]
      refine ⟨⟨e3, hx, .inl ⟨rfl, ?_, ?_, ?_⟩⟩, rfl, ?_, e6⟩ <;> dsimp only
      · omega
      · omega
      · right; simpa using e4
      · omega
    · exact ⟨⟨hl, hx, .inr ⟨m1, h0, by dsimp only; omega, by dsimp only; omega, h3, .inr (le_refl _)⟩⟩, rfl, le_refl _, fun _ _ => rfl⟩
    · exact ⟨⟨hl, hx, .inr ⟨m1, h0, h1, by dsimp only; omega, h3, .inl (by dsimp only; omega)⟩⟩, rfl, le_refl _, fun _ _ => rfl⟩

/-- a run in which a 0 is decremented -/
theorem close_borrows {k j u N : Nat} {vec v : List Int} (h0 : 1 ≤ j) (hj : vec.getD (j - 1) 0 = -1) (hN : u < N)
    (e4 : v.getD u 0 = 1) (e5 : ∀ i, j ≤ i → i < u → v.getD i 0 = bitAt k i - 1)
    (e6 : ∀ i, i < j → v.getD i 0 = vec.getD i 0) (h : ∃ i, j ≤ i ∧ i < j + (u - j) ∧ bitAt k i = 0) : Borrows v N := by
  obtain ⟨i, a1, a2, a3⟩ := h
  refine ⟨j - 1, i, u, by omega, by omega, hN, by rw [e6 _ (by omega), hj], by rw [e5 i a1 (by omega), a3]; rfl, e4,
    fun l l1 l2 => ?_⟩
  rw [e5 l (by omega) (by omega)]
  have := bitAt_cases k l
  omega

/-- a run in which only ones are decremented -/
theorem close_calm {k j u : Nat} {vec v : List Int} (e4 : v.getD u 0 = 1)
    (e5 : ∀ i, j ≤ i → i < u → v.getD i 0 = bitAt k i - 1) (e6 : ∀ i, i < j → v.getD i 0 = vec.getD i 0)
    (h : ¬ ∃ i, j ≤ i ∧ i < j + (u - j) ∧ bitAt k i = 0)
    (hc : ∀ a b, a < b → b < j → vec.getD a 0 = -1 → vec.getD b 0 = -1 → ∃ i, a < i ∧ i < b ∧ vec.getD i 0 = 1) :
    ∀ a b, a < b → b < u + 1 → v.getD a 0 = -1 → v.getD b 0 = -1 → ∃ i, a < i ∧ i < b ∧ v.getD i 0 = 1 := by
  intro a b hab hb ha' hb'
  by_cases hbj : b < j
  · rw [e6 _ hbj] at hb'
    rw [e6 _ (by omega)] at ha'
    obtain ⟨i, i1, i2, i3⟩ := hc a b hab hbj ha' hb'
    exact ⟨i, i1, i2, by rw [e6 _ (by omega)]; exact i3⟩
  · exfalso
    by_cases hbu : b = u
    · subst hbu; omega
    · rw [e5 b (by omega) (by omega)] at hb'
      exact h ⟨b, by omega, by omega, by omega⟩

variable {k L : Nat}

/-- one iteration in a debug build -/
theorem step_debug (h32 : L ≤ 32) {s : KtSt} (h : DInv L s) (hx : s.x + 1 < L) (hc : Calm s) :
    (Returns (ktStepG (u32Bit .debug k) (u32BitPred .debug k) s) (step k s) 0 ∧ Calm (step k s)) ∨
    (Fails (ktStepG (u32Bit .debug k) (u32BitPred .debug k) s) (.panic .overflow) ∧ Borrows (step k s).vec (step k s).j) := by
  obtain ⟨hl, hxl, hm⟩ := h
  have hb : Returns (u32Bit .debug k s.x) (bitAt k s.x) 0 := Returns.u32Bit .debug k (by omega)
  unfold step ktStepG
  dsimp only
  have ey : (if bit k s.x = 1 then s.y + 1 else s.y - 1) = if bitAt k s.x = 1 then s.y + 1 else s.y - 1 := rfl
  rw [ey]
  obtain ⟨y, hy⟩ : ∃ y, y = if bitAt k s.x = 1 then s.y + 1 else s.y - 1 := ⟨_, rfl⟩
  rw [← hy]
  rcases hm with ⟨m0, h1, h2, h3⟩ | ⟨m1, h0, h1, h2, h3, h4⟩
  · left
    by_cases c1 : y ≥ s.z + 3
    · obtain ⟨v, e1, e2, e3, e4, e5, e6⟩ := open_run (k := k) (vec := s.vec) hl h1 (by omega)
      have hf := (fill_spec (bit k) (s.w - s.j) s.j s.vec (by omega)).1
      refine ⟨hb.bind0 ?_, ?_⟩
      · rw [← hy, if_pos m0, if_pos m0, if_pos c1, if_pos c1]
        refine (fill_returns (g := bit k) _ _ _ (fun i _ hi => Returns.u32Bit .debug k (by omega)) (by omega)).bind0 ?_
        rw [put_lt (by omega)]
        exact (Returns.setIdx (by omega)).bind0 (Returns.pure _)
      · rw [if_pos m0, if_pos c1, e1, e2]
        intro a b hab hb' ha1 hb1
        dsimp only at *
        by_cases hbj : b < s.j
        · rw [e6 _ hbj] at hb1
          rw [e6 _ (by omega)] at ha1
          obtain ⟨i, i1, i2, i3⟩ := hc a b hab hbj ha1 hb1
          exact ⟨i, i1, i2, by rw [e6 _ (by omega)]; exact i3⟩
        · have hnew : ∀ i, s.j ≤ i → i < s.w → v.getD i 0 ≠ -1 := fun i a1 a2 => by
            rw [e5 i a1 a2]
            have := bitAt_cases k i
            omega
          have hbw : b = s.w := by
            by_contra hc'
            exact hnew b (by omega) (by omega) hb1
          have haj : a < s.j := by
            by_contra hc'
            exact hnew a (by omega) (by omega) ha1
          rcases h3 with h3 | h3
          · omega
          · have : a ≠ s.j - 1 := by
              rintro rfl
              rw [e6 _ (by omega), h3] at ha1
              omega
            exact ⟨s.j - 1, by omega, by omega, by rw [e6 _ (by omega)]; exact h3⟩
    · refine ⟨hb.bind0 ?_, ?_⟩
      · rw [← hy, if_pos m0, if_pos m0, if_neg c1, if_neg c1]
        split_ifs <;> exact Returns.pure _
      · rw [if_pos m0, if_neg c1]
        split_ifs <;> exact hc
  · have m0 : s.m ≠ 0 := by omega
    by_cases c1 : s.v ≥ y + 3
    · obtain ⟨v, e1, e2, e3, e4, e5, e6⟩ := close_run (k := k) (vec := s.vec) hl h1 (by omega)
      have hf := (fill_spec (fun i => bit k i - 1) (s.u - s.j) s.j s.vec (by omega)).1
      by_cases hz : ∃ i, s.j ≤ i ∧ i < s.j + (s.u - s.j) ∧ bitAt k i = 0
      · right
        refine ⟨hb.bind_fails ?_, ?_⟩
        · rw [← hy, if_neg m0, if_pos c1]
          exact Fails.bind (fill_fails _ _ _ (by omega) (by omega) hz)
        · rw [if_neg m0, if_pos c1, e1, e2]
          exact close_borrows h0 h3 (Nat.lt_succ_self _) e4 e5 e6 hz
      · left
        refine ⟨hb.bind0 ?_, ?_⟩
        · rw [← hy, if_neg m0, if_neg m0, if_pos c1, if_pos c1]
          refine (fill_returns (g := fun i => bit k i - 1) _ _ _ (fun i i1 i2 => ?_) (by omega)).bind0 ?_
          · exact (pred_debug k (by omega)).1 ((bitAt_cases k i).resolve_left fun hb0 => hz ⟨i, i1, i2, hb0⟩)
          · rw [put_lt (by omega)]
            exact (Returns.setIdx (by omega)).bind0 (Returns.pure _)
        · rw [if_neg m0, if_pos c1, e1, e2]
          exact close_calm e4 e5 e6 hz hc
    · left
      refine ⟨hb.bind0 ?_, ?_⟩
      · rw [← hy, if_neg m0, if_neg m0, if_neg c1, if_neg c1]
        split_ifs <;> exact Returns.pure _
      · rw [if_neg m0, if_neg c1]
        split_ifs <;> exact hc

theorem Borrows.mono {v v' : List Int} {N N' : Nat} (h : Borrows v N) (hN : N ≤ N') (e : ∀ i, i < N → v'.getD i 0 = v.getD i 0) :
    Borrows v' N' := by
  obtain ⟨a, b, c, h1, h2, h3, h4, h5, h6, h7⟩ := h
  exact ⟨a, b, c, h1, h2, by omega, by rw [e _ (by omega), h4], by rw [e _ (by omega), h5], by rw [e _ h3, h6],
    fun i i1 i2 => by rw [e _ (by omega)]; exact h7 i i1 i2⟩

theorem loop_dinv : ∀ (n : Nat) {s : KtSt}, DInv L s → s.x + n < L →
    DInv L (loop k n s) ∧ (loop k n s).x = s.x + n ∧ (Borrows s.vec s.j → Borrows (loop k n s).vec (loop k n s).j)
  | 0, _, h, _ => ⟨h, rfl, id⟩
  | n + 1, s, h, hx => by
    obtain ⟨h1, h2, h3, h4⟩ := step_dinv (k := k) h (by omega)
    obtain ⟨g1, g2, g3⟩ := loop_dinv n h1 (by omega)
    unfold loop
    exact ⟨g1, by omega, fun hB => g3 (Borrows.mono hB h3 h4)⟩

theorem loop_debug (h32 : L ≤ 32) : ∀ (n : Nat) {s : KtSt}, DInv L s → s.x + n < L → Calm s →
    (Returns (ktLoopG (u32Bit .debug k) (u32BitPred .debug k) n s) (loop k n s) 0 ∧ Calm (loop k n s)) ∨
    (Fails (ktLoopG (u32Bit .debug k) (u32BitPred .debug k) n s) (.panic .overflow) ∧
      Borrows (loop k n s).vec (loop k n s).j)
  | 0, _, _, _, hc => .inl ⟨Returns.pure _, hc⟩
  | n + 1, s, h, hx, hc => by
    obtain ⟨h1, h2, h3, h4⟩ := step_dinv (k := k) h (by omega)
    unfold ktLoopG loop
    rcases step_debug (k := k) h32 h (by omega) hc with ⟨a1, a2⟩ | ⟨a1, a2⟩
    · rcases loop_debug h32 n h1 (by omega) a2 with ⟨b1, b2⟩ | ⟨b1, b2⟩
      · exact .inl ⟨a1.bind0 b1, b2⟩
      · exact .inr ⟨a1.bind_fails b1, b2⟩
    · exact .inr ⟨Fails.bind a1, (loop_dinv n h1 (by omega)).2.2 a2⟩

/-- the last digits in a debug build -/
theorem finish_debug (h32 : L ≤ 32) {s : KtSt} (h : DInv L s) (hx : s.x + 1 = L) :
    ((finish k s).length = L + 1 ∧ ∀ i, i < s.j → (finish k s).getD i 0 = s.vec.getD i 0) ∧
    (Calm s → (Returns (ktFinishG (u32Bit .debug k) (u32BitPred .debug k) s) (finish k s) 0 ∧ ¬ Borrows (finish k s) L) ∨
      (Fails (ktFinishG (u32Bit .debug k) (u32BitPred .debug k) s) (.panic .overflow) ∧ Borrows (finish k s) L)) := by
  obtain ⟨hl, hxl, hm⟩ := h
  unfold finish ktFinishG
  by_cases hA : s.m = 0 ∨ (s.m = 1 ∧ s.v ≤ s.y)
  · have hj : s.j ≤ s.x := by rcases hm with h | h <;> omega
    have hmm : s.m = 0 ∨ s.m = 1 := by omega
    obtain ⟨f1, f2⟩ := fill_spec (fun i => bit k i - s.m) (s.x - s.j) s.j s.vec (by omega)
    have hd : ∀ i, i < L →
        (((fill (fun i => bit k i - s.m) (s.x - s.j) s.j s.vec).set s.x (1 - s.m)).set (s.x + 1) s.m).getD i 0 =
        if i < s.j then s.vec.getD i 0 else if i < s.x then bitAt k i - s.m else 1 - s.m := by
      intro i hi
      rw [getD_set_ne (by omega)]
      by_cases hix : i = s.x
      · subst hix
        rw [getD_set_eq (by omega), if_neg (by omega), if_neg (by omega)]
      · rw [getD_set_ne hix, f2]
        by_cases hij : i < s.j
        · rw [if_neg (by omega), if_pos hij]
        · rw [if_pos (by omega), if_neg hij, if_pos (by omega)]
          rfl
    rw [if_pos hA, if_pos hA]
    dsimp only
    have p1 := put_lt (v := fill (fun i => bit k i - s.m) (s.x - s.j) s.j s.vec) (j := s.x) (by omega) (1 - s.m)
    have p2 := put_lt (v := (fill (fun i => bit k i - s.m) (s.x - s.j) s.j s.vec).set s.x (1 - s.m)) (j := s.x + 1)
      (by rw [List.length_set]; omega) s.m
    rw [show max s.j s.x = s.x by omega, p1, p2]
    refine ⟨⟨by rw [List.length_set, List.length_set]; omega, fun i hi => by rw [hd i (by omega), if_pos hi]⟩, fun hc => .inl ⟨?_, ?_⟩⟩
    · refine (fill_returns (g := fun i => bit k i - s.m) _ _ _ (fun i _ hi =>
        (Returns.u32Bit .debug k (by omega)).bind0 (Returns.pure _)) (by omega)).bind0 ?_
      exact (Returns.setIdx (by omega)).bind0 (Returns.setIdx (by rw [List.length_set]; omega))
    · rintro ⟨a, b, c, h1, h2, h3, h4, h5, h6, h7⟩
      rw [hd _ (by omega)] at h4 h5 h6
      have hbj : b < s.j := by
        by_contra hbj
        rw [if_neg hbj] at h5
        rw [if_neg (by omega)] at h6
        have := bitAt_cases k b
        have := bitAt_cases k c
        split_ifs at h5 h6 <;> omega
      rw [if_pos hbj] at h5
      rw [if_pos (by omega)] at h4
      obtain ⟨i, i1, i2, i3⟩ := hc a b h1 hbj h4 h5
      refine h7 i i1 i2 ?_
      rw [hd i (by omega), if_pos (by omega)]
      exact i3
  · rcases hm with ⟨m0, _⟩ | ⟨m1, h0, h1, h2, h3, h4⟩
    · exact absurd (Or.inl m0) hA
    · have hux : s.u < s.x := by
        rcases h4 with h | h
        · exact h
        · exact absurd (Or.inr ⟨m1, h⟩) hA
      obtain ⟨v, e1, e2, e3, e4, e5, e6⟩ := close_run (k := k) (vec := s.vec) hl h1 (by omega)
      have hf := (fill_spec (fun i => bit k i - 1) (s.u - s.j) s.j s.vec (by omega)).1
      obtain ⟨f1, f2⟩ := fill_spec (bit k) (s.x - (s.u + 1)) (s.u + 1) v (by omega)
      have hd : ∀ i, i < L → (((fill (bit k) (s.x - (s.u + 1)) (s.u + 1) v).set s.x 1).set (s.x + 1) 0).getD i 0 =
          if i < s.u + 1 then v.getD i 0 else if i < s.x then bitAt k i else 1 := by
        intro i hi
        rw [getD_set_ne (by omega)]
        by_cases hix : i = s.x
        · subst hix
          rw [getD_set_eq (by omega), if_neg (by omega), if_neg (by omega)]
        · rw [getD_set_ne hix, f2]
          by_cases hij : i < s.u + 1
          · rw [if_neg (by omega), if_pos hij]
          · rw [if_pos (by omega), if_neg hij, if_pos (by omega)]
            rfl
      rw [if_neg hA, if_neg hA]
      dsimp only
      have p1 := put_lt (v := fill (bit k) (s.x - (s.u + 1)) (s.u + 1) v) (j := s.x) (by omega) 1
      have p2 := put_lt (v := (fill (bit k) (s.x - (s.u + 1)) (s.u + 1) v).set s.x 1) (j := s.x + 1)
        (by rw [List.length_set]; omega) 0
      have p0 := put_lt (v := fill (fun i => bit k i - 1) (s.u - s.j) s.j s.vec) (j := s.u) (by omega) 1
      rw [e1, e2, show max (s.u + 1) s.x = s.x by omega, p1, p2]
      rw [e2, p0] at e1
      refine ⟨⟨by rw [List.length_set, List.length_set]; omega, fun i hi => by
        rw [hd i (by omega), if_pos (by omega), e6 i hi]⟩, fun hc => ?_⟩
      by_cases hz : ∃ i, s.j ≤ i ∧ i < s.j + (s.u - s.j) ∧ bitAt k i = 0
      · right
        refine ⟨Fails.bind (fill_fails _ _ _ (by omega) (by omega) hz), ?_⟩
        exact Borrows.mono (close_borrows h0 h3 (Nat.lt_succ_self _) e4 e5 e6 hz) (by omega) fun i hi => by
          rw [hd i (by omega), if_pos hi]
      · left
        have hv := close_calm e4 e5 e6 hz hc
        refine ⟨?_, ?_⟩
        · refine (fill_returns (g := fun i => bit k i - 1) _ _ _ (fun i i1 i2 =>
            (pred_debug k (by omega)).1 ((bitAt_cases k i).resolve_left fun hb0 => hz ⟨i, i1, i2, hb0⟩)) (by omega)).bind0 ?_
          refine (Returns.setIdx (by omega)).bind0 ?_
          rw [e1]
          refine (fill_returns (g := bit k) _ _ _ (fun i _ hi => Returns.u32Bit .debug k (by omega)) (by omega)).bind0 ?_
          exact (Returns.setIdx (by omega)).bind0 (Returns.setIdx (by rw [List.length_set]; omega))
        · rintro ⟨a, b, c, h1', h2', h3', h4', h5', h6', h7'⟩
          rw [hd _ (by omega)] at h4' h5'
          have hbj : b < s.u + 1 := by
            by_contra hbj
            rw [if_neg hbj] at h5'
            have := bitAt_cases k b
            split_ifs at h5'
            omega
          rw [if_pos hbj] at h5'
          rw [if_pos (by omega)] at h4'
          obtain ⟨i, i1, i2, i3⟩ := hv a b h1' hbj h4' h5'
          refine h7' i i1 i2 ?_
          rw [hd i (by omega), if_pos (by omega)]
          exact i3

/-- Recoding in a debug build. -/
theorem core_debug {lg : Nat → Nat} (h0 : k ≠ 0) (h1 : k ≠ 1) (hl : lg k + 1 = L) (h32 : L ≤ 32) :
    (Borrows (kt lg k) L → Fails (ktCoreG (u32Bit .debug k) (u32BitPred .debug k) L) (.panic .overflow)) ∧
    (¬ Borrows (kt lg k) L → Returns (ktCoreG (u32Bit .debug k) (u32BitPred .debug k) L) (kt lg k) 0) := by
  obtain ⟨s, hs⟩ : ∃ s : KtSt, s = ⟨List.replicate (L + 1) 0, 0, 0, 0, 0, 0, 0, 0, 0⟩ := ⟨_, rfl⟩
  have hd : DInv L s := by
    subst hs
    exact ⟨by simp, by dsimp only; omega, .inl ⟨rfl, le_refl _, le_refl _, .inl rfl⟩⟩
  have hc : Calm s := fun a b _ hb => by subst hs; dsimp only at hb; omega
  have hx : s.x = 0 := by rw [hs]
  obtain ⟨g1, g2, -⟩ := loop_dinv (k := k) (L - 1) hd (by omega)
  obtain ⟨⟨f1, f2⟩, f3⟩ := finish_debug (k := k) h32 g1 (by omega)
  obtain ⟨vec, hv⟩ : ∃ vec, vec = finish k (loop k (L - 1) s) := ⟨_, rfl⟩
  rw [← hv] at f1 f2 f3
  have hk : kt lg k = if vec.getLast? = some 0 then vec.dropLast else vec := by
    unfold kt
    rw [if_neg h0, if_neg h1]
    dsimp only
    rw [hl, ← hs, ← hv]
  have hB : Borrows (kt lg k) L ↔ Borrows vec L := by
    have e : ∀ i, i < L → (kt lg k).getD i 0 = vec.getD i 0 := by
      intro i hi
      rw [hk]
      split_ifs
      · simp only [List.getD_eq_getElem?_getD]
        rw [List.getElem?_dropLast, if_pos (by omega)]
      · rfl
    exact ⟨fun h => Borrows.mono h (le_refl _) fun i hi => (e i hi).symm, fun h => Borrows.mono h (le_refl _) e⟩
  rw [hB]
  unfold ktCoreG
  rw [← hs]
  rcases loop_debug (k := k) h32 (L - 1) hd (by omega) hc with ⟨a1, a2⟩ | ⟨a1, a2⟩
  · rcases f3 a2 with ⟨b1, b2⟩ | ⟨b1, b2⟩
    · refine ⟨fun h => absurd h b2, fun _ => ?_⟩
      rw [hk]
      exact a1.bind0 (b1.bind0 (Returns.pure _))
    · exact ⟨fun _ => a1.bind_fails (Fails.bind b1), fun h => absurd b2 h⟩
  · have hj : (loop k (L - 1) s).j ≤ L := by
      rcases g1.mode with h | h <;> have := g1.x <;> omega
    exact ⟨fun _ => Fails.bind a1, fun h => absurd (Borrows.mono a2 hj f2) h⟩

end KtScript
end Parm
