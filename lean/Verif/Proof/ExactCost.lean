import Verif.Proof.WorstCase

/-!
# The exact number of bootstraps of the schoolbook method

In any scheme, for encrypted operands of any length.
-/

namespace Parm
section
variable {S : Scheme} {pc : Cloud} {n : Nat}

theorem lut_encrypted (hp : pc.msgMod * pc.carryMod = 32) {w : Word S.C} (hw : w.isTriv = false) {lut : List Nat}
    (hl : 16 ≤ lut.length) : CYields (evalLut5Uint S pc w lut) fun z n => z.isTriv = false ∧ n = 1 := by
  obtain ⟨c, m⟩ := w
  cases c with
  | triv p => simp [Word.isTriv] at hw
  | ct c =>
    unfold evalLut5Uint evalLut5Float
    refine CYields.bind (P := fun _ n => n = 1) ⟨(), 1, Returns.bumpPbs, rfl⟩ ?_
    rintro _ _ rfl
    rw [if_neg (by simp [hp]; omega)]
    exact CYields.pure ⟨rfl, rfl⟩

theorem sum_const {n k : Nat} {c : Nat → Nat} (h : ∀ i, i < n → c i = k) : ((List.range n).map c).sum = n * k := by
  have : (List.range n).map c = List.replicate n k := by
    refine List.ext_getElem (by simp) fun i h1 h2 => ?_
    simp only [List.getElem_map, List.getElem_range, List.getElem_replicate]
    exact h i (by simpa using h1)
  rw [this]
  simp

/-- some operand has an encrypted word here -/
def Some' (x y : Ctxt S.C) (i : Nat) : Prop :=
  (∃ h : i < x.length, x[i].isTriv = false) ∨ ∃ h : i < y.length, y[i].isTriv = false

theorem addSub_exact (hp : pc.msgMod * pc.carryMod = 32) {x y : Ctxt S.C} (isAdd refresh : Bool)
    (hx : rzero x ≠ x.length) (hy : rzero y ≠ y.length) {n r : Nat}
    (hn : n = max (x.length - lzero x) (y.length - lzero y)) (hr : r = max (rzero x) (rzero y)) (hrn : r < n)
    (hc : ∀ i, r ≤ i → i < n → Some' x y i) :
    CYields (addSubImpl S isAdd pc x y refresh) fun z k => k = (if refresh then 2 else 1) * (n - r) ∧
      z.length = n + 1 ∧ (∀ i (h : i < z.length), Some' x y i ∨ r ≤ i → z[i].isTriv = false) := by
  unfold addSubImpl
  simp only [hx, hy, if_false]
  rw [← hn, ← hr]
  obtain ⟨w0, hw0⟩ : ∃ w0, w0 = x.take n ++ List.replicate (n - x.length) (encryptWordTriv S.C pc 0) := ⟨_, rfl⟩
  have hl0 : w0.length = n := by rw [hw0]; simp; omega
  have hw0e : ∀ i (hi : i < w0.length) (h : i < x.length), w0[i] = x[i] := by
    intro i hi h
    simp only [hw0]
    rw [List.getElem_append_left (by simp; omega)]
    simp
  obtain ⟨w, hw⟩ : ∃ w, w = if isAdd then zipInplace (Word.add S) w0 y else zipInplace (Word.sub S) w0 y := ⟨_, rfl⟩
  have hlw : w.length = n := by rw [hw]; cases isAdd <;> simp [length_zipInplace, hl0]
  have hwe : ∀ i (hi : i < w.length), Some' x y i → w[i].isTriv = false := by
    intro i hi hs
    have hi0 : i < w0.length := by omega
    have key : ∀ op : Word S.C → Word S.C → Word S.C, (∀ a b, (op a b).isTriv = (a.isTriv && b.isTriv)) →
        ∀ h, ((zipInplace op w0 y)[i]'h).isTriv = false := by
      intro op hop h
      rw [getElem_zipInplace _ _ _ _ _ hi0]
      rcases hs with ⟨h1, h2⟩ | ⟨h1, h2⟩
      · split_ifs
        · rw [hop, hw0e i hi0 h1, h2]; rfl
        · rw [hw0e i hi0 h1, h2]
      · rw [dif_pos h1, hop, h2, Bool.and_false]
    simp only [hw]
    cases isAdd
    · exact key _ (fun a b => isTriv_sub a b) _
    · exact key _ (fun a b => isTriv_add a b) _
  rw [← hw0, ← hw]
  rw [if_neg (by simp [trivCt]; omega)]
  refine CYields.bind (P := fun q k => q.length = n - r ∧ k = n - r ∧ ∀ i (h : i < q.length), q[i].isTriv = false) ?_ ?_
  · refine (CYields.parFor (P := fun _ z k => z.isTriv = false ∧ k = 1) ?_).mono ?_
    · intro i hi
      have hi' : i < n - r := by simpa [trivCt] using hi
      refine CYields.bind (P := fun a k => a.isTriv = false ∧ k = 0) ?_ ?_
      · exact ⟨w[r + i]'(by omega), 0, by
          have := Returns.idx (l := w.drop r) (i := i) (by simp; omega)
          simpa using this, hwe _ _ (hc _ (by omega) (by omega)), rfl⟩
      · rintro a k ⟨ha, rfl⟩
        refine CYields.bind (P := fun b k => b.isTriv = false ∧ k = 0) ?_ ?_
        · split_ifs with h0
          · refine CYields.bind (P := fun _ k => k = 0) ⟨_, 0, Returns.idx (l := w) (i := i + r - 1) (by omega), rfl⟩ ?_
            rintro b k rfl
            exact CYields.pure ⟨by rw [isTriv_add, isTriv_mulConst, ha]; rfl, rfl⟩
          · exact CYields.pure ⟨by rw [isTriv_mulConst, ha], rfl⟩
        · rintro b k ⟨hb, rfl⟩
          simp only [Nat.zero_add]
          exact lut_encrypted hp hb (by decide)
    · rintro q k ⟨c, h1, h2, h3⟩
      have h1' : q.length = n - r := by rw [h1]; simp [trivCt]
      refine ⟨h1', ?_, fun i h => (h2 i h).1⟩
      rw [h3, ← h1, sum_const (k := 1) fun i hi => (h2 i hi).2, h1']
      omega
  · rintro q k ⟨hq1, rfl, hq2⟩
    obtain ⟨q', hq'⟩ : ∃ q', q' = (trivCt S.C pc n).take r ++ q := ⟨_, rfl⟩
    have hlq : q'.length = n := by rw [hq']; simp [trivCt]; omega
    have hqe : ∀ i (h : i < q'.length), r ≤ i → q'[i].isTriv = false := by
      intro i h hi
      simp only [hq']
      rw [List.getElem_append_right (by simp [trivCt]; omega)]
      exact hq2 _ _
    simp only [← hq']
    refine CYields.bind (P := fun v k => v.length = n ∧ k = 0 ∧ ∀ i (h : i < v.length), Some' x y i → v[i].isTriv = false) ?_ ?_
    · refine (CYields.seqFor (P := fun i z k => (Some' x y i → z.isTriv = false) ∧ k = 0) ?_).mono ?_
      · intro i hi
        refine CYields.bind (P := fun _ k => k = 0) ⟨_, 0, Returns.idx (l := q') (i := i) (by omega), rfl⟩ ?_
        rintro a k rfl
        split_ifs with h0
        · refine CYields.bind (P := fun _ k => k = 0) ⟨_, 0, Returns.idx (l := q') (i := i - 1) (by omega), rfl⟩ ?_
          rintro b k rfl
          exact CYields.pure ⟨fun hs => by rw [isTriv_add, isTriv_sub, hwe _ _ hs]; rfl, rfl⟩
        · exact CYields.pure ⟨fun hs => by rw [isTriv_sub, hwe _ _ hs]; rfl, rfl⟩
      · rintro v k ⟨c, h1, h2, h3⟩
        refine ⟨h1.trans hlw, ?_, fun i h => (h2 i h).1⟩
        rw [h3, ← h1, sum_const (k := 0) fun i hi => (h2 i hi).2, Nat.mul_zero]
    · rintro v k ⟨hv1, rfl, hv2⟩
      refine CYields.bind (P := fun z k => z.length = n - r ∧ k = (if refresh then n - r else 0) ∧
        ∀ i (h : i < z.length), z[i].isTriv = false) ?_ ?_
      · cases refresh
        · refine CYields.pure ⟨by simp [hv1], rfl, fun i h => ?_⟩
          rw [List.getElem_drop]
          have h' : i < n - r := by simpa [hv1] using h
          exact hv2 _ _ (hc _ (by omega) (by omega))
        · refine (CYields.parFor (P := fun _ z k => z.isTriv = false ∧ k = 1) ?_).mono ?_
          · intro i hi
            have hi' : i < n - r := by simpa [trivCt] using hi
            refine CYields.bind (P := fun a k => a.isTriv = false ∧ k = 0) ?_ ?_
            · exact ⟨v[r + i]'(by omega), 0, by
                have := Returns.idx (l := v.drop r) (i := i) (by simp; omega)
                simpa using this, hv2 _ _ (hc _ (by omega) (by omega)), rfl⟩
            · rintro a k ⟨ha, rfl⟩
              simp only [Nat.zero_add]
              exact lut_encrypted hp ha (by decide)
          · rintro q k ⟨c, h1, h2, h3⟩
            have h1' : q.length = n - r := by rw [h1]; simp [trivCt]
            refine ⟨h1', ?_, fun i h => (h2 i h).1⟩
            rw [h3, ← h1, sum_const (k := 1) fun i hi => (h2 i hi).2, h1']
            simp
      · rintro z k ⟨hz1, rfl, hz2⟩
        have hlast : q'.getLast? = some (q'[n - 1]'(by omega)) := by
          rw [List.getLast?_eq_getElem?, List.getElem?_eq_getElem (by omega)]; simp only [hlq]
        rw [hlast]
        refine CYields.pure ⟨?_, ?_, ?_⟩
        · cases refresh <;> (simp; try omega)
        · simp [hv1, hz1]; omega
        · intro i h hi
          have hl : (v.take r).length = r := by simp [hv1]; omega
          rcases Nat.lt_or_ge i r with h1 | h1
          · have hs : Some' x y i := hi.resolve_right (by omega)
            rw [List.getElem_append_left (by simp [hv1, hz1]; omega), List.getElem_append_left (by omega),
              List.getElem_take]
            exact hv2 _ _ hs
          · rcases Nat.lt_or_ge i n with h2 | h2
            · rw [List.getElem_append_left (by simp [hv1, hz1]; omega), List.getElem_append_right (by omega)]
              exact hz2 _ _
            · have : i = n := by simp [hv1, hz1] at h; omega
              rw [List.getElem_append_right (by simp [hv1, hz1]; omega)]
              simp only [List.getElem_singleton]
              exact hqe _ _ (by omega)

/-- encrypted words from `a` to `b`, trivial zeros elsewhere -/
structure Block (x : Ctxt S.C) (a b : Nat) : Prop where
  lt : a < b
  le : b ≤ x.length
  enc : ∀ i (h : i < x.length), a ≤ i → i < b → x[i].isTriv = false
  zero : ∀ i (h : i < x.length), i < a ∨ b ≤ i → x[i].isTrivZero = true

theorem notZero_of_enc {C : Type} {w : Word C} (h : w.isTriv = false) : w.isTrivZero = false := by
  obtain ⟨c, m⟩ := w
  cases c <;> simp_all [Word.isTriv, Word.isTrivZero]

theorem Block.rzero {x : Ctxt S.C} {a b : Nat} (h : Block x a b) : rzero x = a := by
  have h1 := h.lt
  have h2 := h.le
  rcases Nat.lt_trichotomy (Parm.rzero x) a with hl | hl | hl
  · have g := rzero_at x (by omega)
    rw [h.zero _ _ (Or.inl hl)] at g
    cases g
  · exact hl
  · have g := rzero_low x hl (by omega)
    rw [notZero_of_enc (h.enc a (by omega) (by omega) (by omega))] at g
    cases g

theorem Block.stripped {x : Ctxt S.C} {a b : Nat} (h : Block x a b) : x.length - lzero x = b := by
  have h1 := h.lt
  have h2 := h.le
  have h3 := lzero_le x
  rcases Nat.lt_trichotomy (x.length - lzero x) b with hl | hl | hl
  · have g := lzero_high x (i := b - 1) (by omega) (by omega)
    rw [notZero_of_enc (h.enc (b - 1) (by omega) (by omega) (by omega))] at g
    cases g
  · exact hl
  · have g := lzero_at x (by omega)
    rw [h.zero _ _ (Or.inr (by omega))] at g
    cases g

theorem Block.full {x : Ctxt S.C} (h0 : 0 < x.length) (h : ∀ i (h : i < x.length), x[i].isTriv = false) : Block x 0 x.length :=
  ⟨h0, le_rfl, fun i hi _ _ => h i hi, fun i hi h => by omega⟩

theorem Block.add {x y : Ctxt S.C} {a b : Nat} (hp : pc.msgMod * pc.carryMod = 32) (hx : Block x 0 a) (hy : Block y b (b + n))
    (h1 : b ≤ a) (h2 : a ≤ b + n) :
    CYields (ctAdd S pc x y) fun z k => k = 2 * n ∧ z.length = b + n + 1 ∧ Block z 0 (b + n + 1) := by
  have lx := hx.lt; have ly := hy.lt; have lx' := hx.le; have ly' := hy.le
  refine ((addSub_exact hp true true (by rw [hx.rzero]; omega) (by rw [hy.rzero]; omega)
    (n := b + n) (r := b) (by rw [hx.stripped, hy.stripped]; omega) (by rw [hx.rzero, hy.rzero]; omega) (by omega) ?_).mono ?_).call
  · intro i hi1 hi2
    exact Or.inr ⟨by omega, hy.enc i (by omega) hi1 hi2⟩
  · rintro z k ⟨g1, g2, g3⟩
    refine ⟨?_, g2, ?_⟩
    · rw [g1]; simp
    · rw [← g2]
      refine Block.full (by omega) fun i hi => g3 i hi ?_
      rcases Nat.lt_or_ge i b with h | h
      · exact Or.inl (Or.inl ⟨by omega, hx.enc i (by omega) (by omega) (by omega)⟩)
      · exact Or.inr h

theorem fillMulary_exact (hp : pc.msgMod * pc.carryMod = 32) {x y : Ctxt S.C} (hl : x.length = y.length)
    (h0 : 0 < x.length)
    (hx : ∀ i (h : i < x.length), x[i].isTriv = false) (hy : ∀ i (h : i < y.length), y[i].isTriv = false) :
    CYields (fillMulary S pc x y) fun rows k => k = x.length * x.length ∧ rows.length = x.length ∧
      ∀ j (h : j < rows.length), Block rows[j] j (j + x.length) := by
  unfold fillMulary
  rw [if_neg (by simp [hl])]
  obtain ⟨n, hn⟩ : ∃ n, n = x.length := ⟨_, rfl⟩
  simp only [← hn]
  refine (CYields.parFor (P := fun j row k => k = n ∧ Block row j (j + n)) ?_).mono ?_
  · intro j hj
    have hj' : j < n := by simpa using hj
    refine CYields.bind (P := fun yj k => yj.isTriv = false ∧ k = 0) ⟨_, 0, Returns.idx (l := y) (i := j) (by omega), hy _ _, rfl⟩ ?_
    rintro yj _ ⟨hyj, rfl⟩
    refine CYields.bind (P := fun mid k => mid.length = n ∧ k = n ∧ ∀ i (h : i < mid.length), mid[i].isTriv = false) ?_ ?_
    · refine (CYields.parFor (P := fun _ z k => z.isTriv = false ∧ k = 1) ?_).mono ?_
      · intro i hi
        have hi' : i < n := by simp [trivCt] at hi; omega
        refine CYields.bind (P := fun xi k => xi.isTriv = false ∧ k = 0) ⟨_, 0, Returns.idx (l := x) (i := i) (by omega), hx _ _, rfl⟩ ?_
        rintro xi _ ⟨hxi, rfl⟩
        simp only [Nat.zero_add]
        refine CYields.expect ?_
        unfold mulLwe
        rw [if_neg (by simp [hxi]), if_neg (by simp [hyj])]
        exact lut_encrypted hp (by rw [isTriv_add, hyj, Bool.and_false]) (by decide)
      · rintro q k ⟨c, h1, h2, h3⟩
        have h1' : q.length = n := by rw [h1]; simp [trivCt]; omega
        refine ⟨h1', ?_, fun i h => (h2 i h).1⟩
        rw [h3, ← h1, sum_const (k := 1) fun i hi => (h2 i hi).2, h1', Nat.mul_one]
    · rintro mid k ⟨hm1, hk, hm2⟩
      refine CYields.pure ⟨by simp [hk], by omega, ?_, ?_, ?_⟩
      · simp [trivCt, hm1]; omega
      · intro i h h1 h2
        have hl1 : ((List.replicate n (trivCt S.C pc (2 * n)))[j].take j).length = j := by simp [trivCt]; omega
        rw [List.getElem_append_left (by simp only [List.length_append, hl1, hm1]; omega), List.getElem_append_right (by omega)]
        exact hm2 _ _
      · intro i h h1
        have hl1 : ((List.replicate n (trivCt S.C pc (2 * n)))[j].take j).length = j := by simp [trivCt]; omega
        have hz : (encryptWordTriv S.C pc 0).isTrivZero = true := trivZero_zero
        rcases h1 with h1 | h1
        · rw [List.getElem_append_left (by simp only [List.length_append, hl1, hm1]; omega), List.getElem_append_left (by omega)]
          simpa [trivCt] using hz
        · rw [List.getElem_append_right (by simp only [List.length_append, hl1, hm1]; omega)]
          simpa [trivCt] using hz
  · rintro rows k ⟨c, h1, h2, h3⟩
    have h1' : rows.length = n := by rw [h1]; simp
    refine ⟨?_, h1', fun j h => (h2 j h).2⟩
    rw [h3, ← h1, sum_const (k := n) fun i hi => (h2 i hi).1, h1']

theorem reduceLoop_exact (hp : pc.msgMod * pc.carryMod = 32) {n : Nat} : ∀ {rows : List (Ctxt S.C)} {cur other : Ctxt S.C} {b : Nat},
    (∀ j (h : j < rows.length), Block rows[j] (b + j) (b + j + n)) → Block cur 0 (b + n) → cur.length = b + n → 0 < n →
    CYields (reduceLoop S pc rows cur other) fun z k => k = rows.length * (2 * n) ∧ z.length = b + rows.length + n ∧
      Block z 0 (b + rows.length + n)
  | [], cur, other, b, _, hc, hl, _ => CYields.pure ⟨by simp, hl, hc⟩
  | row :: rows, cur, other, b, h, hc, hl, hn => by
    unfold reduceLoop
    refine CYields.bind (Block.add hp hc (h 0 (by simp)) (by omega) (by omega)) ?_
    rintro z k ⟨rfl, g2, g3⟩
    refine (reduceLoop_exact hp (rows := rows) (b := b + 1) (n := n) ?_ (by convert g3 using 1; omega) (by omega) hn).mono ?_
    · intro j hj
      have := h (j + 1) (by simpa using hj)
      simp only [List.getElem_cons_succ] at this
      convert this using 1 <;> omega
    · rintro z k ⟨rfl, e2, e3⟩
      refine ⟨by rw [List.length_cons]; ring, by rw [List.length_cons]; omega, ?_⟩
      rw [List.length_cons]
      convert e3 using 1; omega

/-- the schoolbook method takes `3n² - 2n` bootstraps and yields `2n` words, all encrypted -/
theorem mulSchoolbook_exact (hp : pc.msgMod * pc.carryMod = 32) {x y : Ctxt S.C} (hl : x.length = y.length)
    (h2 : 2 ≤ x.length)
    (hx : ∀ i (h : i < x.length), x[i].isTriv = false) (hy : ∀ i (h : i < y.length), y[i].isTriv = false) :
    CYields (mulSchoolbook S pc x y) fun z k => k = 3 * x.length ^ 2 - 2 * x.length ∧ z.length = 2 * x.length ∧
      Block z 0 (2 * x.length) := by
  obtain ⟨n, hn⟩ : ∃ n, n = x.length := ⟨_, rfl⟩
  unfold mulSchoolbook
  refine CYields.bind (fillMulary_exact hp hl (by omega) hx hy) ?_
  rw [← hn]
  rintro rows k ⟨rfl, g2, g3⟩
  unfold reduceMulsquary
  refine CYields.bind (P := fun a k => Block a 0 (0 + n) ∧ k = 0) ⟨_, 0, Returns.idx (l := rows) (i := 0) (by omega), g3 _ _, rfl⟩ ?_
  rintro a _ ⟨ha, rfl⟩
  refine CYields.bind (P := fun a k => Block a 1 (1 + n) ∧ k = 0) ⟨_, 0, Returns.idx (l := rows) (i := 1) (by omega), g3 _ _, rfl⟩ ?_
  rintro b _ ⟨hb, rfl⟩
  refine CYields.bind (Block.add hp ha hb (by omega) (by omega)) ?_
  rintro z k ⟨rfl, e2, e3⟩
  refine (reduceLoop_exact hp (rows := rows.drop 2) (b := 2) (n := n) ?_ (by convert e3 using 1; omega) (by omega) (by omega)).mono ?_
  · intro j hj
    have hj' : j + 2 < rows.length := by simp at hj; omega
    have := g3 (2 + j) (by omega)
    rw [List.getElem_drop]
    exact this
  · rintro z k ⟨rfl, f2, f3⟩
    have hr : 2 + (rows.drop 2).length = n := by simp; omega
    rw [hr] at f2 f3
    refine ⟨?_, by omega, by convert f3 using 1; omega⟩
    obtain ⟨m, rfl⟩ : ∃ m, n = m + 2 := ⟨n - 2, by omega⟩
    have : (rows.drop 2).length = m := by omega
    rw [this]
    ring_nf
    omega

end
end Parm
