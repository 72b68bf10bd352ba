import Verif.Proof.Signum
import Verif.Model.Multiplication

/-!
# Multiplication and squaring
-/

namespace Parm
section
variable {S : Scheme} {ck : ClientKey S} {pc : Cloud} {B D : Nat}

/-! ### Addition with a bound on the significant length -/

/-- words from position `n` on are trivial zeros -/
def Eff {C : Type} (x : Ctxt C) (n : Nat) : Prop :=
  ∀ i (h : i < x.length), n ≤ i → x[i].isTrivZero = true

theorem Eff.length {C : Type} (x : Ctxt C) : Eff x x.length := fun i h h' => by omega

theorem Eff.mono {C : Type} {x : Ctxt C} {n n' : Nat} (h : Eff x n) (hn : n ≤ n') : Eff x n' :=
  fun i hi hi' => h i hi (hn.trans hi')

theorem Eff.strip {C : Type} {x : Ctxt C} {n : Nat} (h : Eff x n) (hr : rzero x < x.length) :
    x.length - lzero x ≤ n := by
  by_contra hc
  have hl := lzero_lt_of_rzero x hr
  have h1 := lzero_at x hl
  rw [h _ (by omega) (by omega)] at h1
  cases h1

theorem ctAdd_eff (st : Setting S ck pc B D) {x y : Ctxt S.C} {vx vy : Int}
    (hx : Valid ck B x vx) (hy : Valid ck B y vy) {a b : Nat} (ha : Eff x a) (hb : Eff y b) :
    Yields (ctAdd S pc x y) (fun z => Valid ck B z (vx + vy) ∧
      z.length ≤ max (max x.length y.length) (max a b + 1) ∧ Eff z (max a b + 1)) := by
  unfold ctAdd
  apply Yields.call
  by_cases h1 : rzero x = x.length
  · have hv := hx.zero_of_trivZero h1
    refine (addSub_left_zero (isAdd := true) h1).yields ⟨hy.congr (by omega), ?_, hb.mono (by omega)⟩
    simp only [if_true]; omega
  · have h1' : rzero x < x.length := by have := rzero_le x; omega
    by_cases h2 : rzero y = y.length
    · have hv := hy.zero_of_trivZero h2
      exact (addSub_right_zero (isAdd := true) h1 h2).yields
        ⟨hx.congr (by omega), by omega, ha.mono (by omega)⟩
    · have h2' : rzero y < y.length := by have := rzero_le y; omega
      refine (addSub_main st true true hx hy h1' h2').yields.mono ?_
      rintro z ⟨n, hv, hl, _⟩
      have e1 := ha.strip h1'
      have e2 := hb.strip h2'
      have hlen : z.length ≤ max a b + 1 := by omega
      exact ⟨hv, by omega, (Eff.length z).mono hlen⟩

/-! ### One-word products -/

theorem tableMulBit {x y : Int} (hx : IsDigit x) (hy : IsDigit y) :
    tableAt (lutMulBit.map fun (v : Nat) => (v : Int)) (3 * x + y) % 32 = (x * y) % 32 := by
  rcases hx with h | h | h <;> rcases hy with h' | h' | h' <;> subst h <;> subst h' <;> decide

theorem IsDigit.mul {x y : Int} (hx : IsDigit x) (hy : IsDigit y) : IsDigit (x * y) := by
  rcases hx with h | h | h <;> rcases hy with h' | h' | h' <;> subst h <;> subst h' <;> simp [IsDigit]

theorem IsDigit.abs_le {x : Int} (hx : IsDigit x) : x.natAbs ≤ 1 := by
  rcases hx with h | h | h <;> subst h <;> simp

/-- a trivial word decrypts without a key -/
theorem decryptMi_triv {w : Word S.C} {m : Int} {k : Nat} (h : WordEnc ck B w m k) (ht : w.isTriv = true)
    (key : Option (ClientKey S)) : Returns (decryptMi key w) ((m + 16) % 32 - 16) 0 := by
  have h0 := decryptMi_spec (h.of_isTriv ht 0) (by simp)
  obtain ⟨wc, wm⟩ := w
  cases wc with
  | ct c => cases ht
  | triv p => exact h0

theorem mulLwe_spec (st : Setting S ck pc B D) {x y : Word S.C} {a b : Int} (ha : IsDigit a)
    (hb : IsDigit b) (hx : WordEnc ck B x a 1) (hy : WordEnc ck B y b 1) :
    Yields (mulLwe S pc x y) (fun r => WordEnc ck B r (a * b) 1) := by
  unfold mulLwe
  have bnd : ∀ d : Int, IsDigit d → d.natAbs < 2 ^ 31 := fun d h =>
    lt_of_le_of_lt h.abs_le (by norm_num)
  by_cases htx : x.isTriv = true
  · rw [if_pos htx]
    refine Yields.bind ((decryptMi_triv hx htx none).yields rfl) ?_
    rintro _ rfl
    rw [ha.rep]
    refine Yields.pure ?_
    exact (hy.mulConst st a (bnd a ha)).mono (by have := ha.abs_le; omega)
  · rw [if_neg htx]
    by_cases hty : y.isTriv = true
    · rw [if_pos hty]
      refine Yields.bind ((decryptMi_triv hy hty none).yields rfl) ?_
      rintro _ rfl
      rw [hb.rep, mul_comm]
      refine Yields.pure ?_
      exact (hx.mulConst st b (bnd b hb)).mono (by have := hb.abs_le; omega)
    · rw [if_neg hty]
      refine (evalLut5Uint_spec st (lut := lutMulBit) (by decide) (by decide)
        (st.wt8 (k := 4) (by norm_num)) ((hx.mulConst st 3 (by norm_num)).add st hy)).yields.mono ?_
      rintro r ⟨n, h, _⟩
      exact h.congr (tableMulBit ha hb)

/-! ### Schoolbook multiplication -/

/-- row `j` of the multiplication array -/
theorem fillRow (st : Setting S ck pc B D) {x y : Ctxt S.C} {dy : Nat → Int} {vx : Int}
    (hx : Valid ck B x vx) (hy : Holds ck B 1 y dy) (j : Nat) (hj : j < y.length)
    (hjx : j < x.length) :
    Yields (do
      let yj ← idx y j
      let mid ← parFor (((trivCt S.C pc (2 * x.length)).drop j).take x.length) (fun i _ => do
        let xi ← idx x i
        (mulLwe S pc xi yj).expect)
      pure ((trivCt S.C pc (2 * x.length)).take j ++ mid ++ (trivCt S.C pc (2 * x.length)).drop (j + x.length)))
      (fun r => Valid ck B r (2 ^ j * dy j * vx) ∧ r.length = 2 * x.length ∧ Eff r (x.length + j)) := by
  obtain ⟨dx, hdx, rfl⟩ := hx
  refine Yields.bind ((Returns.idx hj).yields rfl) ?_
  rintro _ rfl
  have hlen : (((trivCt S.C pc (2 * x.length)).drop j).take x.length).length = x.length := by
    simp [length_trivCt]; omega
  refine Yields.bind (Yields.parFor (P := fun i a => WordEnc ck B a (dx i * dy j) 1) ?_) ?_
  · intro i hi
    rw [hlen] at hi
    refine Yields.bind ((Returns.idx hi).yields rfl) ?_
    rintro _ rfl
    exact (mulLwe_spec st (hdx i hi).2 (hy j hj).2 (hdx i hi).1 (hy j hj).1).expect
  · rintro mid ⟨hml, hm⟩
    rw [hlen] at hml
    have htake : (trivCt S.C pc (2 * x.length)).take j = trivCt S.C pc j := by
      simp [trivCt, List.take_replicate]; omega
    have hdrop : (trivCt S.C pc (2 * x.length)).drop (j + x.length) = trivCt S.C pc (x.length - j) := by
      simp only [trivCt, List.drop_replicate]; congr 1; omega
    rw [htake, hdrop]
    have hmid : Valid ck B mid (valueN (fun i => dx i * dy j) x.length) := by
      refine ⟨fun i => dx i * dy j, fun i hi => ⟨hm i hi, ?_⟩, by rw [hml]⟩
      exact (hdx i (by omega)).2.mul (hy j hj).2
    have hsum : valueN (fun i => dx i * dy j) x.length = dy j * valueN dx x.length := by
      induction x.length with
      | zero => simp [valueN]
      | succ n ih => simp only [valueN]; rw [ih]; ring
    have hv := ((Valid.trivCt st j).append hmid).append (Valid.trivCt st (x.length - j))
    refine Yields.pure ⟨hv.congr ?_, ?_, ?_⟩
    · rw [hsum, length_trivCt]; ring
    · simp [length_trivCt, hml]; omega
    · intro i hi hi'
      have hl : (trivCt S.C pc j ++ mid).length ≤ i := by simp [length_trivCt, hml]; omega
      rw [List.getElem_append_right hl]
      simp only [trivCt, List.getElem_replicate, encryptWordTriv, Word.isTrivZero]
      rw [st.msgMod]; decide

theorem fillMulary_spec (st : Setting S ck pc B D) {x y : Ctxt S.C} {dy : Nat → Int} {vx : Int}
    (hx : Valid ck B x vx) (hy : Holds ck B 1 y dy) (hl : x.length = y.length) :
    Yields (fillMulary S pc x y) (fun rows => rows.length = x.length ∧
      ∀ j (hj : j < rows.length), Valid ck B rows[j] (2 ^ j * dy j * vx) ∧
        rows[j].length = 2 * x.length ∧ Eff rows[j] (x.length + j)) := by
  unfold fillMulary
  rw [if_neg (by omega)]
  refine (Yields.parFor (P := fun j r => Valid ck B r (2 ^ j * dy j * vx) ∧
    r.length = 2 * x.length ∧ Eff r (x.length + j)) ?_).mono ?_
  · intro j hj
    rw [List.length_replicate] at hj
    rw [List.getElem_replicate]
    exact fillRow st hx hy j (by omega) hj
  · rintro rows ⟨h1, h2⟩
    rw [List.length_replicate] at h1
    exact ⟨h1, h2⟩

theorem reduceLoop_spec (st : Setting S ck pc B D) {n : Nat} (e : Nat → Int) :
    ∀ (rows : List (Ctxt S.C)) (j : Nat) (cur other : Ctxt S.C),
    (∀ i (hi : i < rows.length), Valid ck B rows[i] (e (j + i)) ∧ rows[i].length = 2 * n ∧
      Eff rows[i] (n + (j + i))) → j + rows.length = n → ∀ {v : Int},
    Valid ck B cur v → cur.length ≤ 2 * n → Eff cur (n + j) → 1 ≤ j →
    Yields (reduceLoop S pc rows cur other) (fun z =>
      Valid ck B z (v + ((List.range rows.length).map fun i => e (j + i)).sum) ∧ z.length ≤ 2 * n)
  | [], j, cur, other, _, _, v, hv, hl, _, _ => by
    unfold reduceLoop
    exact Yields.pure ⟨by simpa using hv, hl⟩
  | row :: rows, j, cur, other, hrows, hjn, v, hv, hl, heff, hj => by
    unfold reduceLoop
    obtain ⟨h1, h2, h3⟩ := hrows 0 (by simp)
    simp only [List.getElem_cons_zero, Nat.add_zero] at h1 h2 h3
    rw [List.length_cons] at hjn
    refine Yields.bind (ctAdd_eff st hv h1 heff h3) ?_
    rintro z ⟨hz, hzl, hze⟩
    have hz2 : z.length ≤ 2 * n := by rw [Nat.max_self] at hzl; omega
    refine (reduceLoop_spec st (n := n) e rows (j + 1) z cur ?_ (by omega) hz hz2
      (hze.mono (by rw [Nat.max_self]; omega)) (by omega)).mono ?_
    · intro i hi
      have := hrows (i + 1) (by simpa using hi)
      simp only [List.getElem_cons_succ] at this
      rwa [show j + (i + 1) = j + 1 + i by omega] at this
    · rintro w ⟨hw, hwl⟩
      refine ⟨hw.congr ?_, hwl⟩
      rw [List.length_cons, List.range_succ_eq_map]
      simp only [List.map_cons, List.map_map, List.sum_cons, Nat.add_zero]
      rw [Int.add_assoc]
      congr 3
      apply List.map_congr_left
      intro i _
      simp only [Function.comp]
      congr 1; omega

theorem sum_eq_valueN (e : Nat → Int) (v : Int) : ∀ n : Nat,
    ((List.range n).map fun j => 2 ^ j * e j * v).sum = v * valueN e n
  | 0 => by simp [valueN]
  | n + 1 => by
    rw [List.range_succ, List.map_append, List.sum_append, sum_eq_valueN e v n]
    simp [valueN]; ring

theorem mulSchoolbook_spec (st : Setting S ck pc B D) {x y : Ctxt S.C} {vx vy : Int}
    (hx : Valid ck B x vx) (hy : Valid ck B y vy) (hl : x.length = y.length) (h2 : 2 ≤ x.length) :
    Yields (mulSchoolbook S pc x y) (fun z => Valid ck B z (vx * vy) ∧ z.length ≤ 2 * x.length) := by
  obtain ⟨dy, hdy, rfl⟩ := hy
  unfold mulSchoolbook
  refine Yields.bind (fillMulary_spec st hx hdy hl) ?_
  rintro rows ⟨hr, hrows⟩
  unfold reduceMulsquary
  refine Yields.bind ((Returns.idx (show 0 < rows.length by omega)).yields rfl) ?_
  rintro _ rfl
  refine Yields.bind ((Returns.idx (show 1 < rows.length by omega)).yields rfl) ?_
  rintro _ rfl
  obtain ⟨a1, a2, a3⟩ := hrows 0 (by omega)
  obtain ⟨b1, b2, b3⟩ := hrows 1 (by omega)
  refine Yields.bind (ctAdd_eff st a1 b1 a3 b3) ?_
  rintro s ⟨hs, hsl, hse⟩
  refine (reduceLoop_spec st (n := x.length) (fun j => 2 ^ j * dy j * vx) (rows.drop 2) 2 s _ ?_ ?_ hs
    (by omega) (hse.mono (by omega)) (by norm_num)).mono ?_
  · intro i hi
    rw [List.getElem_drop]
    have := hrows (2 + i) (by simp at hi; omega)
    exact this
  · simp; omega
  · rintro z ⟨hz, hzl⟩
    refine ⟨hz.congr ?_, hzl⟩
    rw [← hl, ← sum_eq_valueN]
    obtain ⟨n, hn⟩ : ∃ n, x.length = n + 2 := ⟨x.length - 2, by omega⟩
    have hd : (rows.drop 2).length = n := by simp; omega
    rw [hd, hn, List.range_succ_eq_map, List.map_cons, List.sum_cons, List.map_map,
      List.range_succ_eq_map, List.map_cons, List.sum_cons, List.map_map, Int.add_assoc]
    congr 3
    apply List.map_congr_left
    intro i _
    simp only [Function.comp]
    rw [Nat.add_comm 2 i]

theorem mul1word_spec (st : Setting S ck pc B D) {x y : Ctxt S.C} {vx vy : Int}
    (hx : Valid ck B x vx) (hy : Valid ck B y vy) (hl : x.length = y.length) (h1 : x.length = 1) :
    Yields (mul1word S pc x y) (fun z => Valid ck B z (vx * vy) ∧ z.length ≤ 2) := by
  obtain ⟨dy, hdy, rfl⟩ := hy
  unfold mul1word
  refine Yields.bind (fillMulary_spec st hx hdy hl) ?_
  rintro rows ⟨hr, hrows⟩
  have h0 : 0 < rows.length := by omega
  obtain ⟨a1, a2, a3⟩ := hrows 0 h0
  refine (Returns.idx h0).yields ⟨a1.congr ?_, by omega⟩
  rw [← hl, h1]
  simp [valueN]; ring

/-! ### Karatsuba -/

theorem Valid.mapOpp (st : Setting S ck pc B D) {x : Ctxt S.C} {v : Int} (hx : Valid ck B x v) :
    Valid ck B (x.map (Word.opp S)) (-v) := hx.oppositeImpl st

theorem mulKaratsuba_spec (st : Setting S ck pc B D)
    {mulRec : Ctxt S.C → Ctxt S.C → M (Ctxt S.C)} {x y : Ctxt S.C} {vx vy : Int} {l : Nat}
    (hrec : ∀ {a b : Ctxt S.C} {va vb : Int}, Valid ck B a va → Valid ck B b vb →
      ∀ n, max a.length b.length ≤ n → n < l →
      Yields (mulRec a b) (fun z => Valid ck B z (va * vb) ∧ z.length ≤ mulLen n))
    (hx : Valid ck B x vx) (hy : Valid ck B y vy) (hlx : x.length = l) (hly : y.length = l)
    (h16 : 16 ≤ l) (h17 : l ≠ 17) (h32 : l ≤ 32) :
    Yields (mulKaratsuba S pc mulRec x y) (fun z => Valid ck B z (vx * vy) ∧ z.length ≤ mulLen l) := by
  unfold mulKaratsuba
  rw [if_neg (by omega), hlx]
  obtain ⟨n0, hn0⟩ : ∃ n0, n0 = (l + 1) / 2 := ⟨_, rfl⟩
  rw [← hn0]
  obtain ⟨x0, x1, hx0, hx1, rfl⟩ := hx.splitAt (k := n0) (by omega)
  obtain ⟨y0, y1, hy0, hy1, rfl⟩ := hy.splitAt (k := n0) (by omega)
  have lx0 : (x.take n0).length = n0 := by simp; omega
  have ly0 : (y.take n0).length = n0 := by simp; omega
  have lx1 : (x.drop n0).length = l - n0 := by simp [hlx]
  have ly1 : (y.drop n0).length = l - n0 := by simp [hly]
  refine Yields.bind (Yields.par2
    (P := fun r => Valid ck B r.1 (x1 * y1) ∧ r.1.length ≤ mulLen (l - n0) ∧
      Valid ck B r.2.1 (x0 * y0) ∧ r.2.1.length ≤ mulLen n0 ∧
      Valid ck B r.2.2 (2 ^ n0 * -(x1 * y1 + x0 * y0)) ∧
      r.2.2.length ≤ n0 + (max (mulLen (l - n0)) (mulLen n0) + 1))
    (Q := fun c => Valid ck B c (2 ^ n0 * ((x0 + x1) * (y0 + y1))) ∧
      c.length ≤ n0 + mulLen (n0 + 1)) ?_ ?_) ?_
  · refine Yields.bind (Yields.par2 (hrec hx1 hy1 (l - n0) (by omega) (by omega))
      (hrec hx0 hy0 n0 (by omega) (by omega))) ?_
    rintro ⟨a, b⟩ ⟨⟨ha, hal⟩, hb, hbl⟩
    simp only at ha hal hb hbl
    refine Yields.bind (ctAdd_valid st ha hb) ?_
    rintro p ⟨hp, hpl⟩
    refine Yields.pure ⟨ha, hal, hb, hbl, ?_, ?_⟩
    · have := (Valid.trivCt st n0).append (hp.mapOpp st)
      rw [length_trivCt] at this
      exact this.congr (by ring)
    · simp only [List.length_append, length_trivCt, List.length_map]; omega
  · refine Yields.bind (Yields.par2 (ctAdd_valid st hx0 hx1) (ctAdd_valid st hy0 hy1)) ?_
    rintro ⟨p, q⟩ ⟨⟨hp, hpl⟩, hq, hql⟩
    simp only at hp hpl hq hql
    refine Yields.bind (hrec hp hq (n0 + 1) (by omega) (by omega)) ?_
    rintro c ⟨hc, hcl⟩
    refine Yields.pure ⟨?_, ?_⟩
    · have := (Valid.trivCt st n0).append hc
      rw [length_trivCt] at this
      exact this.congr (by ring)
    · simp only [List.length_append, length_trivCt]; omega
  · rintro ⟨⟨a, b, nn⟩, c⟩ ⟨⟨ha, hal, hb, hbl, hn, hnl⟩, hc, hcl⟩
    simp only at ha hal hb hbl hn hnl hc hcl
    refine Yields.bind (ctAdd_valid st hc hn) ?_
    rintro cn ⟨hcn, hcnl⟩
    have bound : ∀ r : Nat, r ≤ max (2 * n0 + mulLen (l - n0)) (max (mulLen n0)
        (max (n0 + mulLen (n0 + 1)) (n0 + (max (mulLen (l - n0)) (mulLen n0) + 1)) + 1) + 1) + 1 →
        r ≤ mulLen l := by
      intro r hr
      refine hr.trans ?_
      rw [hn0]
      clear * - h16 h17 h32
      interval_cases l <;> first | omega | decide
    have hval : x0 * y0 + 2 ^ (2 * n0) * (x1 * y1) +
        (2 ^ n0 * ((x0 + x1) * (y0 + y1)) + 2 ^ n0 * -(x1 * y1 + x0 * y0))
        = (x0 + 2 ^ n0 * x1) * (y0 + 2 ^ n0 * y1) := by
      rw [Nat.mul_comm 2 n0, pow_mul]; ring
    by_cases hbe : b.length = 2 * n0
    · simp only [if_pos hbe]
      have hba := hb.append ha
      rw [hbe] at hba
      refine (ctAdd_valid st hba hcn).mono ?_
      rintro z ⟨hz, hzl⟩
      rw [List.length_append] at hzl
      exact ⟨hz.congr hval, bound _ (by omega)⟩
    · simp only [if_neg hbe]
      refine Yields.bind (ctAdd_valid st hb hcn) ?_
      rintro bc ⟨hbc, hbcl⟩
      refine (ctAdd_valid st (ctShift_valid st ha (2 * n0)) hbc).mono ?_
      rintro z ⟨hz, hzl⟩
      rw [length_ctShift] at hzl
      refine ⟨hz.congr ?_, bound _ (by omega)⟩
      rw [← hval]; ring

theorem mulAlign_valid (st : Setting S ck pc B D) {x y : Ctxt S.C} {vx vy : Int}
    (hx : Valid ck B x vx) (hy : Valid ck B y vy) :
    Valid ck B (mulAlign S pc x y).1 vx ∧ Valid ck B (mulAlign S pc x y).2 vy ∧
    (mulAlign S pc x y).1.length = max x.length y.length ∧
    (mulAlign S pc x y).2.length = max x.length y.length := by
  unfold mulAlign
  refine ⟨?_, ?_, by simp; omega, by simp; omega⟩
  · exact (hx.append (Valid.trivCt st _)).congr (by simp)
  · exact (hy.append (Valid.trivCt st _)).congr (by simp)

theorem mulLen_mono {a b : Nat} (h : a ≤ b) : mulLen a ≤ mulLen b := by
  unfold mulLen; split_ifs <;> omega

theorem mulImpl_spec (st : Setting S ck pc B D) : ∀ (fuel : Nat) {x y : Ctxt S.C} {vx vy : Int},
    Valid ck B x vx → Valid ck B y vy → max x.length y.length ≤ 32 → max x.length y.length ≤ fuel →
    Yields (mulImpl S pc fuel x y) (fun z => Valid ck B z (vx * vy) ∧
      z.length ≤ mulLen (max x.length y.length)) := by
  intro fuel
  induction fuel with
  | zero =>
    intro x y vx vy hx hy _ h0
    obtain ⟨ax, ay, lx, ly⟩ := mulAlign_valid st hx hy
    unfold mulImpl
    simp only
    rw [if_pos (by omega)]
    have : vx = 0 := by
      have := hx.abs_lt
      rw [show x.length = 0 by omega] at this; omega
    refine Yields.pure ⟨Valid.nil.congr (by rw [this]; simp), by simp [ctZero, emptyCt]⟩
  | succ fuel ih =>
    intro x y vx vy hx hy h32 hf
    obtain ⟨ax, ay, lx, ly⟩ := mulAlign_valid st hx hy
    unfold mulImpl
    simp only
    by_cases h0 : (mulAlign S pc x y).1.length = 0
    · rw [if_pos h0]
      have : vx = 0 := by
        have := hx.abs_lt
        rw [show x.length = 0 by omega] at this; omega
      refine Yields.pure ⟨Valid.nil.congr (by rw [this]; simp), by simp [ctZero, emptyCt]⟩
    · rw [if_neg h0]
      by_cases h1 : (mulAlign S pc x y).1.length = 1
      · rw [if_pos h1]
        refine (mul1word_spec st ax ay (by omega) h1).mono ?_
        rintro z ⟨hz, hzl⟩
        exact ⟨hz, hzl.trans (by rw [show max x.length y.length = 1 by omega]; decide)⟩
      · rw [if_neg h1]
        by_cases h2 : (mulAlign S pc x y).1.length < 16 ∨ (mulAlign S pc x y).1.length = 17
        · rw [if_pos h2]
          refine (mulSchoolbook_spec st ax ay (by omega) (by omega)).mono ?_
          rintro z ⟨hz, hzl⟩
          refine ⟨hz, hzl.trans ?_⟩
          unfold mulLen
          rw [if_pos (by omega)]; omega
        · rw [if_neg h2, if_pos (by omega)]
          refine mulKaratsuba_spec st ?_ ax ay lx ly (by omega) (by omega) h32
          intro a b va vb ha hb n hn hnl
          refine (ih ha hb (by omega) (by omega)).call.mono ?_
          rintro z ⟨hz, hzl⟩
          exact ⟨hz, hzl.trans (mulLen_mono hn)⟩

theorem ctMul_valid (st : Setting S ck pc B D) {x y : Ctxt S.C} {vx vy : Int}
    (hx : Valid ck B x vx) (hy : Valid ck B y vy) (h : max x.length y.length ≤ 32) :
    Yields (ctMul S pc x y) (fun z => Valid ck B z (vx * vy) ∧
      z.length ≤ mulLen (max x.length y.length)) :=
  (mulImpl_spec st mulFuel hx hy h h).call

/-! ### Squaring -/

theorem tableA1 {x : Int} (hx : IsDigit x) :
    tableAt (lutA1.map fun (v : Nat) => (v : Int)) x % 32 = (x * x) % 32 := by
  rcases hx with h | h | h <;> subst h <;> decide

/-- bit `p` of the square -/
def squDigit (m : Int) (p : Nat) : Int := m * m / 2 ^ p % 2

theorem squDigit_isDigit (m : Int) (p : Nat) : IsDigit (squDigit m p) := by
  unfold squDigit IsDigit; omega

theorem pbsSqu3_spec (st : Setting S ck pc B D) {w : Word S.C} {m : Int} (h1 : -7 ≤ m) (h2 : m ≤ 7)
    (hw : WordEnc ck B w m 7) (p : Nat) (hp : p ≤ 5) :
    Yields (pbsSqu3 S pc w p) (fun r => WordEnc ck B r (squDigit m p) 1) := by
  have key : ∀ lut : List Nat, 16 ≤ lut.length → (∀ v ∈ lut, v < 32) →
      tableAt (lut.map fun (v : Nat) => (v : Int)) m % 32 = squDigit m p % 32 →
      Yields (evalLut5Uint S pc w lut) (fun r => WordEnc ck B r (squDigit m p) 1) := by
    intro lut hl hr ht
    refine (evalLut5Uint_spec st hl hr (st.wt8 (k := 7) (by norm_num)) hw).yields.mono ?_
    rintro r ⟨n, h, _⟩
    exact h.congr ht
  unfold pbsSqu3
  interval_cases p
  · exact key _ (by decide) (by decide) (by interval_cases m <;> decide)
  · refine Yields.pure ?_
    have : squDigit m 1 = 0 := by interval_cases m <;> decide
    rw [this]
    exact WordEnc.triv st 0 1
  · exact key _ (by decide) (by decide) (by interval_cases m <;> decide)
  · exact key _ (by decide) (by decide) (by interval_cases m <;> decide)
  · exact key _ (by decide) (by decide) (by interval_cases m <;> decide)
  · exact key _ (by decide) (by decide) (by interval_cases m <;> decide)

theorem squ1word_spec (st : Setting S ck pc B D) {x : Ctxt S.C} {v : Int} (hx : Valid ck B x v)
    (h : x.length = 1) :
    Yields (squ1word S pc x) (fun z => Valid ck B z (v * v) ∧ z.length = 1) := by
  obtain ⟨d, hd, rfl⟩ := hx
  unfold squ1word
  have h0 : 0 < x.length := by omega
  refine Yields.bind ((Returns.idx h0).yields rfl) ?_
  rintro _ rfl
  have hx0 := hd 0 h0
  refine Yields.bind (evalLut5Uint_spec st (lut := lutA1) (by decide) (by decide)
    (st.wt8 (k := 1) (by norm_num)) hx0.1).yields ?_
  rintro r ⟨n, hr, _⟩
  refine Yields.pure ⟨(Valid.single (hr.congr (tableA1 hx0.2)) (hx0.2.mul hx0.2)).congr ?_, rfl⟩
  rw [h]; simp [valueN]

theorem squ23word_spec (st : Setting S ck pc B D) {x : Ctxt S.C} {v : Int} (hx : Valid ck B x v)
    (h : x.length = 2 ∨ x.length = 3) :
    Yields (squ23word S pc x) (fun z => Valid ck B z (v * v) ∧ z.length = 2 * x.length) := by
  have hb := hx.abs_lt
  obtain ⟨d, hd, hv⟩ := hx
  unfold squ23word
  rw [if_neg (not_not.2 h)]
  refine Yields.bind (P := fun w => WordEnc ck B w v 7) ?_ ?_
  · by_cases h2 : x.length = 2
    · rw [if_pos h2]
      refine Yields.bind ((Returns.idx (show 1 < x.length by omega)).yields rfl) ?_
      rintro _ rfl
      refine Yields.bind ((Returns.idx (show 0 < x.length by omega)).yields rfl) ?_
      rintro _ rfl
      refine Yields.pure ?_
      have := (((hd 1 (by omega)).1.mulConst st 2 (by norm_num)).add st (hd 0 (by omega)).1).mono
        (show Int.natAbs 2 * 1 + 1 ≤ 7 by norm_num)
      refine this.congr ?_
      rw [← hv, h2]
      simp only [valueN]
      congr 1; ring
    · rw [if_neg h2]
      refine Yields.bind ((Returns.idx (show 2 < x.length by omega)).yields rfl) ?_
      rintro _ rfl
      refine Yields.bind ((Returns.idx (show 1 < x.length by omega)).yields rfl) ?_
      rintro _ rfl
      refine Yields.bind ((Returns.idx (show 0 < x.length by omega)).yields rfl) ?_
      rintro _ rfl
      refine Yields.pure ?_
      have := (((((hd 2 (by omega)).1.mulConst st 2 (by norm_num)).add st (hd 1 (by omega)).1).mulConst
        st 2 (by norm_num)).add st (hd 0 (by omega)).1).mono
        (show Int.natAbs 2 * (Int.natAbs 2 * 1 + 1) + 1 ≤ 7 by norm_num)
      refine this.congr ?_
      rw [← hv, show x.length = 3 by omega]
      simp only [valueN]
      congr 1; ring
  · intro w hw
    have hr : -7 ≤ v ∧ v ≤ 7 := by
      rcases h with h | h <;> rw [h] at hb <;> omega
    refine Yields.bind (Yields.parFor (P := fun i a => WordEnc ck B a
      (squDigit v (if i < 1 then i else i + 1)) 1) ?_) ?_
    · intro i hi
      rw [length_trivCt] at hi
      exact pbsSqu3_spec st hr.1 hr.2 hw _ (by split_ifs <;> omega)
    · rintro res ⟨hl, hres⟩
      rw [length_trivCt] at hl
      have h0 : 0 < res.length := by omega
      refine Yields.bind ((Returns.idx h0).yields rfl) ?_
      rintro _ rfl
      have hd2 : Valid ck B (res.drop 1) (valueN (fun i => squDigit v (i + 2)) (res.length - 1)) := by
        refine ⟨fun i => squDigit v (i + 2), ?_, by simp⟩
        intro i hi
        rw [List.getElem_drop]
        have := hres (1 + i) (by simp at hi; omega)
        rw [if_neg (by omega), show 1 + i + 1 = i + 2 by omega] at this
        exact ⟨this, squDigit_isDigit _ _⟩
      have h00 := hres 0 h0
      rw [if_pos (by omega)] at h00
      have := Valid.cons h00 (squDigit_isDigit _ _)
        (Valid.cons (WordEnc.triv st 0 1) isDigit_zero hd2)
      refine Yields.pure ⟨this.congr ?_, by simp; omega⟩
      obtain ⟨h3, h4⟩ := hr
      rcases h with h | h
      · rw [hl, h]
        rw [h] at hb
        have h5 : -3 ≤ v ∧ v ≤ 3 := by omega
        obtain ⟨h5, h6⟩ := h5
        clear * - h5 h6
        interval_cases v <;> decide
      · rw [hl, h]
        clear * - h3 h4
        interval_cases v <;> decide

theorem squDnq_spec (st : Setting S ck pc B D) {squRec : Ctxt S.C → M (Ctxt S.C)} {x : Ctxt S.C}
    {v : Int} {l : Nat}
    (hrec : ∀ {a : Ctxt S.C} {va : Int}, Valid ck B a va → a.length < l →
      Yields (squRec a) (fun z => Valid ck B z (va * va) ∧ z.length ≤ squLen a.length))
    (hx : Valid ck B x v) (hl : x.length = l) (h4 : 4 ≤ l) (h32 : l ≤ 32) :
    Yields (squDnq S pc squRec x) (fun z => Valid ck B z (v * v) ∧ z.length ≤ squLen l) := by
  unfold squDnq
  rw [hl]
  obtain ⟨n0, hn0⟩ : ∃ n0, n0 = (l + 1) / 2 := ⟨_, rfl⟩
  simp only [← hn0]
  obtain ⟨x0, x1, hx0, hx1, rfl⟩ := hx.splitAt (k := n0) (by omega)
  have lx0 : (x.take n0).length = n0 := by simp; omega
  have lx1 : (x.drop n0).length = l - n0 := by simp [hl]
  have ra := hrec hx1 (by omega)
  have rb := hrec hx0 (by omega)
  rw [lx1] at ra
  rw [lx0] at rb
  refine Yields.bind (Yields.par3 ra rb
    (R := fun c => Valid ck B c (x0 * x1 * 2 ^ (n0 + 1)) ∧ c.length ≤ mulLen n0 + (n0 + 1)) ?_) ?_
  · refine Yields.bind (ctMul_valid st hx0 hx1 (by omega)) ?_
    rintro c ⟨hc, hcl⟩
    rw [lx0, lx1, Nat.max_eq_left (by omega)] at hcl
    exact Yields.pure ⟨ctShift_valid st hc _, by rw [length_ctShift]; omega⟩
  · rintro ⟨a, b, c⟩ ⟨⟨ha, hal⟩, ⟨hb, hbl⟩, hc, hcl⟩
    simp only at ha hal hb hbl hc hcl
    have bound : ∀ r : Nat, r ≤ max (2 * n0 + squLen (l - n0)) (max (squLen n0)
        (mulLen n0 + (n0 + 1)) + 1) + 1 → r ≤ squLen l := by
      intro r hr
      refine hr.trans ?_
      rw [hn0]
      clear * - h4 h32
      interval_cases l <;> decide
    have hval : x0 * x0 + 2 ^ (2 * n0) * (x1 * x1) + x0 * x1 * 2 ^ (n0 + 1)
        = (x0 + 2 ^ n0 * x1) * (x0 + 2 ^ n0 * x1) := by
      rw [Nat.mul_comm 2 n0, pow_mul, pow_succ]; ring
    by_cases hbe : b.length = 2 * n0
    · simp only [if_pos hbe]
      have hba := hb.append ha
      rw [hbe] at hba
      refine (ctAdd_valid st hba hc).mono ?_
      rintro z ⟨hz, hzl⟩
      rw [List.length_append] at hzl
      exact ⟨hz.congr hval, bound _ (by omega)⟩
    · simp only [if_neg hbe]
      refine Yields.bind (ctAdd_valid st hb hc) ?_
      rintro bc ⟨hbc, hbcl⟩
      refine (ctAdd_valid st (ctShift_valid st ha (2 * n0)) hbc).mono ?_
      rintro z ⟨hz, hzl⟩
      rw [length_ctShift] at hzl
      refine ⟨hz.congr ?_, bound _ (by omega)⟩
      rw [← hval]; ring

theorem squImpl_spec (st : Setting S ck pc B D) : ∀ (fuel : Nat) {x : Ctxt S.C} {v : Int},
    Valid ck B x v → x.length ≤ 32 → x.length ≤ fuel →
    Yields (squImpl S pc fuel x) (fun z => Valid ck B z (v * v) ∧ z.length ≤ squLen x.length) := by
  intro fuel
  induction fuel with
  | zero =>
    intro x v hx _ h0
    unfold squImpl
    rw [if_pos (by omega)]
    have : v = 0 := by
      have := hx.abs_lt
      rw [show x.length = 0 by omega] at this; omega
    refine Yields.pure ⟨Valid.nil.congr (by rw [this]; simp), by simp [ctZero, emptyCt]⟩
  | succ fuel ih =>
    intro x v hx h32 hf
    unfold squImpl
    by_cases h0 : x.length = 0
    · rw [if_pos h0]
      have : v = 0 := by
        have := hx.abs_lt
        rw [h0] at this; omega
      refine Yields.pure ⟨Valid.nil.congr (by rw [this]; simp), by simp [ctZero, emptyCt]⟩
    · rw [if_neg h0]
      by_cases h1 : x.length = 1
      · rw [if_pos h1]
        refine (squ1word_spec st hx h1).mono ?_
        rintro z ⟨hz, hzl⟩
        exact ⟨hz, by rw [hzl, h1]; decide⟩
      · rw [if_neg h1]
        by_cases h3 : x.length ≤ 3
        · rw [if_pos h3]
          have h23 : x.length = 2 ∨ x.length = 3 := by omega
          refine (squ23word_spec st hx h23).mono ?_
          rintro z ⟨hz, hzl⟩
          refine ⟨hz, ?_⟩
          rw [hzl]
          rcases h23 with h | h <;> rw [h] <;> decide
        · rw [if_neg h3, if_pos h32]
          refine squDnq_spec st ?_ hx rfl (by omega) h32
          intro a va ha hal
          exact (ih ha (by omega) (by omega)).call

theorem ctSqu_valid (st : Setting S ck pc B D) {x : Ctxt S.C} {v : Int} (hx : Valid ck B x v)
    (h : x.length ≤ 32) :
    Yields (ctSqu S pc x) (fun z => Valid ck B z (v * v) ∧ z.length ≤ squLen x.length) :=
  (squImpl_spec st mulFuel hx h h).call

end
end Parm
