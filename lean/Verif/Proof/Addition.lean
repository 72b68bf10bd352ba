import Verif.Proof.Value

/-!
# Addition and subtraction
-/

namespace Parm

/-! ### Leading and trailing trivial zeros -/

section
variable {C : Type}

theorem rzero_le (x : Ctxt C) : rzero x ≤ x.length := (List.takeWhile_sublist _).length_le

theorem rzero_low (x : Ctxt C) {i : Nat} (hi : i < rzero x) (h : i < x.length) :
    x[i].isTrivZero = true := by
  unfold rzero at hi
  have h1 : (x.takeWhile Word.isTrivZero)[i] ∈ x.takeWhile Word.isTrivZero := List.getElem_mem hi
  have h2 := List.all_takeWhile (p := Word.isTrivZero) (l := x)
  have h3 := List.all_eq_true.1 h2 _ h1
  rwa [(List.takeWhile_prefix _).getElem hi] at h3

theorem rzero_at (x : Ctxt C) (h : rzero x < x.length) : x[rzero x].isTrivZero = false := by
  induction x with
  | nil => simp at h
  | cons a x ih =>
    cases ha : a.isTrivZero with
    | false =>
      have : rzero (a :: x) = 0 := by simp [rzero, ha]
      simp [this, ha]
    | true =>
      have e : rzero (a :: x) = rzero x + 1 := by simp [rzero, ha]
      have h' : rzero x < x.length := by rw [e] at h; simpa using h
      simp [e, ih h']

theorem lzero_le (x : Ctxt C) : lzero x ≤ x.length := by
  have := rzero_le x.reverse
  simpa [lzero] using this

theorem lzero_high (x : Ctxt C) {i : Nat} (hi : x.length - lzero x ≤ i) (h : i < x.length) :
    x[i].isTrivZero = true := by
  have := rzero_low x.reverse (i := x.length - 1 - i) (by unfold lzero at hi; omega)
    (by simp; omega)
  rw [List.getElem_reverse] at this
  have e : x.length - 1 - (x.length - 1 - i) = i := by omega
  simpa [e] using this

theorem lzero_at (x : Ctxt C) (h : lzero x < x.length) :
    (x[x.length - lzero x - 1]'(by omega)).isTrivZero = false := by
  have := rzero_at x.reverse (by simpa [lzero] using h)
  rw [List.getElem_reverse] at this
  have e : x.length - 1 - rzero x.reverse = x.length - lzero x - 1 := by unfold lzero; omega
  simpa [e] using this

theorem rzero_lt_strip (x : Ctxt C) (h : rzero x < x.length) : rzero x < x.length - lzero x := by
  by_contra hc
  have h1 := lzero_high x (i := rzero x) (by omega) h
  rw [rzero_at x h] at h1
  cases h1

theorem lzero_lt_of_rzero (x : Ctxt C) (h : rzero x < x.length) : lzero x < x.length := by
  have := rzero_lt_strip x h; omega

end

/-! ### Word-wise combination -/

theorem length_zipInplace {α : Type} (op : α → α → α) : ∀ (a b : List α),
    (zipInplace op a b).length = a.length
  | [], [] => rfl
  | [], _ :: _ => rfl
  | _ :: _, [] => rfl
  | a :: as, b :: bs => by simp [zipInplace, length_zipInplace op as bs]

theorem getElem_zipInplace {α : Type} (op : α → α → α) : ∀ (a b : List α) (i : Nat)
    (h : i < (zipInplace op a b).length) (ha : i < a.length),
    (zipInplace op a b)[i] = if hb : i < b.length then op a[i] b[i] else a[i]
  | [], _, i, h, ha => by simp at ha
  | a :: as, [], i, h, ha => by simp [zipInplace]
  | a :: as, b :: bs, 0, h, ha => by simp [zipInplace]
  | a :: as, b :: bs, i + 1, h, ha => by
    have := getElem_zipInplace op as bs i (by simpa [zipInplace] using h) (by simpa using ha)
    simp only [zipInplace, List.getElem_cons_succ, this]
    simp

/-! ### Carries -/

/-- sign with threshold 4 -/
def thr4 (a : Int) : Int := if 4 ≤ a then 1 else if a ≤ -4 then -1 else 0

/-- carry out of position `i` -/
def carry (t : Nat → Int) : Nat → Int
  | 0 => thr4 (3 * t 0)
  | i + 1 => thr4 (3 * t (i + 1) + t i)

/-- carry into position `i` -/
def carryIn (t : Nat → Int) : Nat → Int
  | 0 => 0
  | i + 1 => carry t i

theorem carry_digit (t : Nat → Int) (i : Nat) : IsDigit (carry t i) := by
  unfold IsDigit
  cases i <;> simp only [carry, thr4] <;> split_ifs <;> simp

theorem digit_after_thr4 {a b c : Int} (ha : -2 ≤ a ∧ a ≤ 2) (hb : -2 ≤ b ∧ b ≤ 2)
    (hc : -2 ≤ c ∧ c ≤ 2) : IsDigit (c - 2 * thr4 (3 * c + b) + thr4 (3 * b + a)) := by
  unfold IsDigit
  simp only [thr4]
  split_ifs <;> omega

theorem digit_after_carry {t : Nat → Int} (ht : ∀ i, -2 ≤ t i ∧ t i ≤ 2) (i : Nat) :
    IsDigit (t i - 2 * carry t i + carryIn t i) := by
  match i with
  | 0 => simpa [carryIn, carry, thr4] using
      digit_after_thr4 (a := 0) (b := 0) (by omega) (by omega) (ht 0)
  | 1 => simpa [carryIn, carry] using digit_after_thr4 (a := 0) (by omega) (ht 0) (ht 1)
  | i + 2 => exact digit_after_thr4 (ht i) (ht (i + 1)) (ht (i + 2))

theorem carry_telescope (s t : Nat → Int) : ∀ n : Nat,
    valueN (fun i => s i - 2 * carry t i + carryIn t i) n + carryIn t n * 2 ^ n = valueN s n
  | 0 => by simp [valueN, carryIn]
  | n + 1 => by
    have ih := carry_telescope s t n
    show (valueN _ n + (s n - 2 * carry t n + carryIn t n) * 2 ^ n) + carry t n * 2 ^ (n + 1)
      = valueN s n + s n * 2 ^ n
    rw [← ih, pow_succ]; ring

/-! ### Tables of addition -/

theorem tableF4 {m : Int} (h1 : -8 ≤ m) (h2 : m ≤ 8) :
    tableAt (lutF4.map fun (v : Nat) => (v : Int)) m % 32 = thr4 m % 32 := by
  interval_cases m <;> rfl

theorem tableId {m : Int} (h1 : -8 ≤ m) (h2 : m ≤ 8) :
    tableAt (lutId.map fun (v : Nat) => (v : Int)) m % 32 = m % 32 := by
  interval_cases m <;> rfl

section
variable {S : Scheme} {ck : ClientKey S} {pc : Cloud} {B D : Nat}

theorem Setting.wt8 (_ : Setting S ck pc B D) {k : Nat} (hk : k ≤ 8) :
    k ≤ tolWeight pc.params.quadWeight := by
  unfold tolWeight; split_ifs <;> omega

theorem Setting.tol8 (st : Setting S ck pc B D) {k : Nat} (hk : k ≤ 8) : k * B + D < 2 ^ 58 := by
  have h := st.tolerance
  have : 8 ≤ tolWeight pc.params.quadWeight := by
    unfold tolWeight; split_ifs <;> omega
  have := Nat.mul_le_mul_right B (hk.trans this)
  omega

theorem pbsF4_spec (st : Setting S ck pc B D) {w : Word S.C} {m : Int} (h1 : -8 ≤ m) (h2 : m ≤ 8)
    (hw : WordEnc ck B w m 8) :
    CYields (pbsF4 S pc w) (fun r n => WordEnc ck B r (thr4 m) 1 ∧ r.isTriv = w.isTriv ∧
      n = if w.isTriv then 0 else 1) := by
  refine (evalLut5Uint_spec st (lut := lutF4) (by decide) (by decide) (st.wt8 (le_refl 8)) hw).mono ?_
  rintro r n ⟨a, b⟩
  exact ⟨a.congr (tableF4 h1 h2), b⟩

theorem pbsId_spec (st : Setting S ck pc B D) {w : Word S.C} {m : Int} (h1 : -8 ≤ m) (h2 : m ≤ 8)
    {k : Nat} (hk : k ≤ 8) (hw : WordEnc ck B w m k) :
    CYields (pbsId S pc w) (fun r n => WordEnc ck B r m 1 ∧ r.isTriv = w.isTriv ∧
      n = if w.isTriv then 0 else 1) := by
  refine (evalLut5Uint_spec st (lut := lutId) (by decide) (by decide) (st.wt8 hk) hw).mono ?_
  rintro r n ⟨a, b⟩
  exact ⟨a.congr (tableId h1 h2), b⟩

theorem sum_range_le {c : Nat → Nat} {n : Nat} (h : ∀ i, i < n → c i ≤ 1) :
    ((List.range n).map c).sum ≤ n := by
  induction n with
  | zero => simp
  | succ n ih =>
    rw [List.range_succ, List.map_append, List.sum_append]
    have := ih (fun i hi => h i (by omega))
    have := h n (by omega)
    simp; omega

theorem sum_range_eq {c : Nat → Nat} {n : Nat} (h : ∀ i, i < n → c i = 1) :
    ((List.range n).map c).sum = n := by
  induction n with
  | zero => simp
  | succ n ih =>
    rw [List.range_succ, List.map_append, List.sum_append, ih (fun i hi => h i (by omega)),
      ]
    simp [h n (by omega)]

/-- combine digits according to the operation -/
def pm (isAdd : Bool) (a b : Int) : Int := if isAdd then a + b else a - b

theorem Valid.oppositeImpl (st : Setting S ck pc B D) {x : Ctxt S.C} {v : Int}
    (h : Valid ck B x v) : Valid ck B (oppositeImpl S x) (-v) := by
  obtain ⟨d, hd, rfl⟩ := h
  refine ⟨fun i => - d i, ?_, ?_⟩
  · intro i hi
    have hi' : i < x.length := by simpa [Parm.oppositeImpl] using hi
    have := hd i hi'
    refine ⟨?_, this.2.opp⟩
    simp only [Parm.oppositeImpl, List.getElem_map]
    exact this.1.opp st
  · simp only [Parm.oppositeImpl, List.length_map]
    exact valueN_neg d _

theorem Valid.zero_of_trivZero {x : Ctxt S.C} {v : Int} (h : Valid ck B x v)
    (hz : rzero x = x.length) : v = 0 := by
  obtain ⟨d, hd, rfl⟩ := h
  apply valueN_zero
  intro i hi
  exact (hd i hi).2.zero_of_mod ((hd i hi).1.of_isTrivZero (rzero_low x (by omega) hi)).1

theorem Holds.mono {k k' : Nat} {x : Ctxt S.C} {d : Nat → Int} (h : Holds ck B k x d) (hk : k ≤ k') :
    Holds ck B k' x d := fun i hi => ⟨(h i hi).1.mono hk, (h i hi).2⟩

/-- the main case: both operands have a word that is not a trivial zero -/
theorem addSub_main (st : Setting S ck pc B D) (isAdd refresh : Bool) {x y : Ctxt S.C} {vx vy : Int}
    (hx : Valid ck B x vx) (hy : Valid ck B y vy)
    (hxr : rzero x < x.length) (hyr : rzero y < y.length) :
    CYields (addSubImpl S isAdd pc x y refresh) (fun z n =>
      let wlen := max (x.length - lzero x) (y.length - lzero y)
      let r := max (rzero x) (rzero y)
      (∃ d, Holds ck B (if refresh then 1 else 5) z d ∧ valueN d z.length = pm isAdd vx vy) ∧
      z.length = wlen + 1 ∧
      n ≤ (if refresh then 2 else 1) * (wlen - r) ∧
      ((∀ i, r ≤ i → i < wlen → (∃ h : i < x.length, x[i].isTriv = false) ∨
        (∃ h : i < y.length, y[i].isTriv = false)) →
        n = (if refresh then 2 else 1) * (wlen - r))) := by
  obtain ⟨dx, hdx, hgx, hzx, hvx⟩ := hx.canon
  obtain ⟨dy, hdy, hgy, hzy, hvy⟩ := hy.canon
  unfold addSubImpl
  simp only [show rzero x ≠ x.length by omega, show rzero y ≠ y.length by omega, if_false]
  have hsx := rzero_lt_strip x hxr
  have hsy := rzero_lt_strip y hyr
  have hlx := lzero_le x
  have hly := lzero_le y
  obtain ⟨wlen, hwlen⟩ : ∃ n, n = max (x.length - lzero x) (y.length - lzero y) := ⟨_, rfl⟩
  obtain ⟨r, hr⟩ : ∃ n, n = max (rzero x) (rzero y) := ⟨_, rfl⟩
  rw [← hwlen, ← hr]
  have hrw : r < wlen := by omega
  -- digits beyond `wlen` vanish
  have hxw : ∀ i, wlen ≤ i → dx i = 0 := by
    intro i hi
    by_cases h : i < x.length
    · exact (hgx i).zero_of_mod ((hdx i h).1.of_isTrivZero (lzero_high x (by omega) h)).1
    · exact hzx i (by omega)
  have hyw : ∀ i, wlen ≤ i → dy i = 0 := by
    intro i hi
    by_cases h : i < y.length
    · exact (hgy i).zero_of_mod ((hdy i h).1.of_isTrivZero (lzero_high y (by omega) h)).1
    · exact hzy i (by omega)
  have hvx' : valueN dx wlen = vx := by
    rw [← hvx (max wlen x.length) (by omega)]
    exact (valueN_extend (by omega) (fun i h1 _ => hxw i h1)).symm
  have hvy' : valueN dy wlen = vy := by
    rw [← hvy (max wlen y.length) (by omega)]
    exact (valueN_extend (by omega) (fun i h1 _ => hyw i h1)).symm
  -- the word-wise sums
  obtain ⟨s, hs⟩ : ∃ s : Nat → Int, s = fun i => pm isAdd (dx i) (dy i) := ⟨_, rfl⟩
  have hsv : valueN s wlen = pm isAdd vx vy := by
    rw [hs, ← hvx', ← hvy']
    cases isAdd
    · exact valueN_sub dx dy wlen
    · exact valueN_add dx dy wlen
  have hsr : ∀ i, -2 ≤ s i ∧ s i ≤ 2 := by
    intro i
    have h1 := hgx i
    have h2 := hgy i
    unfold IsDigit at h1 h2
    rw [hs]; unfold pm
    cases isAdd <;> simp <;> omega
  obtain ⟨w0, hw0⟩ : ∃ w0, w0 = x.take wlen ++ List.replicate (wlen - x.length)
      (encryptWordTriv S.C pc 0) := ⟨_, rfl⟩
  have hl0 : w0.length = wlen := by rw [hw0]; simp; omega
  -- the first operand, padded
  have hw0e : ∀ i (hi : i < w0.length), (∀ k, (k = 0 ∧ i < rzero x ∨ k = 1) →
      WordEnc ck B w0[i] (dx i) k) ∧
      (w0[i].isTriv = true → ¬ ∃ h : i < x.length, x[i].isTriv = false) := by
    intro i hi
    by_cases h : i < x.length
    · have e : w0[i] = x[i] := by
        simp only [hw0]
        rw [List.getElem_append_left (by simp; omega)]
        simp
      rw [e]
      refine ⟨?_, ?_⟩
      · rintro k (⟨rfl, hlt⟩ | rfl)
        · exact ((hdx i h).1.of_isTrivZero (rzero_low x hlt h)).2
        · exact (hdx i h).1
      · rintro ht ⟨_, hf⟩; rw [ht] at hf; cases hf
    · have e : w0[i] = encryptWordTriv S.C pc 0 := by
        simp only [hw0]
        rw [List.getElem_append_right (by simp; omega)]
        simp
      rw [e, hzx i (by omega)]
      refine ⟨fun k _ => WordEnc.triv st 0 k, ?_⟩
      rintro _ ⟨h', _⟩; exact h h'
  obtain ⟨w, hw⟩ : ∃ w, w = if isAdd then zipInplace (Word.add S) w0 y
      else zipInplace (Word.sub S) w0 y := ⟨_, rfl⟩
  have hlw : w.length = wlen := by
    rw [hw]; cases isAdd <;> simp [length_zipInplace, hl0]
  have hwe : ∀ i (hi : i < w.length),
      WordEnc ck B w[i] (s i) (if i < r then 1 else 2) ∧
      (w[i].isTriv = true → ¬ ((∃ h : i < x.length, x[i].isTriv = false) ∨
        (∃ h : i < y.length, y[i].isTriv = false))) := by
    intro i hi
    have hi0 : i < w0.length := by omega
    obtain ⟨h1, h2⟩ := hw0e i hi0
    have hx1 := h1 1 (Or.inr rfl)
    by_cases h : i < y.length
    · have hy1 := (hdy i h).1
      have e : w[i] = if isAdd then Word.add S w0[i] y[i] else Word.sub S w0[i] y[i] := by
        simp only [hw]
        cases isAdd
        · simp only [Bool.false_eq_true, if_false]
          rw [getElem_zipInplace _ _ _ _ _ hi0, dif_pos h]
        · simp only [if_true]
          rw [getElem_zipInplace _ _ _ _ _ hi0, dif_pos h]
      have comb : ∀ k k', WordEnc ck B w0[i] (dx i) k → WordEnc ck B y[i] (dy i) k' →
          WordEnc ck B w[i] (s i) (k + k') := by
        intro k k' a b
        rw [e, hs]; unfold pm
        cases isAdd
        · exact a.sub st b
        · exact a.add st b
      refine ⟨?_, ?_⟩
      · by_cases hir : i < r
        · rw [if_pos hir]
          by_cases hix : i < rzero x
          · exact comb 0 1 (h1 0 (Or.inl ⟨rfl, hix⟩)) hy1
          · exact comb 1 0 hx1 (hy1.of_isTrivZero (rzero_low y (by omega) h)).2
        · rw [if_neg hir]; exact comb 1 1 hx1 hy1
      · intro ht
        have : w0[i].isTriv = true ∧ y[i].isTriv = true := by
          rw [e] at ht
          cases isAdd
          · simpa [isTriv_sub] using ht
          · simpa [isTriv_add] using ht
        rintro (hh | ⟨_, hh⟩)
        · exact h2 this.1 hh
        · rw [this.2] at hh; cases hh
    · have e : w[i] = w0[i] := by
        simp only [hw]
        cases isAdd
        · simp only [Bool.false_eq_true, if_false]
          rw [getElem_zipInplace _ _ _ _ _ hi0, dif_neg h]
        · simp only [if_true]
          rw [getElem_zipInplace _ _ _ _ _ hi0, dif_neg h]
      have es : s i = dx i := by
        rw [hs]; unfold pm
        simp [hzy i (by omega)]
      rw [e, es]
      refine ⟨hx1.mono (by split_ifs <;> omega), ?_⟩
      intro ht
      rintro (hh | ⟨hh, _⟩)
      · exact h2 ht hh
      · exact h hh
  -- digits below `r` are digits already
  have hslow : ∀ i, i < r → IsDigit (s i) := by
    intro i hi
    by_cases hix : i < rzero x
    · have : dx i = 0 := (hgx i).zero_of_mod
        ((hdx i (by omega)).1.of_isTrivZero (rzero_low x hix (by omega))).1
      rw [hs]; unfold pm
      simp only [this]
      cases isAdd
      · simpa using (hgy i).opp
      · simpa using hgy i
    · have : dy i = 0 := (hgy i).zero_of_mod
        ((hdy i (by omega)).1.of_isTrivZero (rzero_low y (by omega) (by omega))).1
      rw [hs]; unfold pm
      simp only [this]
      simpa using hgx i
  obtain ⟨t, ht⟩ : ∃ t : Nat → Int, t = fun i => if r ≤ i then s i else 0 := ⟨_, rfl⟩
  have htr : ∀ i, -2 ≤ t i ∧ t i ≤ 2 := by
    intro i
    have := hsr i
    rw [ht]; simp only
    split_ifs <;> omega
  have hc0 : ∀ i, i < r → carry t i = 0 := by
    intro i hi
    cases i with
    | zero => simp [carry, ht, thr4, show ¬ r ≤ 0 by omega]
    | succ i => simp [carry, ht, thr4, show ¬ r ≤ i + 1 by omega, show ¬ r ≤ i by omega]
  have hci0 : ∀ i, i ≤ r → carryIn t i = 0 := by
    intro i hi
    cases i with
    | zero => rfl
    | succ i => exact hc0 i (by omega)
  obtain ⟨z, hz⟩ : ∃ z : Nat → Int, z = fun i => s i - 2 * carry t i + carryIn t i := ⟨_, rfl⟩
  have hzd : ∀ i, IsDigit (z i) := by
    intro i
    rw [hz]
    by_cases hi : i < r
    · simp only [hc0 i hi, hci0 i (by omega)]
      simpa using hslow i hi
    · have := digit_after_carry htr i
      have e : t i = s i := by rw [ht]; simp; omega
      rw [e] at this
      exact this
  rw [← hw0, ← hw]
  have hlq : (trivCt S.C pc wlen).length = wlen := by simp [trivCt]
  rw [if_neg (by omega)]
  -- the carries
  refine CYields.bind (P := fun qHi n => qHi.length = wlen - r ∧
      (∀ i (hi : i < qHi.length), WordEnc ck B qHi[i] (carry t (i + r)) 1) ∧
      n ≤ wlen - r ∧
      ((∀ i, r ≤ i → i < wlen → ((∃ h : i < x.length, x[i].isTriv = false) ∨
        (∃ h : i < y.length, y[i].isTriv = false))) → n = wlen - r)) ?_ ?_
  · have hlen : ((trivCt S.C pc wlen).drop r).length = wlen - r := by rw [List.length_drop, hlq]
    refine (CYields.parFor (P := fun i a n => WordEnc ck B a (carry t (i + r)) 1 ∧ n ≤ 1 ∧
      (w[i + r]?.map Word.isTriv = some false → n = 1)) ?_).mono ?_
    · intro i0 hi0
      rw [hlen] at hi0
      have hiw : i0 < (w.drop r).length := by rw [List.length_drop]; omega
      have hir : i0 + r < w.length := by omega
      have hget : (w.drop r)[i0] = w[i0 + r] := by
        rw [List.getElem_drop]; congr 1; omega
      obtain ⟨a, n, ha, hP⟩ : CYields (pbsF4 S pc (if i0 > 0 then
          Word.add S (Word.mulConst S w[i0 + r] 3) (w[i0 + r - 1]'(by omega))
          else Word.mulConst S w[i0 + r] 3)) (fun r' n => WordEnc ck B r' (carry t (i0 + r)) 1 ∧
            n ≤ 1 ∧ (w[i0 + r]?.map Word.isTriv = some false → n = 1)) := by
        have hmul := (hwe (i0 + r) hir).1.mulConst st 3 (by norm_num)
        rw [if_neg (by omega)] at hmul
        have et : t (i0 + r) = s (i0 + r) := by rw [ht]; simp
        have hb := hsr (i0 + r)
        have hopt : w[i0 + r]?.map Word.isTriv = some (w[i0 + r].isTriv) := by
          rw [List.getElem?_eq_getElem hir]; rfl
        rw [hopt]
        by_cases h0 : i0 > 0
        · rw [if_pos h0]
          have hprev := (hwe (i0 + r - 1) (by omega)).1
          rw [if_neg (by omega)] at hprev
          have hsum := hmul.add st hprev
          have hb' := hsr (i0 + r - 1)
          have ec : carry t (i0 + r) = thr4 (3 * s (i0 + r) + s (i0 + r - 1)) := by
            obtain ⟨j, hj⟩ : ∃ j, i0 + r = j + 1 := ⟨i0 + r - 1, by omega⟩
            have et' : t j = s j := by rw [ht]; simp; omega
            rw [hj] at et ⊢
            simp [carry, et, et']
          refine (pbsF4_spec st (by omega) (by omega) hsum).mono ?_
          rintro a n ⟨h1, h2, h3⟩
          refine ⟨by rw [ec]; exact h1, by rw [h3]; split_ifs <;> omega, ?_⟩
          intro hf
          have hf' : w[i0 + r].isTriv = false := by simpa using hf
          rw [h3, isTriv_add, isTriv_mulConst, hf']
          simp
        · rw [if_neg h0]
          have ec : carry t (i0 + r) = thr4 (3 * s (i0 + r)) := by
            have : i0 = 0 := by omega
            subst this
            rcases Nat.eq_zero_or_pos r with hr0 | hr0
            · subst hr0
              simp [carry, ← et]
            · obtain ⟨j, hj⟩ : ∃ j, 0 + r = j + 1 := ⟨0 + r - 1, by omega⟩
              have et' : t j = 0 := by rw [ht]; simp; omega
              rw [hj] at et ⊢
              simp [carry, et, et']
          refine (pbsF4_spec st (by omega) (by omega) (hmul.mono (by norm_num))).mono ?_
          rintro a n ⟨h1, h2, h3⟩
          refine ⟨by rw [ec]; exact h1, by rw [h3]; split_ifs <;> omega, ?_⟩
          intro hf
          have hf' : w[i0 + r].isTriv = false := by simpa using hf
          rw [h3, isTriv_mulConst, hf']
          simp
      refine ⟨a, n, ?_, hP⟩
      refine (Returns.idx hiw).bind0 ?_
      rw [hget]
      by_cases h0 : i0 > 0
      · simp only [if_pos h0] at ha ⊢
        have hp : i0 + r - 1 < w.length := by omega
        refine Returns.bind0 (a := Word.add S (Word.mulConst S w[i0 + r] 3) w[i0 + r - 1]) ?_ ha
        exact (Returns.idx hp).bind0 (Returns.pure _)
      · simp only [if_neg h0] at ha ⊢
        exact Returns.bind0 (Returns.pure _) ha
    · rintro qHi n ⟨c, h1, h2, h3⟩
      rw [hlen] at h1 h3
      refine ⟨h1, fun i hi => (h2 i hi).1, ?_, ?_⟩
      · rw [h3]; exact sum_range_le (fun i hi => (h2 i (by omega)).2.1)
      · intro hall
        rw [h3]
        apply sum_range_eq
        intro i hi
        refine (h2 i (by omega)).2.2 ?_
        have hir : i + r < w.length := by omega
        rw [List.getElem?_eq_getElem hir]
        have := (hwe (i + r) hir).2
        cases hh : w[i + r].isTriv
        · simp [hh]
        · exact absurd (hall (i + r) (by omega) (by omega)) (this hh)
  -- subtract the carries
  rintro qHi n1 ⟨hql, hqe, hn1, hn1'⟩
  obtain ⟨q, hq⟩ : ∃ q, q = (trivCt S.C pc wlen).take r ++ qHi := ⟨_, rfl⟩
  rw [← hq]
  have hlenq : q.length = wlen := by rw [hq]; simp [hlq, hql]; omega
  have hqe' : ∀ i (hi : i < q.length), WordEnc ck B q[i] (carry t i) (if i < r then 0 else 1) := by
    intro i hi
    by_cases hir : i < r
    · rw [if_pos hir, hc0 i hir]
      have e : q[i] = encryptWordTriv S.C pc 0 := by
        simp only [hq]
        rw [List.getElem_append_left (by simp [hlq]; omega)]
        simp [trivCt]
      rw [e]
      exact WordEnc.triv st 0 0
    · rw [if_neg hir]
      have e : q[i] = qHi[i - r]'(by omega) := by
        simp only [hq]
        rw [List.getElem_append_right (by simp [hlq]; omega)]
        congr 1
        simp [hlq]; omega
      rw [e]
      have := hqe (i - r) (by omega)
      rwa [show i - r + r = i by omega] at this
  refine CYields.bind (P := fun w2 n => n = 0 ∧ w2.length = wlen ∧
      (∀ i (hi : i < w2.length), WordEnc ck B w2[i] (z i) (if i < r then 1 else 5) ∧
        ∀ hiw : i < w.length, w[i].isTriv = false → w2[i].isTriv = false)) ?_ ?_
  · refine (CYields.seqFor (P := fun i a n => n = 0 ∧ WordEnc ck B a (z i) (if i < r then 1 else 5) ∧
        ∀ hiw : i < w.length, w[i].isTriv = false → a.isTriv = false) ?_).mono ?_
    · intro i hi
      have hiq : i < q.length := by omega
      have h2 := (hqe' i hiq).mulConst st 2 (by norm_num)
      have h3 := (hwe i hi).1.sub st h2
      refine ⟨if i > 0 then Word.add S (Word.sub S w[i] (Word.mulConst S q[i] 2)) (q[i - 1]'(by omega))
        else Word.sub S w[i] (Word.mulConst S q[i] 2), 0, ?_, rfl, ?_, ?_⟩
      · refine (Returns.idx hiq).bind0 ?_
        by_cases h0 : i > 0
        · simp only [if_pos h0]
          exact (Returns.idx (show i - 1 < q.length by omega)).bind0 (Returns.pure _)
        · simp only [if_neg h0]
          exact Returns.pure _
      · by_cases h0 : i > 0
        · rw [if_pos h0]
          have h4 := h3.add st (hqe' (i - 1) (by omega))
          have ez : z i = s i - 2 * carry t i + carry t (i - 1) := by
            obtain ⟨j, rfl⟩ : ∃ j, i = j + 1 := ⟨i - 1, by omega⟩
            rw [hz]; simp [carryIn]
          rw [ez]
          refine h4.mono ?_
          split_ifs <;> (simp at *; try omega)
        · rw [if_neg h0]
          have : i = 0 := by omega
          subst this
          have ez : z 0 = s 0 - 2 * carry t 0 := by rw [hz]; simp [carryIn]
          rw [ez]
          refine h3.mono ?_
          split_ifs <;> simp at *
      · intro _ hf
        split_ifs <;> simp [isTriv_add, isTriv_sub, hf]
    · rintro w2 n ⟨c, h1, h2, h3⟩
      refine ⟨?_, by rw [h1, hlw], ?_⟩
      · rw [h3]
        have : (List.range w.length).map c = (List.range w.length).map (fun _ => 0) := by
          apply List.map_congr_left
          intro i hi
          have hi' : i < w.length := by simpa using hi
          exact (h2 i (by omega)).1
        rw [this]
        simp
      · intro i hi
        exact (h2 i hi).2
  rintro w2 n2 ⟨rfl, hlw2, hw2e⟩
  -- refresh
  refine CYields.bind (P := fun zHi n => zHi.length = wlen - r ∧
      (∀ i (hi : i < zHi.length), WordEnc ck B zHi[i] (z (i + r)) (if refresh then 1 else 5)) ∧
      n ≤ (if refresh then wlen - r else 0) ∧
      ((∀ i, r ≤ i → i < wlen → ((∃ h : i < x.length, x[i].isTriv = false) ∨
        (∃ h : i < y.length, y[i].isTriv = false))) → n = (if refresh then wlen - r else 0))) ?_ ?_
  · cases refresh with
    | false =>
      simp only [Bool.false_eq_true, if_false]
      refine CYields.pure ⟨by simp [hlw2], ?_, by simp, by simp⟩
      intro i hi
      have hir : r + i < w2.length := by simp at hi; omega
      rw [List.getElem_drop]
      have := (hw2e (r + i) hir).1
      rw [if_neg (by omega)] at this
      rwa [Nat.add_comm i r]
    | true =>
      simp only [if_true]
      have hlen : ((trivCt S.C pc wlen).drop r).length = wlen - r := by rw [List.length_drop, hlq]
      refine (CYields.parFor (P := fun i a n => WordEnc ck B a (z (i + r)) 1 ∧ n ≤ 1 ∧
        (w[i + r]?.map Word.isTriv = some false → n = 1)) ?_).mono ?_
      · intro i0 hi0
        rw [hlen] at hi0
        have hiw : i0 < (w2.drop r).length := by rw [List.length_drop]; omega
        have hir : r + i0 < w2.length := by omega
        have hdig := hzd (r + i0)
        unfold IsDigit at hdig
        have h5 := (hw2e (r + i0) hir).1
        rw [if_neg (by omega)] at h5
        obtain ⟨a, n, ha, h1, h2, h3⟩ := pbsId_spec st (by omega) (by omega) (by norm_num) h5
        refine ⟨a, n, ?_, ?_, ?_, ?_⟩
        · refine (Returns.idx hiw).bind0 ?_
          rw [List.getElem_drop]
          exact ha
        · rwa [Nat.add_comm i0 r]
        · rw [h3]; split_ifs <;> omega
        · intro hf
          have hiw' : r + i0 < w.length := by omega
          rw [Nat.add_comm i0 r, List.getElem?_eq_getElem hiw'] at hf
          have hf' : w[r + i0].isTriv = false := by simpa using hf
          rw [h3, (hw2e (r + i0) hir).2 hiw' hf']
          simp
      · rintro zHi n ⟨c, h1, h2, h3⟩
        rw [hlen] at h1 h3
        refine ⟨h1, fun i hi => (h2 i hi).1, ?_, ?_⟩
        · rw [h3]; exact sum_range_le (fun i hi => (h2 i (by omega)).2.1)
        · intro hall
          rw [h3]
          apply sum_range_eq
          intro i hi
          refine (h2 i (by omega)).2.2 ?_
          have hir : i + r < w.length := by omega
          rw [List.getElem?_eq_getElem hir]
          have := (hwe (i + r) hir).2
          cases hh : w[i + r].isTriv
          · simp [hh]
          · exact absurd (hall (i + r) (by omega) (by omega)) (this hh)
  rintro zHi n3 ⟨hzl, hze, hn3, hn3'⟩
  -- assemble
  have hlast : q.getLast? = some (q[wlen - 1]'(by omega)) := by
    rw [List.getLast?_eq_getElem?, List.getElem?_eq_getElem (by omega)]
    simp only [hlenq]
  rw [hlast]
  simp only
  have hlen : (w2.take r ++ zHi ++ [q[wlen - 1]'(by omega)]).length = wlen + 1 := by
    simp [hlw2, hzl]; omega
  refine CYields.pure ⟨⟨fun i => if i < wlen then z i else carryIn t i, ?_, ?_⟩, hlen, ?_, ?_⟩
  · intro i hi
    rw [hlen] at hi
    by_cases hi1 : i < wlen
    · rw [List.getElem_append_left (by simp [hlw2, hzl]; omega)]
      simp only [if_pos hi1]
      refine ⟨?_, hzd i⟩
      by_cases hir : i < r
      · rw [List.getElem_append_left (by simp [hlw2]; omega), List.getElem_take]
        have := (hw2e i (by omega)).1
        rw [if_pos hir] at this
        exact this.mono (by split_ifs <;> omega)
      · rw [List.getElem_append_right (by simp [hlw2]; omega)]
        have := hze (i - r) (by omega)
        rw [show i - r + r = i by omega] at this
        have e : i - (w2.take r).length = i - r := by simp [hlw2]; omega
        simpa only [e] using this
    · have : i = wlen := by omega
      subst this
      rw [List.getElem_append_right (by simp [hlw2, hzl]; omega)]
      simp only [hi1, if_false, List.getElem_singleton]
      obtain ⟨j, hj⟩ : ∃ j, i = j + 1 := ⟨i - 1, by omega⟩
      subst hj
      refine ⟨?_, carry_digit t j⟩
      have := hqe' j (by omega)
      rw [if_neg (by omega)] at this
      exact this.mono (by split_ifs <;> omega)
  · rw [hlen]
    show valueN _ wlen + (if wlen < wlen then z wlen else carryIn t wlen) * 2 ^ wlen = _
    rw [if_neg (by omega), ← hsv, ← carry_telescope s t wlen]
    congr 1
    apply valueN_congr
    intro i hi
    simp [hi, hz]
  · cases refresh <;> simp at * <;> omega
  · intro hall
    have := hn1' hall
    have := hn3' hall
    cases refresh <;> simp at * <;> omega

end

end Parm
