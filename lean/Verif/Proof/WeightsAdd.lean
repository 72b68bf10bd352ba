import Verif.Proof.Weights
import Verif.Proof.Addition

/-!
# What addition bootstraps
-/

namespace Parm
namespace Wt

/-- word `i`, trivial beyond the end -/
def wd (x : Ctxt Term) (i : Nat) : Word Term := x.getD i ⟨.triv 0, 0⟩

theorem wd_lt {x : Ctxt Term} {i : Nat} (h : i < x.length) : wd x i = x[i] := by
  simp [wd, List.getD, h]

theorem wd_ge {x : Ctxt Term} {i : Nat} (h : x.length ≤ i) : wd x i = ⟨.triv 0, 0⟩ := by
  simp [wd, List.getD, h]

theorem wd_ge_triv {x : Ctxt Term} {i : Nat} (h : x.length ≤ i) : (wd x i).isTriv = true := by
  rw [wd_ge h]; rfl

theorem isTriv_add (x y : Word Term) : (Word.add freeScheme x y).isTriv = (x.isTriv && y.isTriv) := by
  rcases x with ⟨_ | _, m⟩ <;> rcases y with ⟨_ | _, m'⟩ <;> rfl

theorem isTriv_opp (x : Word Term) : (Word.opp freeScheme x).isTriv = x.isTriv := by
  rcases x with ⟨_ | _, m⟩ <;> rfl

theorem isTriv_sub (x y : Word Term) : (Word.sub freeScheme x y).isTriv = (x.isTriv && y.isTriv) := by
  rw [Word.sub, isTriv_add, isTriv_opp]

theorem isTriv_mulConst (x : Word Term) (k : Int) : (Word.mulConst freeScheme x k).isTriv = x.isTriv := by
  rcases x with ⟨_ | _, m⟩ <;> by_cases h : k < 0 <;> simp [Word.mulConst, h, Word.opp, Word.isTriv]

theorem isTriv_of_zero {w : Word Term} (h : w.isTrivZero = true) : w.isTriv = true := by
  rcases w with ⟨_ | _, m⟩ <;> simp [Word.isTriv, Word.isTrivZero] at h ⊢

/-- the samples a word is made of, also those with multiplicity 0; none in a trivial word -/
def ws (w : Word Term) : Finset Term :=
  match w.ct with
  | .ct t => t.samples
  | .triv _ => ∅

theorem ws_ct {w : Word Term} {t : Term} (h : w.ct = .ct t) : ws w = t.samples := by simp [ws, h]

theorem ws_triv {w : Word Term} (h : w.isTriv = true) : ws w = ∅ := by
  rcases w with ⟨_ | _, m⟩
  · cases h
  · rfl

theorem ws_opp (x : Word Term) : ws (Word.opp freeScheme x) = ws x := by
  rcases x with ⟨_ | _, m⟩ <;> simp [Word.opp, ws, freeScheme, Term.samples]

theorem ws_add (x y : Word Term) : ws (Word.add freeScheme x y) = ws x ∪ ws y := by
  rcases x with ⟨_ | _, m⟩ <;> rcases y with ⟨_ | _, m'⟩ <;> simp [Word.add, ws, freeScheme, Term.samples]

theorem ws_sub (x y : Word Term) : ws (Word.sub freeScheme x y) = ws x ∪ ws y := by
  rw [Word.sub, ws_add, ws_opp]

theorem ws_mulConst (x : Word Term) (k : Int) : ws (Word.mulConst freeScheme x k) = ws x := by
  rcases x with ⟨_ | _, m⟩ <;> by_cases h : k < 0 <;> simp [Word.mulConst, h, Word.opp, ws, freeScheme, Term.samples]

/-- input of the carry bootstrap at `i` -/
def carryIn (r : Nat) (w : Nat → Word Term) (i : Nat) : Word Term :=
  if r < i then Word.add freeScheme (Word.mulConst freeScheme (w i) 3) (w (i - 1))
  else Word.mulConst freeScheme (w i) 3

/-- word `i` after adding the carries -/
def afterCarry (w q : Nat → Word Term) (i : Nat) : Word Term :=
  if 0 < i then Word.add freeScheme (Word.sub freeScheme (w i) (Word.mulConst freeScheme (q i) 2)) (q (i - 1))
  else Word.sub freeScheme (w i) (Word.mulConst freeScheme (q i) 2)

/-- how the result `z` of an addition that takes no shortcut is made: `w` are the sums of words, `q` the
carries, `n` the number of words, the first `r` of them without carry -/
structure AddShape (pc : Cloud) (isAdd refresh : Bool) (x y z : Ctxt Term) (n r : Nat) (w q : Nat → Word Term) :
    Prop where
  lt : r < n
  le : n ≤ max x.length y.length
  len : z.length = n + 1
  sum : ∀ i, i < n → ∀ a, wm (w i) a = wm (wd x i) a + (if isAdd then 1 else -1) * wm (wd y i) a
  sumTriv : ∀ i, i < n → (w i).isTriv = ((wd x i).isTriv && (wd y i).isTriv)
  sumDom : ∀ F, Lin F → ∀ i, i < n → Dom F (wd x i) → Dom F (wd y i) → Dom F (w i)
  low : ∀ i, i < r → (wd x i).isTriv = true ∨ (wd y i).isTriv = true
  qLow : ∀ i, i < r → (q i).isTriv = true
  qHigh : ∀ i, r ≤ i → i < n → Lut (accOf pc (lut2 lutF4)) (carryIn r w i) (q i)
  zLow : ∀ i, i < r → wd z i = afterCarry w q i
  zHigh : ∀ i, r ≤ i → i < n →
    if refresh then Lut (accOf pc (lut2 lutId)) (afterCarry w q i) (wd z i) else wd z i = afterCarry w q i
  top : wd z n = q (n - 1)
  strip : n = max (x.length - lzero x) (y.length - lzero y)
  rdef : r = max (rzero x) (rzero y)
  sumWs : ∀ i, i < n → ws (w i) = ws (wd x i) ∪ ws (wd y i)

theorem AddShape.sumHist {pc : Cloud} {isAdd refresh : Bool} {x y z : Ctxt Term} {n r : Nat} {w q : Nat → Word Term}
    (h : AddShape pc isAdd refresh x y z n r w q) (P : Term → Prop) (i : Nat) (hi : i < n) (hx : Hist P (wd x i))
    (hy : Hist P (wd y i)) : Hist P (w i) := h.sumDom _ (lin_hist P) i hi hx hy

theorem addSub_shape' (pc : Cloud) (isAdd refresh : Bool) (x y : Ctxt Term) :
    Ensures (addSubImpl freeScheme isAdd pc x y refresh) fun z =>
      (rzero x = x.length ∧ z = if isAdd then y else oppositeImpl freeScheme y) ∨
      (rzero x ≠ x.length ∧ rzero y = y.length ∧ z = x) ∨
      (rzero x ≠ x.length ∧ rzero y ≠ y.length ∧ ∃ n r w q, AddShape pc isAdd refresh x y z n r w q) := by
  unfold addSubImpl
  refine Ensures.ite (fun h => Ensures.pure (.inl ⟨h, rfl⟩)) fun hx => ?_
  refine Ensures.ite (fun h => Ensures.pure (.inr (.inl ⟨hx, h, rfl⟩))) fun hy => ?_
  have hx1 := rzero_le x
  have hy1 := rzero_le y
  have hsx := rzero_lt_strip x (by omega)
  have hsy := rzero_lt_strip y (by omega)
  have hlx := lzero_le x
  have hly := lzero_le y
  obtain ⟨n, hn⟩ : ∃ n, n = max (x.length - lzero x) (y.length - lzero y) := ⟨_, rfl⟩
  obtain ⟨r, hr⟩ : ∃ n, n = max (rzero x) (rzero y) := ⟨_, rfl⟩
  dsimp only
  rw [← hn, ← hr]
  obtain ⟨w0, hw0⟩ : ∃ w0, w0 = x.take n ++ List.replicate (n - x.length) (encryptWordTriv Term pc 0) := ⟨_, rfl⟩
  have hl0 : w0.length = n := by rw [hw0]; simp; omega
  have hw0i : ∀ i (h : i < w0.length), (∀ a, wm w0[i] a = wm (wd x i) a) ∧ w0[i].isTriv = (wd x i).isTriv ∧
      (∀ F, Lin F → Dom F (wd x i) → Dom F w0[i]) ∧ ws w0[i] = ws (wd x i) := by
    intro i h
    by_cases hi : i < x.length
    · have : w0[i] = wd x i := by
        simp only [hw0]
        rw [List.getElem_append_left (by simp; omega), List.getElem_take, wd_lt hi]
      rw [this]; exact ⟨fun _ => rfl, rfl, fun _ _ h => h, rfl⟩
    · have : w0[i] = encryptWordTriv Term pc 0 := by
        simp only [hw0]
        rw [List.getElem_append_right (by simp; omega)]; simp
      rw [this, wd_ge (by omega)]
      exact ⟨fun _ => rfl, rfl, fun _ _ _ => Dom.triv rfl, rfl⟩
  obtain ⟨w, hw⟩ : ∃ w, w = if isAdd then zipInplace (Word.add freeScheme) w0 y
      else zipInplace (Word.sub freeScheme) w0 y := ⟨_, rfl⟩
  have hwl : w.length = n := by rw [hw]; cases isAdd <;> simp [length_zipInplace, hl0]
  have hwi : ∀ i (h : i < w.length), (∀ a, wm w[i] a = wm (wd x i) a + (if isAdd then 1 else -1) * wm (wd y i) a) ∧
      w[i].isTriv = ((wd x i).isTriv && (wd y i).isTriv) ∧
      (∀ F, Lin F → Dom F (wd x i) → Dom F (wd y i) → Dom F w[i]) ∧ ws w[i] = ws (wd x i) ∪ ws (wd y i) := by
    intro i h
    have hi0 : i < w0.length := by omega
    obtain ⟨g1, g2, g3, g4⟩ := hw0i i hi0
    by_cases hi : i < y.length
    · have e : w[i] = if isAdd then Word.add freeScheme w0[i] (wd y i) else Word.sub freeScheme w0[i] (wd y i) := by
        simp only [hw]
        cases isAdd
        · simp only [Bool.false_eq_true, if_false]
          rw [getElem_zipInplace _ _ _ _ _ hi0, dif_pos hi, wd_lt hi]
        · simp only [if_true]
          rw [getElem_zipInplace _ _ _ _ _ hi0, dif_pos hi, wd_lt hi]
      rw [e]
      cases isAdd
      · simp only [Bool.false_eq_true, if_false]
        refine ⟨fun a => ?_, ?_, fun F l h1 h2 => (g3 F l h1).sub l h2, by rw [ws_sub, g4]⟩
        · rw [wm_sub, g1]; omega
        · rw [isTriv_sub, g2]
      · simp only [if_true]
        refine ⟨fun a => ?_, ?_, fun F l h1 h2 => (g3 F l h1).add l h2, by rw [ws_add, g4]⟩
        · rw [wm_add, g1]; omega
        · rw [isTriv_add, g2]
    · have e : w[i] = w0[i] := by
        simp only [hw]
        cases isAdd
        · simp only [Bool.false_eq_true, if_false]
          rw [getElem_zipInplace _ _ _ _ _ hi0, dif_neg hi]
        · simp only [if_true]
          rw [getElem_zipInplace _ _ _ _ _ hi0, dif_neg hi]
      have ht : (wd y i).isTriv = true := wd_ge_triv (by omega)
      rw [e]
      refine ⟨fun a => ?_, ?_, fun F l h1 _ => g3 F l h1, by rw [g4, ws_triv ht, Finset.union_empty]⟩
      · rw [g1, wm_triv ht]; simp
      · rw [g2, ht]; simp
  rw [← hw0, ← hw]
  refine Ensures.ite (fun _ => Ensures.err _) fun _ => ?_
  have hrn : r < n := by omega
  let W : Nat → Word Term := fun i => wd w i
  have hW : ∀ i (h : i < w.length), W i = w[i] := fun i h => wd_lt h
  -- carries
  refine (Ensures.parFor (P := fun i0 q => Lut (accOf pc (lut2 lutF4)) (carryIn r W (i0 + r)) q) ?_).bind ?_
  · intro i0 hi0
    refine Ensures.idx.bind fun wi ⟨h1, e1⟩ => ?_
    have h1' : i0 + r < w.length := by simp at h1; omega
    have e1' : wi = W (i0 + r) := by
      rw [← e1, List.getElem_drop, hW _ h1']; congr 1; omega
    refine Ensures.bind (P := fun z => z = carryIn r W (i0 + r)) ?_ ?_
    · refine Ensures.ite (fun hpos => ?_) fun hpos => Ensures.pure ?_
      · refine Ensures.idx.bind fun wp ⟨h2, e2⟩ => Ensures.pure ?_
        rw [← e2, carryIn, if_pos (by omega), e1', hW _ h2]
      · rw [carryIn, if_neg (by omega), e1']
    · rintro z rfl
      exact lutUint
  rintro qHi ⟨hql, hq⟩
  obtain ⟨q, hqd⟩ : ∃ q, q = (trivCt Term pc n).take r ++ qHi := ⟨_, rfl⟩
  have hqHil : qHi.length = n - r := by rw [hql]; simp [trivCt]
  have hqlen : q.length = n := by rw [hqd]; simp [trivCt, hqHil]; omega
  let Q : Nat → Word Term := fun i => wd q i
  have hQ : ∀ i (h : i < q.length), Q i = q[i] := fun i h => wd_lt h
  have hQlow : ∀ i, i < r → (Q i).isTriv = true := by
    intro i hi
    rw [hQ i (by omega)]
    simp only [hqd]
    rw [List.getElem_append_left (by simp [trivCt]; omega)]
    simp [trivCt]; rfl
  have hQhigh : ∀ i, r ≤ i → i < n → Lut (accOf pc (lut2 lutF4)) (carryIn r W i) (Q i) := by
    intro i h1 h2
    have := hq (i - r) (by omega)
    rw [show i - r + r = i by omega] at this
    have e : Q i = qHi[i - r]'(by omega) := by
      rw [hQ i (by omega)]
      simp only [hqd]
      rw [List.getElem_append_right (by simp [trivCt]; omega)]
      congr 1
      simp [trivCt]; omega
    rw [e]; exact this
  rw [← hqd]
  -- adding the carries
  refine (Ensures.seqFor (P := fun i v => v = afterCarry W Q i) ?_).bind ?_
  · intro i hi
    refine Ensures.idx.bind fun qi ⟨h1, e1⟩ => ?_
    refine Ensures.ite (fun hpos => ?_) fun hpos => Ensures.pure ?_
    · refine Ensures.idx.bind fun qp ⟨h2, e2⟩ => Ensures.pure ?_
      rw [← e1, ← e2, afterCarry, if_pos (by omega), hW _ hi, hQ _ h1, hQ _ h2]
    · rw [← e1, afterCarry, if_neg (by omega), hW _ hi, hQ _ h1]
  rintro v ⟨hvl, hv⟩
  -- refreshing
  refine Ensures.bind (P := fun zHi => zHi.length = n - r ∧ ∀ i (h : i < zHi.length),
    if refresh then Lut (accOf pc (lut2 lutId)) (afterCarry W Q (i + r)) zHi[i] else zHi[i] = afterCarry W Q (i + r))
    ?_ ?_
  · refine Ensures.ite (fun hrf => ?_) fun hrf => Ensures.pure ?_
    · refine (Ensures.parFor (P := fun i0 z => Lut (accOf pc (lut2 lutId)) (afterCarry W Q (i0 + r)) z) ?_).mono ?_
      · intro i0 hi0
        refine Ensures.idx.bind fun vi ⟨h1, e1⟩ => ?_
        have h1' : i0 + r < v.length := by simp at h1; omega
        have : vi = afterCarry W Q (i0 + r) := by
          rw [← hv _ h1', ← e1, List.getElem_drop]; congr 1; omega
        rw [← this]
        exact lutUint
      · rintro z ⟨h1, h2⟩
        refine ⟨by rw [h1]; simp [trivCt], fun i hi => ?_⟩
        rw [if_pos hrf]; exact h2 i hi
    · refine ⟨by simp; omega, fun i hi => ?_⟩
      rw [if_neg hrf, List.getElem_drop, hv]
      congr 1; omega
  rintro zHi ⟨hzl, hz⟩
  have hne : q ≠ [] := by intro h; rw [h] at hqlen; simp at hqlen; omega
  rw [List.getLast?_eq_some_getLast hne]
  refine Ensures.pure (.inr (.inr ⟨hx, hy, n, r, W, Q, ?_⟩))
  have hzlow : (v.take r).length = r := by simp; omega
  refine ⟨hrn, by omega, by simp [hzl]; omega, ?_, ?_, ?_, ?_, hQlow, hQhigh, ?_, ?_, ?_, hn, hr, ?_⟩
  · intro i hi a; rw [hW i (by omega)]; exact (hwi i (by omega)).1 a
  · intro i hi; rw [hW i (by omega)]; exact (hwi i (by omega)).2.1
  · intro F l i hi; rw [hW i (by omega)]; exact (hwi i (by omega)).2.2.1 F l
  · intro i hi
    have : i < rzero x ∨ i < rzero y := by omega
    rcases this with h | h
    · left; rw [wd_lt (by omega)]; exact isTriv_of_zero (rzero_low x h (by omega))
    · right; rw [wd_lt (by omega)]; exact isTriv_of_zero (rzero_low y h (by omega))
  · intro i hi
    rw [wd_lt (by simp; omega), List.getElem_append_left (by simp; omega),
      List.getElem_append_left (by omega), List.getElem_take, hv]
  · intro i h1 h2
    have e : wd (v.take r ++ zHi ++ [q.getLast hne]) i = zHi[i - r]'(by omega) := by
      rw [wd_lt (by simp; omega), List.getElem_append_left (by simp; omega),
        List.getElem_append_right (by omega)]
      congr 1; omega
    rw [e]
    have := hz (i - r) (by omega)
    rwa [show i - r + r = i by omega] at this
  · rw [wd_lt (by simp; omega), List.getElem_append_right (by simp; omega)]
    simp only [List.getElem_singleton]
    rw [List.getLast_eq_getElem, hQ _ (by omega)]
    congr 1; omega
  · intro i hi; rw [hW i (by omega)]; exact (hwi i (by omega)).2.2.2

theorem allTriv_of_rzero {x : Ctxt Term} (h : rzero x = x.length) : ∀ w ∈ x, w.isTriv = true := by
  intro w hw
  obtain ⟨i, hi, rfl⟩ := List.mem_iff_getElem.1 hw
  exact isTriv_of_zero (rzero_low x (by omega) hi)

theorem addSub_shape (pc : Cloud) (isAdd refresh : Bool) (x y : Ctxt Term) :
    Ensures (addSubImpl freeScheme isAdd pc x y refresh) fun z =>
      ((∀ w ∈ x, w.isTriv = true) ∧ z = if isAdd then y else oppositeImpl freeScheme y) ∨
      ((∀ w ∈ y, w.isTriv = true) ∧ z = x) ∨
      ∃ n r w q, AddShape pc isAdd refresh x y z n r w q := by
  refine (addSub_shape' pc isAdd refresh x y).mono ?_
  rintro z (⟨h, e⟩ | ⟨_, h, e⟩ | ⟨_, _, h⟩)
  · exact .inl ⟨allTriv_of_rzero h, e⟩
  · exact .inr (.inl ⟨allTriv_of_rzero h, e⟩)
  · exact .inr (.inr h)

/-! ## Single samples -/

/-- every word is at most one sample -/
def Fresh (x : Ctxt Term) : Prop := ∀ i, One (wm (wd x i))

/-- different words have no common sample -/
def Sep (x : Ctxt Term) : Prop := ∀ i j, i ≠ j → Disj (wm (wd x i)) (wm (wd x j))

/-- the words of `x` have no sample in common with those of `y` -/
def Apart (x y : Ctxt Term) : Prop := ∀ i j, Disj (wm (wd x i)) (wm (wd y j))

/-- everything bootstrapped before satisfies `P` -/
def Past (P : Term → Prop) (x : Ctxt Term) : Prop := ∀ i, Hist P (wd x i)

theorem past_iff {P : Term → Prop} {x : Ctxt Term} : Past P x ↔ ∀ w ∈ x, Hist P w := by
  constructor
  · intro h w hw
    obtain ⟨i, hi, rfl⟩ := List.mem_iff_getElem.1 hw
    have := h i
    rwa [wd_lt hi] at this
  · intro h i
    by_cases hi : i < x.length
    · rw [wd_lt hi]; exact h _ (List.getElem_mem _)
    · exact Hist.triv (wd_ge_triv (by omega))

theorem wd_opp {x : Ctxt Term} (i : Nat) (hi : i < x.length) :
    wd (oppositeImpl freeScheme x) i = Word.opp freeScheme (wd x i) := by
  rw [wd_lt (by simpa [oppositeImpl] using hi), wd_lt hi]
  simp [oppositeImpl]

theorem wm_wd_opp (x : Ctxt Term) (i : Nat) (a : Term) : wm (wd (oppositeImpl freeScheme x) i) a = - wm (wd x i) a := by
  by_cases hi : i < x.length
  · rw [wd_opp i hi, wm_opp]
  · rw [wm_triv (wd_ge_triv (by simpa [oppositeImpl] using hi)), wm_triv (wd_ge_triv (by omega))]; simp

theorem Past.opp {P : Term → Prop} {x : Ctxt Term} (h : Past P x) : Past P (oppositeImpl freeScheme x) := by
  intro i
  by_cases hi : i < x.length
  · rw [wd_opp i hi]; exact (h i).opp
  · exact Hist.triv (wd_ge_triv (by simpa [oppositeImpl] using hi))

theorem One.congr {f g : Term → Int} (h : One f) (e : ∀ a, g a = f a) : One g := by
  have : g = f := funext e
  rwa [this]

theorem Disj.congr {f g f' g' : Term → Int} (h : Disj f g) (e : ∀ a, f' a = f a) (e' : ∀ a, g' a = g a) : Disj f' g' := by
  have h1 : f' = f := funext e
  have h2 : g' = g := funext e'
  rwa [h1, h2]

theorem Disj.neg {f g : Term → Int} (h : Disj f g) : Disj (fun a => - f a) g := by
  intro a; rcases h a with h | h
  · left; simp [h]
  · right; exact h

theorem Fresh.opp {x : Ctxt Term} (h : Fresh x) : Fresh (oppositeImpl freeScheme x) :=
  fun i => (h i).neg.congr (wm_wd_opp x i)

theorem Sep.opp {x : Ctxt Term} (h : Sep x) : Sep (oppositeImpl freeScheme x) :=
  fun i j hij => (h i j hij).neg.symm.neg.symm.congr (wm_wd_opp x i) (wm_wd_opp x j)

section
variable {pc : Cloud} {isAdd refresh : Bool} {x y z : Ctxt Term} {n r : Nat} {w q : Nat → Word Term}

theorem wm_carryIn (r : Nat) (w : Nat → Word Term) (i : Nat) (a : Term) :
    wm (carryIn r w i) a = 3 * wm (w i) a + if r < i then wm (w (i - 1)) a else 0 := by
  unfold carryIn
  split
  · rw [wm_add, wm_mulConst _ _ (by decide)]
  · rw [wm_mulConst _ _ (by decide)]; omega

theorem wm_afterCarry (w q : Nat → Word Term) (i : Nat) (a : Term) :
    wm (afterCarry w q i) a = wm (w i) a + (-2 * wm (q i) a + if 0 < i then wm (q (i - 1)) a else 0) := by
  unfold afterCarry
  split
  · rw [wm_add, wm_sub, wm_mulConst _ _ (by decide)]; omega
  · rw [wm_sub, wm_mulConst _ _ (by decide)]; omega

theorem AddShape.qOne (h : AddShape pc isAdd refresh x y z n r w q) (i : Nat) (hi : i < n) : One (wm (q i)) := by
  by_cases h1 : r ≤ i
  · exact (h.qHigh i h1 hi).one
  · rw [wm_triv (h.qLow i (by omega))]; exact One.zero

theorem L1.congr {f g : Term → Int} {B : Nat} (h : L1 f B) (e : ∀ a, g a = f a) : L1 g B := by
  have : g = f := funext e
  rwa [this]

theorem Q2.congr {f g : Term → Int} {B : Nat} (h : Q2 f B) (e : ∀ a, g a = f a) : Q2 g B := by
  have : g = f := funext e
  rwa [this]

theorem L1.if {f : Term → Int} {B : Nat} (c : Prop) [Decidable c] (h : L1 f B) : L1 (fun a => if c then f a else 0) B := by
  by_cases hc : c
  · simpa [hc] using h
  · simpa [hc] using L1.zero.mono (Nat.zero_le B)

theorem Q2.if {f : Term → Int} {B : Nat} (c : Prop) [Decidable c] (h : Q2 f B) : Q2 (fun a => if c then f a else 0) B := by
  by_cases hc : c
  · simpa [hc] using h
  · simpa [hc] using Q2.zero.mono (Nat.zero_le B)

theorem Disj.if {f g : Term → Int} (c : Prop) [Decidable c] (h : Disj f g) : Disj (fun a => if c then f a else 0) g := by
  by_cases hc : c
  · simpa [hc] using h
  · simpa [hc] using Disj.zero

/-- sign of the second operand -/
abbrev sg (isAdd : Bool) : Int := if isAdd then 1 else -1

theorem sg_abs (isAdd : Bool) : (sg isAdd).natAbs = 1 := by cases isAdd <;> rfl

/-- carry input, linear weight -/
theorem AddShape.carryL1 (h : AddShape pc isAdd refresh x y z n r w q) (hx : Fresh x) (hy : Fresh y) (i : Nat)
    (hi : i < n) : L1 (wm (carryIn r w i)) 8 := by
  have hw : ∀ i, i < n → L1 (wm (w i)) 2 := by
    intro i hi
    refine (((hx i).l1.add ((hy i).l1.scale (sg isAdd))).congr (h.sum i hi)).mono ?_
    rw [sg_abs]
  exact (((hw i hi).scale 3).add ((hw (i - 1) (by omega)).if (r < i))).congr (wm_carryIn r w i)

/-- refresh input, linear weight -/
theorem AddShape.refreshL1 (h : AddShape pc isAdd refresh x y z n r w q) (hx : Fresh x) (hy : Fresh y) (i : Nat)
    (hi : i < n) : L1 (wm (afterCarry w q i)) 5 := by
  have hw : L1 (wm (w i)) 2 := by
    refine (((hx i).l1.add ((hy i).l1.scale (sg isAdd))).congr (h.sum i hi)).mono ?_
    rw [sg_abs]
  exact (hw.add (((h.qOne i hi).l1.scale (-2)).add ((h.qOne (i - 1) (by omega)).l1.if (0 < i)))).congr
    (wm_afterCarry w q i)

theorem sum3 {A B : Term → Int} (hA : One A) (hB : One B) (hd : Disj A B) (c : Prop) [Decidable c] :
    Q2 (fun a => 3 * A a + if c then B a else 0) 10 :=
  (hA.q2.scale 3).disj (hB.q2.if c) ((hd.scale 3).symm.if c).symm

/-- carry input when each operand consists of different samples -/
theorem AddShape.carryQ40 (h : AddShape pc isAdd refresh x y z n r w q) (hx : Fresh x) (hy : Fresh y)
    (sx : Sep x) (sy : Sep y) (i : Nat) (hi : i < n) : Q2 (wm (carryIn r w i)) 40 := by
  by_cases hri : r < i
  · have h1 := sum3 (hx i) (hx (i - 1)) (sx i (i - 1) (by omega)) (r < i)
    have h2 := (sum3 (hy i) (hy (i - 1)) (sy i (i - 1) (by omega)) (r < i)).scale (sg isAdd)
    rw [sg_abs] at h2
    refine (h1.add h2).congr fun a => ?_
    rw [wm_carryIn, h.sum i hi, h.sum (i - 1) (by omega)]
    simp only [hri, if_true]
    ring
  · have h1 := (hx i).q2.scale 3
    have h2 := ((hy i).q2.scale 3).scale (sg isAdd)
    rw [sg_abs] at h2
    refine ((h1.add h2).mono (by decide)).congr fun a => ?_
    rw [wm_carryIn, h.sum i hi]
    simp only [hri, if_false]
    ring

/-- carry input when all words of both operands are different samples -/
theorem AddShape.carryQ20 (h : AddShape pc isAdd refresh x y z n r w q) (hx : Fresh x) (hy : Fresh y)
    (sx : Sep x) (sy : Sep y) (sxy : Apart x y) (i : Nat) (hi : i < n) : Q2 (wm (carryIn r w i)) 20 := by
  by_cases hri : r < i
  · have h1 := sum3 (hx i) (hx (i - 1)) (sx i (i - 1) (by omega)) (r < i)
    have h2 := (sum3 (hy i) (hy (i - 1)) (sy i (i - 1) (by omega)) (r < i)).scale (sg isAdd)
    rw [sg_abs] at h2
    refine ((h1.disj h2 ?_).mono (by decide)).congr fun a => ?_
    · refine Disj.symm (Disj.scale _ ?_)
      refine Disj.add ((Disj.symm ?_).scale 3) (Disj.if _ (Disj.symm ?_)) <;>
        exact Disj.add ((sxy _ _).scale 3) ((sxy _ _).if _)
    · rw [wm_carryIn, h.sum i hi, h.sum (i - 1) (by omega)]
      simp only [hri, if_true]
      ring
  · have h1 := (hx i).q2.scale 3
    have h2 := ((hy i).q2.scale 3).scale (sg isAdd)
    rw [sg_abs] at h2
    refine ((h1.disj h2 ?_).mono (by decide)).congr fun a => ?_
    · exact Disj.symm (Disj.scale _ (Disj.scale _ (Disj.symm ((sxy _ _).scale 3))))
    · rw [wm_carryIn, h.sum i hi]
      simp only [hri, if_false]
      ring

/-- refresh input when the operands have no sample in common -/
theorem AddShape.refreshQ22 (h : AddShape pc isAdd refresh x y z n r w q) (hx : Fresh x) (hy : Fresh y)
    (sxy : Apart x y) (i : Nat) (hi : i < n) : Q2 (wm (afterCarry w q i)) 22 := by
  have h1 := (hx i).q2
  have h2 := (hy i).q2.scale (sg isAdd)
  rw [sg_abs] at h2
  have hw : Q2 (wm (w i)) 2 := (h1.disj h2 ((sxy i i).symm.scale _).symm).congr (h.sum i hi)
  have hq : Q2 (fun a => -2 * wm (q i) a + if 0 < i then wm (q (i - 1)) a else 0) 9 :=
    (((h.qOne i hi).l1.scale (-2)).add ((h.qOne (i - 1) (by omega)).l1.if (0 < i))).q2
  exact (hw.add hq).congr (wm_afterCarry w q i)

/-- the words of a refreshed sum are single samples -/
theorem AddShape.fresh (h : AddShape pc isAdd true x y z n r w q) (hx : Fresh x) (hy : Fresh y) : Fresh z := by
  intro i
  by_cases hz : i < n
  · by_cases hri : r ≤ i
    · have := h.zHigh i hri hz
      simp only [if_true] at this
      exact this.one
    · rw [h.zLow i (by omega)]
      have e : ∀ a, wm (afterCarry w q i) a = wm (w i) a := by
        intro a
        rw [wm_afterCarry, wm_triv (h.qLow i (by omega)), wm_triv (h.qLow (i - 1) (by omega))]
        simp
      rcases h.low i (by omega) with ht | ht
      · have e2 : ∀ a, wm (w i) a = sg isAdd * wm (wd y i) a := by
          intro a; rw [h.sum i hz, wm_triv ht]; simp
        refine One.congr ?_ fun a => (e a).trans (e2 a)
        cases isAdd
        · exact (hy i).neg.congr fun a => by simp [sg]
        · exact (hy i).congr fun a => by simp [sg]
      · refine (hx i).congr fun a => (e a).trans ?_
        rw [h.sum i hz, wm_triv ht]; simp
  · by_cases hn : i = n
    · subst hn
      rw [h.top]; exact h.qOne _ (by have := h.lt; omega)
    · rw [wm_triv (wd_ge_triv (by rw [h.len]; omega))]; exact One.zero

/-- what was bootstrapped for the words of a sum -/
theorem AddShape.past (h : AddShape pc isAdd refresh x y z n r w q) {P : Term → Prop} (hx : Past P x) (hy : Past P y)
    (hc : ∀ i, i < n → ∀ t, (carryIn r w i).ct = .ct t → P t)
    (hv : refresh = true → ∀ i, i < n → ∀ t, (afterCarry w q i).ct = .ct t → P t) : Past P z := by
  have hw : ∀ i, i < n → Hist P (w i) := fun i hi => h.sumHist P i hi (hx i) (hy i)
  have hq : ∀ i, i < n → Hist P (q i) := by
    intro i hi
    by_cases hri : r ≤ i
    · refine (h.qHigh i hri hi).hist ?_ (hc i hi)
      unfold carryIn
      split
      · exact ((hw i hi).mulConst 3).add (hw _ (by omega))
      · exact (hw i hi).mulConst 3
    · exact Hist.triv (h.qLow i (by omega))
  have ha : ∀ i, i < n → Hist P (afterCarry w q i) := by
    intro i hi
    unfold afterCarry
    split
    · exact ((hw i hi).sub ((hq i hi).mulConst 2)).add (hq _ (by omega))
    · exact (hw i hi).sub ((hq i hi).mulConst 2)
  intro i
  by_cases hz : i < n
  · by_cases hri : r ≤ i
    · have := h.zHigh i hri hz
      cases hr : refresh with
      | false => simp only [hr, Bool.false_eq_true, if_false] at this; rw [this]; exact ha i hz
      | true =>
        simp only [hr, if_true] at this
        exact this.hist (ha i hz) (hv hr i hz)
    · rw [h.zLow i (by omega)]; exact ha i hz
  · by_cases hn : i = n
    · subst hn
      rw [h.top]; exact hq _ (by have := h.lt; omega)
    · exact Hist.triv (wd_ge_triv (by rw [h.len]; omega))

end

theorem Q2.of_ct {w : Word Term} {t : Term} {B : Nat} (h : Q2 (wm w) B) (e : w.ct = .ct t) : Q2 t.mult B := by
  rwa [wm_ct e] at h
theorem L1.of_ct {w : Word Term} {t : Term} {B : Nat} (h : L1 (wm w) B) (e : w.ct = .ct t) : L1 t.mult B := by
  rwa [wm_ct e] at h

/-- addition of single samples: results are single samples and everything bootstrapped has linear weight
at most 8 -/
theorem addSub_L1 {P : Term → Prop} (hP : ∀ t, L1 t.mult 8 → P t) (pc : Cloud) (isAdd : Bool) {x y : Ctxt Term}
    (hx : Fresh x) (hy : Fresh y) (px : Past P x) (py : Past P y) :
    Ensures (addSubImpl freeScheme isAdd pc x y true) fun z => Fresh z ∧ Past P z := by
  refine (addSub_shape pc isAdd true x y).mono ?_
  rintro z (⟨_, rfl⟩ | ⟨_, rfl⟩ | ⟨n, r, w, q, h⟩)
  · cases isAdd
    · exact ⟨hy.opp, py.opp⟩
    · exact ⟨hy, py⟩
  · exact ⟨hx, px⟩
  · exact ⟨h.fresh hx hy, h.past px py (fun i hi t e => hP t ((h.carryL1 hx hy i hi).of_ct e))
      fun _ i hi t e => hP t (((h.refreshL1 hx hy i hi).mono (by decide)).of_ct e)⟩

end Wt
end Parm
