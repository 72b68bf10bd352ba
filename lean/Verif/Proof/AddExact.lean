import Verif.Proof.WeightsAdd
import Verif.Model.Multiplication

/-!
# The words of a sum and of a table of products, exactly

`AddShape` (`WeightsAdd.lean`) tells the multiplicities of samples in the words of a sum; here are the words themselves.
-/

namespace Parm
namespace Wt

/-- the result of a lookup in an encrypted word -/
def LutE (pc : Cloud) (acc : List (BitVec 64)) (w z : Word Term) : Prop :=
  ∀ t, w.ct = .ct t → z = ⟨.ct (.boot acc t), pc.msgMod⟩

theorem lutFloatE {pc : Cloud} {c : Word Term} {lut : List Int} :
    Ensures (evalLut5Float freeScheme pc c lut) (LutE pc (accOf pc lut) c) := by
  rcases hc : c.ct with t | p
  · unfold evalLut5Float
    rw [hc]
    refine (Ensures.trivial _).bind fun _ _ => ?_
    refine Ensures.ite (fun _ => Ensures.panic _) fun _ => Ensures.pure ?_
    intro t' e
    rw [hc] at e
    cases e
    rfl
  · refine (Ensures.trivial _).mono fun z _ t e => ?_
    rw [hc] at e
    cases e

theorem lutUintE {pc : Cloud} {c : Word Term} {lut : List Nat} :
    Ensures (evalLut5Uint freeScheme pc c lut) (LutE pc (accOf pc (lut2 lut)) c) := lutFloatE

/-- word `i`, the trivial zero beyond the end -/
def pd (pc : Cloud) (x : Ctxt Term) (i : Nat) : Word Term := x.getD i (encryptWordTriv Term pc 0)

theorem pd_lt {pc : Cloud} {x : Ctxt Term} {i : Nat} (h : i < x.length) : pd pc x i = x[i] := by
  simp [pd, List.getD, h]

theorem pd_ge {pc : Cloud} {x : Ctxt Term} {i : Nat} (h : x.length ≤ i) : pd pc x i = encryptWordTriv Term pc 0 := by
  simp [pd, List.getD, h]

/-- the sum of the words `i` before carries -/
def sumAt (pc : Cloud) (x y : Ctxt Term) (i : Nat) : Word Term :=
  if i < y.length then Word.add freeScheme (pd pc x i) (pd pc y i) else pd pc x i

/-- how the result `z` of an addition that takes no shortcut is made; cf. `AddShape` -/
structure AddExact (pc : Cloud) (x y z : Ctxt Term) (n r : Nat) (q : Nat → Word Term) : Prop where
  lt : r < n
  le : n ≤ max x.length y.length
  len : z.length = n + 1
  qLow : ∀ i, i < r → q i = encryptWordTriv Term pc 0
  qHigh : ∀ i, r ≤ i → i < n → LutE pc (accOf pc (lut2 lutF4)) (carryIn r (sumAt pc x y) i) (q i)
  zLow : ∀ i, i < r → pd pc z i = afterCarry (sumAt pc x y) q i
  zHigh : ∀ i, r ≤ i → i < n → LutE pc (accOf pc (lut2 lutId)) (afterCarry (sumAt pc x y) q i) (pd pc z i)
  top : pd pc z n = q (n - 1)
  strip : n = max (x.length - lzero x) (y.length - lzero y)
  rdef : r = max (rzero x) (rzero y)

theorem add_exact (pc : Cloud) (x y : Ctxt Term) :
    Ensures (addSubImpl freeScheme true pc x y true) fun z =>
      (rzero x = x.length ∧ z = y) ∨
      (rzero x ≠ x.length ∧ rzero y = y.length ∧ z = x) ∨
      (rzero x ≠ x.length ∧ rzero y ≠ y.length ∧ ∃ n r q, AddExact pc x y z n r q) := by
  unfold addSubImpl
  refine Ensures.ite (fun h => Ensures.pure (.inl ⟨h, rfl⟩)) fun hx => ?_
  refine Ensures.ite (fun h => Ensures.pure (.inr (.inl ⟨hx, h, rfl⟩))) fun hy => ?_
  have hx1 := rzero_le x
  have hy1 := rzero_le y
  have hsx := rzero_lt_strip x (by omega)
  have hsy := rzero_lt_strip y (by omega)
  have hlx := lzero_le x
  have hly := lzero_le y
  obtain ⟨n, hn⟩ : ∃ n, n = max (x.length - lzero x) (y.length - lzero y) := ⟨_, rfl⟩
  obtain ⟨r, hr⟩ : ∃ n, n = max (rzero x) (rzero y) := ⟨_, rfl⟩
  dsimp only
  rw [← hn, ← hr]
  simp only [if_true]
  obtain ⟨w0, hw0⟩ : ∃ w0, w0 = x.take n ++ List.replicate (n - x.length) (encryptWordTriv Term pc 0) := ⟨_, rfl⟩
  have hl0 : w0.length = n := by rw [hw0]; simp; omega
  have hw0i : ∀ i (h : i < w0.length), w0[i] = pd pc x i := by
    intro i h
    by_cases hi : i < x.length
    · simp only [hw0]
      rw [List.getElem_append_left (by simp; omega), List.getElem_take, pd_lt hi]
    · simp only [hw0]
      rw [List.getElem_append_right (by simp; omega), pd_ge (by omega)]; simp
  obtain ⟨w, hw⟩ : ∃ w, w = zipInplace (Word.add freeScheme) w0 y := ⟨_, rfl⟩
  have hwl : w.length = n := by rw [hw]; simp [length_zipInplace, hl0]
  have hwi : ∀ i (h : i < w.length), w[i] = sumAt pc x y i := by
    intro i h
    have hi0 : i < w0.length := by omega
    simp only [hw]
    rw [getElem_zipInplace _ _ _ _ _ hi0, hw0i i hi0]
    unfold sumAt
    by_cases hi : i < y.length
    · rw [dif_pos hi, if_pos hi, pd_lt hi]
    · rw [dif_neg hi, if_neg hi]
  rw [← hw0, ← hw]
  refine Ensures.ite (fun _ => Ensures.err _) fun _ => ?_
  have hrn : r < n := by omega
  have hW : ∀ i (h : i < w.length), sumAt pc x y i = w[i] := fun i h => (hwi i h).symm
  -- carries
  refine (Ensures.parFor (P := fun i0 q => LutE pc (accOf pc (lut2 lutF4)) (carryIn r (sumAt pc x y) (i0 + r)) q) ?_).bind ?_
  · intro i0 hi0
    refine Ensures.idx.bind fun wi ⟨h1, e1⟩ => ?_
    have h1' : i0 + r < w.length := by simp at h1; omega
    have e1' : wi = sumAt pc x y (i0 + r) := by
      rw [← e1, List.getElem_drop, hW _ h1']; congr 1; omega
    refine Ensures.bind (P := fun z => z = carryIn r (sumAt pc x y) (i0 + r)) ?_ ?_
    · refine Ensures.ite (fun hpos => ?_) fun hpos => Ensures.pure ?_
      · refine Ensures.idx.bind fun wp ⟨h2, e2⟩ => Ensures.pure ?_
        rw [← e2, carryIn, if_pos (by omega), e1', hW _ h2]
      · rw [carryIn, if_neg (by omega), e1']
    · rintro z rfl
      exact lutUintE
  rintro qHi ⟨hql, hq⟩
  obtain ⟨q, hqd⟩ : ∃ q, q = (trivCt Term pc n).take r ++ qHi := ⟨_, rfl⟩
  have hqHil : qHi.length = n - r := by rw [hql]; simp [trivCt]
  have hqlen : q.length = n := by rw [hqd]; simp [trivCt, hqHil]; omega
  let Q : Nat → Word Term := fun i => pd pc q i
  have hQ : ∀ i (h : i < q.length), Q i = q[i] := fun i h => pd_lt h
  have hQlow : ∀ i, i < r → Q i = encryptWordTriv Term pc 0 := by
    intro i hi
    rw [hQ i (by omega)]
    simp only [hqd]
    rw [List.getElem_append_left (by simp [trivCt]; omega)]
    simp [trivCt]
  have hQhigh : ∀ i, r ≤ i → i < n → LutE pc (accOf pc (lut2 lutF4)) (carryIn r (sumAt pc x y) i) (Q i) := by
    intro i h1 h2
    have := hq (i - r) (by omega)
    rw [show i - r + r = i by omega] at this
    have e : Q i = qHi[i - r]'(by omega) := by
      rw [hQ i (by omega)]
      simp only [hqd]
      rw [List.getElem_append_right (by simp [trivCt]; omega)]
      congr 1
      simp [trivCt]; omega
    rw [e]; exact this
  rw [← hqd]
  -- adding the carries
  refine (Ensures.seqFor (P := fun i v => v = afterCarry (sumAt pc x y) Q i) ?_).bind ?_
  · intro i hi
    refine Ensures.idx.bind fun qi ⟨h1, e1⟩ => ?_
    refine Ensures.ite (fun hpos => ?_) fun hpos => Ensures.pure ?_
    · refine Ensures.idx.bind fun qp ⟨h2, e2⟩ => Ensures.pure ?_
      rw [← e1, ← e2, afterCarry, if_pos (by omega), hW _ hi, hQ _ h1, hQ _ h2]
    · rw [← e1, afterCarry, if_neg (by omega), hW _ hi, hQ _ h1]
  rintro v ⟨hvl, hv⟩
  -- refreshing
  refine (Ensures.parFor (P := fun i0 z => LutE pc (accOf pc (lut2 lutId)) (afterCarry (sumAt pc x y) Q (i0 + r)) z) ?_).bind ?_
  · intro i0 hi0
    refine Ensures.idx.bind fun vi ⟨h1, e1⟩ => ?_
    have h1' : i0 + r < v.length := by simp at h1; omega
    have : vi = afterCarry (sumAt pc x y) Q (i0 + r) := by
      rw [← hv _ h1', ← e1, List.getElem_drop]; congr 1; omega
    rw [← this]
    exact lutUintE
  rintro zHi ⟨hzl, hz⟩
  have hzl : zHi.length = n - r := by rw [hzl]; simp [trivCt]
  have hne : q ≠ [] := by intro h; rw [h] at hqlen; simp at hqlen; omega
  rw [List.getLast?_eq_some_getLast hne]
  refine Ensures.pure (.inr (.inr ⟨hx, hy, n, r, Q, ?_⟩))
  have hzlow : (v.take r).length = r := by simp; omega
  refine ⟨hrn, by omega, by simp [hzl]; omega, hQlow, hQhigh, ?_, ?_, ?_, hn, hr⟩
  · intro i hi
    rw [pd_lt (by simp; omega), List.getElem_append_left (by simp; omega),
      List.getElem_append_left (by omega), List.getElem_take, hv]
  · intro i h1 h2
    have e : pd pc (v.take r ++ zHi ++ [q.getLast hne]) i = zHi[i - r]'(by omega) := by
      rw [pd_lt (by simp; omega), List.getElem_append_left (by simp; omega),
        List.getElem_append_right (by omega)]
      congr 1; omega
    rw [e]
    have := hz (i - r) (by omega)
    rwa [show i - r + r = i by omega] at this
  · rw [pd_lt (by simp; omega), List.getElem_append_right (by simp; omega)]
    simp only [List.getElem_singleton]
    rw [List.getLast_eq_getElem, hQ _ (by omega)]
    congr 1; omega

/-- the rows of the table of products -/
theorem fill_exact {pc : Cloud} {x y : Ctxt Term} (Q : Word Term → Word Term → Word Term → Prop) (hl : x.length = y.length)
    (h : ∀ i j (hi : i < x.length) (hj : j < y.length), Ensures (mulLwe freeScheme pc x[i] y[j]) (Q x[i] y[j])) :
    Ensures (fillMulary freeScheme pc x y) fun rows => rows.length = x.length ∧
      ∀ j (hj : j < rows.length) (hy : j < y.length), ∃ mid : Ctxt Term, mid.length = x.length ∧
        rows[j] = trivCt Term pc j ++ mid ++ trivCt Term pc (x.length - j) ∧
        ∀ i (hi : i < mid.length) (hx : i < x.length), Q x[i] y[j] mid[i] := by
  unfold fillMulary
  rw [if_neg (by simpa using hl)]
  refine (Ensures.parFor (P := fun j row => ∀ (hy : j < y.length), ∃ mid : Ctxt Term, mid.length = x.length ∧
        row = trivCt Term pc j ++ mid ++ trivCt Term pc (x.length - j) ∧
        ∀ i (hi : i < mid.length) (hx : i < x.length), Q x[i] y[j] mid[i]) ?_).mono ?_
  · intro j hj
    have hj : j < x.length := by simpa using hj
    refine Ensures.idx.bind fun yj ⟨h1, e1⟩ => ?_
    refine (Ensures.parFor (P := fun i w => ∀ hx : i < x.length, Q x[i] yj w) ?_).bind ?_
    · intro i hi
      refine Ensures.idx.bind fun xi ⟨h2, e2⟩ => ?_
      subst e1 e2
      exact (h i j h2 h1).expect.mono fun w hw _ => hw
    · rintro mid ⟨h2, h3⟩
      refine Ensures.pure fun hy => ⟨mid, ?_, ?_, ?_⟩
      · rw [h2]; simp [trivCt]; omega
      · congr 1
        · simp [trivCt]; omega
        · simp [trivCt]; omega
      · subst e1
        exact fun i hi hx => h3 i hi hx
  · rintro rows ⟨h1, h2⟩
    exact ⟨by simpa using h1, fun j hj hy => h2 j hj hy⟩

end Wt
end Parm
