import Verif.Proof.Value
import Verif.Props.Encryption
import Mathlib.Algebra.Order.Ring.Abs
import Verif.Model.Naf

/-!
# Signed recodings of scalars and their windows
-/

namespace Parm

/-- bit `i` of `k` -/
def bitAt (k i : Nat) : Int := ((k / 2 ^ i % 2 : Nat) : Int)

theorem bitAt_cases (k i : Nat) : bitAt k i = 0 ∨ bitAt k i = 1 := by
  unfold bitAt; omega

/-- number of ones among the first `n` bits -/
def popN (k : Nat) : Nat → Int
  | 0 => 0
  | n + 1 => popN k n + bitAt k n

/-- ones minus zeros among the first `n` bits -/
def excess (k n : Nat) : Int := 2 * popN k n - n

theorem excess_succ (k n : Nat) : excess k (n + 1) = excess k n + (2 * bitAt k n - 1) := by
  unfold excess; simp only [popN]; push_cast; ring

theorem excess_lip (k : Nat) (a : Nat) : ∀ n : Nat, excess k (a + n) ≤ excess k a + n ∧
    excess k a - n ≤ excess k (a + n)
  | 0 => by simp
  | n + 1 => by
    have ih := excess_lip k a n
    have := bitAt_cases k (a + n)
    rw [← Nat.add_assoc, excess_succ]
    push_cast
    omega

theorem mod_two_pow_succ (k j : Nat) :
    ((k % 2 ^ (j + 1) : Nat) : Int) = ((k % 2 ^ j : Nat) : Int) + bitAt k j * 2 ^ j := by
  have h : k % 2 ^ (j + 1) = k % 2 ^ j + 2 ^ j * (k / 2 ^ j % 2) := by
    rw [Nat.pow_succ, Nat.mod_mul]
  rw [h]; unfold bitAt; push_cast; ring

/-! ### Vectors under construction -/

/-- number of nonzero digits, for digits in {-1,0,1} -/
def wtN (d : Nat → Int) : Nat → Int
  | 0 => 0
  | n + 1 => wtN d n + |d n|

theorem wtN_congr {d d' : Nat → Int} : ∀ {n : Nat}, (∀ i, i < n → d i = d' i) → wtN d n = wtN d' n
  | 0, _ => rfl
  | n + 1, h => by
    simp only [wtN]
    rw [wtN_congr (fun i hi => h i (by omega)), h n (by omega)]

/-- the first `j` digits of `vec` represent the low `j` bits of `k` up to a carry `m` -/
structure KtInv (k : Nat) (vec : List Int) (j : Nat) (m : Int) : Prop where
  dig : ∀ i, i < j → IsDigit (vec.getD i 0)
  val : valueN (fun i => vec.getD i 0) j = ((k % 2 ^ j : Nat) : Int) - m * 2 ^ j

theorem getD_set_eq {vec : List Int} {j : Nat} (h : j < vec.length) (t : Int) :
    (vec.set j t).getD j 0 = t := by
  simp [List.getD_eq_getElem?_getD, h]

theorem getD_set_ne {vec : List Int} {i j : Nat} (h : i ≠ j) (t : Int) :
    (vec.set j t).getD i 0 = vec.getD i 0 := by
  simp [List.getD_eq_getElem?_getD, List.getElem?_set_ne h.symm]

/-- writing digit `j` -/
theorem KtInv.set {k : Nat} {vec : List Int} {j : Nat} {m : Int} (h : KtInv k vec j m)
    (hj : j < vec.length) {t m' : Int} (ht : t = bitAt k j + m - 2 * m') (hd : IsDigit t) :
    KtInv k (vec.set j t) (j + 1) m' ∧
    wtN (fun i => (vec.set j t).getD i 0) (j + 1) = wtN (fun i => vec.getD i 0) j + |t| := by
  have e : ∀ i, i < j → (vec.set j t).getD i 0 = vec.getD i 0 := fun i hi => getD_set_ne (by omega) t
  refine ⟨⟨?_, ?_⟩, ?_⟩
  · intro i hi
    by_cases hij : i = j
    · subst hij; rw [getD_set_eq hj]; exact hd
    · rw [getD_set_ne hij]; exact h.dig i (by omega)
  · show valueN _ j + (vec.set j t).getD j 0 * 2 ^ j = _
    rw [getD_set_eq hj, valueN_congr e, h.val, mod_two_pow_succ, ht, pow_succ]
    ring
  · show wtN _ j + |(vec.set j t).getD j 0| = _
    rw [getD_set_eq hj, wtN_congr e]

theorem fillWhile_spec {k : Nat} {f : Nat → M Int} {m : Int} (hm : m = 0 ∨ m = 1) :
    ∀ (n j : Nat) (vec : List Int), (∀ i, j ≤ i → i < j + n → Returns (f i) (bitAt k i - m) 0) →
    j + n ≤ vec.length → KtInv k vec j m →
    ∃ vec', Returns (fillWhile f n j vec) vec' 0 ∧ vec'.length = vec.length ∧ KtInv k vec' (j + n) m ∧
      wtN (fun i => vec'.getD i 0) (j + n) - popN k (j + n) + m * excess k (j + n)
        = wtN (fun i => vec.getD i 0) j - popN k j + m * excess k j
  | 0, j, vec, _, _, h => ⟨vec, Returns.pure _, rfl, h, rfl⟩
  | n + 1, j, vec, hf, hl, h => by
    have hb := bitAt_cases k j
    have hd : IsDigit (bitAt k j - m) := by
      unfold IsDigit; omega
    obtain ⟨h1, h2⟩ := h.set (t := bitAt k j - m) (m' := m) (by omega) (by ring) hd
    obtain ⟨vec', g1, g2, g3, g4⟩ := fillWhile_spec hm n (j + 1) (vec.set j (bitAt k j - m))
      (fun i hi hi' => hf i (by omega) (by omega)) (by rw [List.length_set]; omega) h1
    rw [show j + 1 + n = j + (n + 1) by omega] at g3 g4
    refine ⟨vec', ?_, by rw [g2, List.length_set], g3, ?_⟩
    · unfold fillWhile
      refine (hf j (by omega) (by omega)).bind0 ?_
      exact (Returns.setIdx (by omega)).bind0 g1
    · rw [g4, h2, excess_succ]
      simp only [popN]
      rcases hm with hm | hm <;> rcases hb with hb | hb <;> rw [hm, hb] <;> norm_num <;> ring

theorem Returns.u32Bit (b : Build) (k : Nat) {i : Nat} (hi : i < 32) :
    Returns (u32Bit b k i) (bitAt k i) 0 := by
  unfold Parm.u32Bit
  rw [if_pos hi]
  exact Returns.pure _

theorem Returns.u32BitPred (k : Nat) {i : Nat} (hi : i < 32) :
    Returns (u32BitPred .release k i) (bitAt k i - 1) 0 := by
  unfold Parm.u32BitPred
  refine (Returns.u32Bit .release k hi).bind0 ?_
  rcases bitAt_cases k i with h | h <;> rw [h]
  · refine Returns.bind0 (a := 2 ^ 32 - 1) ?_ ((Returns.pure _).congr (by decide) rfl)
    exact (Returns.pure _).congr (by decide) rfl
  · refine Returns.bind0 (a := 0) ?_ ((Returns.pure _).congr (by decide) rfl)
    exact (Returns.pure _).congr (by decide) rfl

/-! ### Lower bound for the weight of any representation -/

/-- Whoever writes the low `x` bits of `k` with digits in {-1,0,1} needs at least `t0` nonzero
digits if nothing is carried into position `x`, and at least `t1` if a one is. -/
def Low (k x : Nat) (t0 t1 : Int) : Prop :=
  ∀ (d : Nat → Int), (∀ i, IsDigit (d i)) →
    (valueN d x = ((k % 2 ^ x : Nat) : Int) → t0 ≤ wtN d x) ∧
    (valueN d x = ((k % 2 ^ x : Nat) : Int) - 2 ^ x → t1 ≤ wtN d x)

theorem Low.mono {k x : Nat} {t0 t1 t0' t1' : Int} (h : Low k x t0 t1) (h0 : t0' ≤ t0) (h1 : t1' ≤ t1) :
    Low k x t0' t1' := fun d hd =>
  ⟨fun e => le_trans h0 ((h d hd).1 e), fun e => le_trans h1 ((h d hd).2 e)⟩

theorem valueN_between {d : Nat → Int} (hd : ∀ i, IsDigit (d i)) : ∀ x : Nat,
    -(2 : Int) ^ x < valueN d x ∧ valueN d x < 2 ^ x
  | 0 => by simp [valueN]
  | x + 1 => by
    have ih := valueN_between hd x
    have hp : (0 : Int) < 2 ^ x := by positivity
    show -(2 : Int) ^ (x + 1) < valueN d x + d x * 2 ^ x ∧ valueN d x + d x * 2 ^ x < 2 ^ (x + 1)
    rw [pow_succ]
    rcases hd x with h | h | h <;> rw [h] <;> constructor <;> linarith

theorem Low.start (k : Nat) : Low k 0 0 1 := by
  intro d _
  refine ⟨fun _ => le_refl _, fun h => ?_⟩
  simp [valueN, Nat.mod_one] at h

theorem valueN_high (d : Nat → Int) (a : Nat) : ∀ n : Nat,
    valueN d (a + n) = valueN d a + 2 ^ a * valueN (fun i => d (a + i)) n
  | 0 => by simp [valueN]
  | n + 1 => by
    show valueN d (a + n) + d (a + n) * 2 ^ (a + n) = _ + 2 ^ a * (valueN _ n + d (a + n) * 2 ^ n)
    rw [valueN_high d a n, pow_add]; ring

theorem wtN_add (d : Nat → Int) (a : Nat) : ∀ n : Nat,
    wtN d (a + n) = wtN d a + wtN (fun i => d (a + i)) n
  | 0 => by simp [wtN]
  | n + 1 => by
    show wtN d (a + n) + |d (a + n)| = _ + (wtN _ n + |d (a + n)|)
    rw [wtN_add d a n]; ring

theorem wtN_pos (d : Nat → Int) : ∀ n : Nat, 0 ≤ wtN d n ∧ (valueN d n ≠ 0 → 1 ≤ wtN d n)
  | 0 => ⟨le_refl _, fun h => absurd rfl h⟩
  | n + 1 => by
    obtain ⟨h1, h2⟩ := wtN_pos d n
    have h3 := abs_nonneg (d n)
    refine ⟨add_nonneg h1 h3, fun h => ?_⟩
    show 1 ≤ wtN d n + |d n|
    by_cases hd : d n = 0
    · have : valueN d n ≠ 0 := by
        intro e; apply h
        show valueN d n + d n * 2 ^ n = 0
        rw [e, hd]; ring
      have := h2 this
      omega
    · have := abs_pos.mpr hd
      omega

/-- the carry into position `x` is 0 or 1 -/
theorem low_carry {k x : Nat} {d : Nat → Int} (hd : ∀ i, IsDigit (d i)) {c : Int}
    (h : valueN d x = ((k % 2 ^ x : Nat) : Int) - c * 2 ^ x) : c = 0 ∨ c = 1 := by
  have h1 := valueN_between hd x
  have h2 : ((k % 2 ^ x : Nat) : Int) < 2 ^ x := by
    have := Nat.mod_lt k (Nat.two_pow_pos x); exact_mod_cast this
  have h3 : (0 : Int) ≤ ((k % 2 ^ x : Nat) : Int) := by positivity
  have hp : (0 : Int) < 2 ^ x := by positivity
  generalize ((k % 2 ^ x : Nat) : Int) = q at *
  generalize (2 : Int) ^ x = p at *
  rw [h] at h1
  by_contra hc
  rcases lt_or_ge c 0 with h | h
  · nlinarith
  · have : 2 ≤ c := by omega
    nlinarith

theorem Low.step {k x : Nat} {t0 t1 : Int} (h : Low k x t0 t1) :
    (bitAt k x = 1 → Low k (x + 1) (t0 + 1) (min t1 (t0 + 1))) ∧
    (bitAt k x = 0 → Low k (x + 1) (min t0 (t1 + 1)) (t1 + 1)) := by
  have key : ∀ (d : Nat → Int), (∀ i, IsDigit (d i)) → ∀ c' : Int,
      valueN d (x + 1) = ((k % 2 ^ (x + 1) : Nat) : Int) - c' * 2 ^ (x + 1) →
      (2 * c' + d x - bitAt k x = 0 ∧ t0 ≤ wtN d x) ∨ (2 * c' + d x - bitAt k x = 1 ∧ t1 ≤ wtN d x) := by
    intro d hd c' e
    have e' : valueN d x = ((k % 2 ^ x : Nat) : Int) - (2 * c' + d x - bitAt k x) * 2 ^ x := by
      have e1 : valueN d (x + 1) = valueN d x + d x * 2 ^ x := rfl
      rw [e1, mod_two_pow_succ, pow_succ] at e
      linarith
    rcases low_carry hd e' with hc | hc
    · left; refine ⟨hc, (h d hd).1 ?_⟩; rw [e', hc]; ring
    · right; refine ⟨hc, (h d hd).2 ?_⟩; rw [e', hc]; ring
  have ab : ∀ (d : Nat → Int), (∀ i, IsDigit (d i)) → (d x = 0 ∧ |d x| = 0) ∨ (d x = 1 ∧ |d x| = 1) ∨ (d x = -1 ∧ |d x| = 1) := by
    intro d hd
    rcases hd x with e | e | e <;> rw [e] <;> simp
  constructor <;> intro hb d hd <;> have ha := ab d hd <;> refine ⟨fun e => ?_, fun e => ?_⟩ <;>
    show _ ≤ wtN d x + |d x|
  · rcases key d hd 0 (by rw [e]; ring) with ⟨h1, h2⟩ | ⟨h1, h2⟩ <;> rw [hb] at h1 <;> omega
  · rcases key d hd 1 (by rw [e]; ring) with ⟨h1, h2⟩ | ⟨h1, h2⟩ <;> rw [hb] at h1 <;> omega
  · rcases key d hd 0 (by rw [e]; ring) with ⟨h1, h2⟩ | ⟨h1, h2⟩ <;> rw [hb] at h1 <;> omega
  · rcases key d hd 1 (by rw [e]; ring) with ⟨h1, h2⟩ | ⟨h1, h2⟩ <;> rw [hb] at h1 <;> omega

theorem Low.one {k x : Nat} {t0 t1 a b : Int} (h : Low k x t0 t1) (hb : bitAt k x = 1)
    (h0 : a ≤ t0 + 1) (h1 : b ≤ t1) (h1' : b ≤ t0 + 1) : Low k (x + 1) a b :=
  (h.step.1 hb).mono h0 (le_min h1 h1')

theorem Low.zero {k x : Nat} {t0 t1 a b : Int} (h : Low k x t0 t1) (hb : bitAt k x = 0)
    (h0 : a ≤ t0) (h0' : a ≤ t1 + 1) (h1 : b ≤ t1 + 1) : Low k (x + 1) a b :=
  (h.step.2 hb).mono (le_min h0 h0') h1

/-! ### Koyama–Tsuruoka -/

/-- What the loop knows about all other representations: `W` is the weight of the digits
written so far minus the number of one bits they stand for. -/
def KtLow (k : Nat) (W : Int) (x : Nat) (h : Int) : Prop :=
  0 ≤ h ∧ h ≤ 2 ∧ Low k x (W + popN k x) (W + popN k x + 1 - h)

def KtLow' (k : Nat) (W : Int) (x : Nat) (h : Int) : Prop :=
  0 ≤ h ∧ h ≤ 2 ∧ Low k x (W + popN k x - excess k x + 1 - h) (W + popN k x - excess k x)

/-- invariant of the main loop -/
structure KtState (k kLen : Nat) (s : KtSt) : Prop where
  len : s.vec.length = kLen + 1
  base : KtInv k s.vec s.j s.m
  y : s.y = excess k s.x
  mode : (s.m = 0 ∧ s.j ≤ s.w ∧ s.w ≤ s.x ∧ s.z = excess k s.w ∧
      (∀ i, s.w ≤ i → i ≤ s.x → s.z ≤ excess k i) ∧
      wtN (fun i => s.vec.getD i 0) s.j - popN k s.j ≤ 0 ∧
      KtLow k (wtN (fun i => s.vec.getD i 0) s.j - popN k s.j) s.x (excess k s.x - s.z)) ∨
    (s.m = 1 ∧ s.j ≤ s.u ∧ s.u ≤ s.x ∧ s.v = excess k s.u ∧
      (∀ i, s.u ≤ i → i ≤ s.x → excess k i ≤ s.v) ∧
      wtN (fun i => s.vec.getD i 0) s.j - popN k s.j + excess k s.j + 2 ≤ s.v ∧
      KtLow' k (wtN (fun i => s.vec.getD i 0) s.j - popN k s.j + excess k s.j) s.x (s.v - excess k s.x))

/-! The loop and the final part for any way of reading the bits of `k` (`bit i` for `(k >> i) & 1`, `pred i` for this less one). -/

def ktStepG (bit pred : Nat → M Int) (s : KtSt) : M KtSt := do
  let bx ← bit s.x
  let y := if bx = 1 then s.y + 1 else s.y - 1
  let x := s.x + 1
  if s.m = 0 then
    if y ≥ s.z + 3 then do
      let vec ← fillWhile bit (s.w - s.j) s.j s.vec
      let j := max s.j s.w
      let vec ← setIdx vec j (-1)
      pure { s with vec := vec, j := j + 1, x := x, y := y, v := y, u := x, m := 1 }
    else if y < s.z then
      pure { s with x := x, y := y, z := y, w := x }
    else
      pure { s with x := x, y := y }
  else
    if s.v ≥ y + 3 then do
      let vec ← fillWhile pred (s.u - s.j) s.j s.vec
      let j := max s.j s.u
      let vec ← setIdx vec j 1
      pure { s with vec := vec, j := j + 1, x := x, y := y, z := y, w := x, m := 0 }
    else if y > s.v then
      pure { s with x := x, y := y, v := y, u := x }
    else
      pure { s with x := x, y := y }

def ktLoopG (bit pred : Nat → M Int) : Nat → KtSt → M KtSt
  | 0, s => pure s
  | n + 1, s => do
    let s ← ktStepG bit pred s
    ktLoopG bit pred n s

def ktFinishG (bit pred : Nat → M Int) (s : KtSt) : M (List Int) := do
  if s.m = 0 ∨ (s.m = 1 ∧ s.v ≤ s.y) then do
    let vec ← fillWhile (fun i => do
        let t ← bit i
        pure (t - s.m)) (s.x - s.j) s.j s.vec
    let j := max s.j s.x
    let vec ← setIdx vec j (1 - s.m)
    setIdx vec (j + 1) s.m
  else do
    let vec ← fillWhile pred (s.u - s.j) s.j s.vec
    let j := max s.j s.u
    let vec ← setIdx vec j 1
    let j := j + 1
    let vec ← fillWhile bit (s.x - j) j vec
    let j := max j s.x
    let vec ← setIdx vec j 1
    setIdx vec (j + 1) 0

def ktCoreG (bit pred : Nat → M Int) (kLen : Nat) : M (List Int) := do
  let s ← ktLoopG bit pred (kLen - 1)
    { vec := List.replicate (kLen + 1) 0, j := 0, m := 0, x := 0, y := 0, z := 0,
      u := 0, v := 0, w := 0 }
  let vec ← ktFinishG bit pred s
  pure (if vec.getLast? = some 0 then vec.dropLast else vec)

theorem ktLoop_eq (b : Build) (k : Nat) : ∀ (n : Nat) (s : KtSt), ktLoop b k n s = ktLoopG (u32Bit b k) (u32BitPred b k) n s
  | 0, _ => rfl
  | n + 1, s => by
    unfold ktLoop ktLoopG
    simp only [ktLoop_eq b k n]
    rfl

theorem koyamaTsuruokaVec_eq (b : Build) {k : Nat} (h0 : k ≠ 0) (h1 : k ≠ 1) :
    koyamaTsuruokaVec b k = ktCoreG (u32Bit b k) (u32BitPred b k) (bitLen32 (BitVec.ofNat 32 k)) := by
  unfold koyamaTsuruokaVec ktCoreG
  rw [if_neg h0, if_neg h1]
  simp only [ktLoop_eq]
  rfl

theorem ktStepG_spec {bit pred : Nat → M Int} {k kLen : Nat} (hbit : ∀ i < kLen, Returns (bit i) (bitAt k i) 0)
    (hpred : ∀ i < kLen, Returns (pred i) (bitAt k i - 1) 0) {s : KtSt} (h : KtState k kLen s)
    (hx : s.x + 1 < kLen) :
    ∃ s', Returns (ktStepG bit pred s) s' 0 ∧ KtState k kLen s' ∧ s'.x = s.x + 1 := by
  obtain ⟨hlen, hbase, hy, hmode⟩ := h
  obtain ⟨vec, j, m, x, y, z, u, v, w⟩ := s
  simp only at *
  have hbx := bitAt_cases k x
  have hy' : (if bitAt k x = 1 then y + 1 else y - 1) = excess k (x + 1) := by
    rw [excess_succ, ← hy]
    rcases hbx with h | h <;> rw [h] <;> norm_num
    omega
  have start : ∀ {r : KtSt} {g : Int → M KtSt}, Returns (g (bitAt k x)) r 0 →
      Returns (Bind.bind (bit x) g) r 0 :=
    fun hg => (hbit _ (by omega)).bind0 hg
  have hpx : popN k (x + 1) = popN k x + bitAt k x := rfl
  have hex := excess_succ k x
  rcases hmode with ⟨hm, hjw, hwx, hz, hmin, hwt, hl0, hl2, hlow⟩ | ⟨hm, hju, hux, hv, hmax, hwt, hl0, hl2, hlow⟩
  · subst hm
    by_cases h3 : excess k (x + 1) ≥ z + 3
    · -- switch to the borrowing mode
      have hw1 : w < x := by
        rcases Nat.lt_or_eq_of_le hwx with h | h
        · exact h
        · subst h; rw [excess_succ] at h3; omega
      have hbw : bitAt k w = 1 := by
        have := hmin (w + 1) (by omega) (by omega)
        rw [excess_succ] at this
        have := bitAt_cases k w
        omega
      obtain ⟨vec1, f1, f2, f3, f4⟩ := fillWhile_spec (k := k) (f := bit) (m := 0)
        (Or.inl rfl) (w - j) j vec
        (fun i _ hi => (hbit _ (by omega)).congr (by ring) rfl) (by omega) hbase
      rw [show j + (w - j) = w by omega] at f3 f4
      obtain ⟨g1, g2⟩ := f3.set (t := -1) (m' := 1) (by omega) (by rw [hbw]; norm_num) (by simp [IsDigit])
      refine ⟨⟨vec1.set w (-1), w + 1, 1, x + 1, excess k (x + 1), z, x + 1, excess k (x + 1), w⟩, ?_, ?_, rfl⟩
      · unfold ktStepG
        apply start
        simp only [hy', if_true, if_pos h3]
        refine f1.bind0 ?_
        rw [show max j w = w by omega]
        exact (Returns.setIdx (by omega)).bind0 (Returns.pure _)
      · refine ⟨by simp only [List.length_set]; omega, g1, rfl, Or.inr ⟨rfl, by simp only; omega, le_refl _,
          rfl, ?_, ?_, by simp, by simp, ?_⟩⟩
        · intro i h1 h2
          simp only at h1 h2 ⊢
          rw [show i = x + 1 by omega]
        · simp only
          rw [g2, excess_succ, hbw, ← hz]
          simp only [popN]
          rw [hbw]
          simp only [zero_mul, one_mul, add_zero, zero_add, abs_one, abs_neg, abs_zero, sub_self, sub_zero] at f4 ⊢
          omega
        · simp only
          have hb1 : bitAt k x = 1 := by omega
          rw [g2]
          have e1 : popN k (w + 1) = popN k w + 1 := by simp only [popN]; rw [hbw]
          have e2 : excess k (w + 1) = z + 1 := by rw [excess_succ, hbw, ← hz]; norm_num
          rw [e1, e2]
          simp only [zero_mul, one_mul, add_zero, zero_add, abs_one, abs_neg, abs_zero, sub_self, sub_zero] at f4 ⊢
          refine hlow.one hb1 ?_ ?_ ?_ <;> omega
    · by_cases hlt : excess k (x + 1) < z
      · refine ⟨⟨vec, j, 0, x + 1, excess k (x + 1), excess k (x + 1), u, v, x + 1⟩, ?_, ?_, rfl⟩
        · unfold ktStepG
          apply start
          simp only [hy', if_true, if_neg h3, if_pos hlt]
          exact Returns.pure _
        · refine ⟨hlen, hbase, rfl, Or.inl ⟨rfl, by simp only; omega, le_refl _, rfl, ?_, hwt,
            by simp, by simp, ?_⟩⟩
          · intro i h1 h2
            simp only at h1 h2 ⊢
            rw [show i = x + 1 by omega]
          · have hb0 : bitAt k x = 0 := by omega
            simp only
            refine hlow.zero hb0 ?_ ?_ ?_ <;> omega
      · refine ⟨⟨vec, j, 0, x + 1, excess k (x + 1), z, u, v, w⟩, ?_, ?_, rfl⟩
        · unfold ktStepG
          apply start
          simp only [hy', if_true, if_neg h3, if_neg hlt]
          exact Returns.pure _
        · refine ⟨hlen, hbase, rfl, Or.inl ⟨rfl, hjw, by simp only; omega, hz, ?_, hwt,
            by simp only; omega, by simp only; omega, ?_⟩⟩
          · intro i h1 h2
            simp only at h1 h2 ⊢
            by_cases hi : i ≤ x
            · exact hmin i h1 hi
            · rw [show i = x + 1 by omega]; omega
          · simp only
            rcases hbx with hb | hb
            · refine hlow.zero hb ?_ ?_ ?_ <;> omega
            · refine hlow.one hb ?_ ?_ ?_ <;> omega
  · subst hm
    by_cases h3 : v ≥ excess k (x + 1) + 3
    · have hu1 : u < x := by
        rcases Nat.lt_or_eq_of_le hux with h | h
        · exact h
        · subst h; rw [excess_succ] at h3; omega
      have hbu : bitAt k u = 0 := by
        have := hmax (u + 1) (by omega) (by omega)
        rw [excess_succ] at this
        have := bitAt_cases k u
        omega
      obtain ⟨vec1, f1, f2, f3, f4⟩ := fillWhile_spec (k := k) (f := pred) (m := 1)
        (Or.inr rfl) (u - j) j vec
        (fun i _ hi => hpred _ (by omega)) (by omega) hbase
      rw [show j + (u - j) = u by omega] at f3 f4
      obtain ⟨g1, g2⟩ := f3.set (t := 1) (m' := 0) (by omega) (by rw [hbu]; norm_num) (by simp [IsDigit])
      refine ⟨⟨vec1.set u 1, u + 1, 0, x + 1, excess k (x + 1), excess k (x + 1), u, v, x + 1⟩, ?_, ?_, rfl⟩
      · unfold ktStepG
        apply start
        simp only [hy', one_ne_zero, if_false, if_pos h3]
        refine f1.bind0 ?_
        rw [show max j u = u by omega]
        exact (Returns.setIdx (by omega)).bind0 (Returns.pure _)
      · refine ⟨by simp only [List.length_set]; omega, g1, rfl, Or.inl ⟨rfl, by simp only; omega, le_refl _,
          rfl, ?_, ?_, by simp, by simp, ?_⟩⟩
        · intro i h1 h2
          simp only at h1 h2 ⊢
          rw [show i = x + 1 by omega]
        · simp only
          rw [g2]
          simp only [popN]
          rw [hbu]
          simp only [zero_mul, one_mul, add_zero, zero_add, abs_one, abs_neg, abs_zero, sub_self, sub_zero] at f4 ⊢
          omega
        · simp only
          have hb0 : bitAt k x = 0 := by omega
          rw [g2]
          have e1 : popN k (u + 1) = popN k u := by simp only [popN]; rw [hbu]; ring
          rw [e1]
          simp only [zero_mul, one_mul, add_zero, zero_add, abs_one, abs_neg, abs_zero, sub_self, sub_zero] at f4 ⊢
          refine hlow.zero hb0 ?_ ?_ ?_ <;> omega
    · by_cases hlt : excess k (x + 1) > v
      · refine ⟨⟨vec, j, 1, x + 1, excess k (x + 1), z, x + 1, excess k (x + 1), w⟩, ?_, ?_, rfl⟩
        · unfold ktStepG
          apply start
          simp only [hy', one_ne_zero, if_false, if_neg h3, if_pos hlt]
          exact Returns.pure _
        · refine ⟨hlen, hbase, rfl, Or.inr ⟨rfl, by simp only; omega, le_refl _, rfl, ?_, ?_,
            by simp, by simp, ?_⟩⟩
          · intro i h1 h2
            simp only at h1 h2 ⊢
            rw [show i = x + 1 by omega]
          · simp only; omega
          · have hb1 : bitAt k x = 1 := by omega
            simp only
            refine hlow.one hb1 ?_ ?_ ?_ <;> omega
      · refine ⟨⟨vec, j, 1, x + 1, excess k (x + 1), z, u, v, w⟩, ?_, ?_, rfl⟩
        · unfold ktStepG
          apply start
          simp only [hy', one_ne_zero, if_false, if_neg h3, if_neg hlt]
          exact Returns.pure _
        · refine ⟨hlen, hbase, rfl, Or.inr ⟨rfl, hju, by simp only; omega, hv, ?_, hwt,
            by simp only; omega, by simp only; omega, ?_⟩⟩
          · intro i h1 h2
            simp only at h1 h2 ⊢
            by_cases hi : i ≤ x
            · exact hmax i h1 hi
            · rw [show i = x + 1 by omega]; omega
          · simp only
            rcases hbx with hb | hb
            · refine hlow.zero hb ?_ ?_ ?_ <;> omega
            · refine hlow.one hb ?_ ?_ ?_ <;> omega

theorem ktLoopG_spec {bit pred : Nat → M Int} {k kLen : Nat} (hbit : ∀ i < kLen, Returns (bit i) (bitAt k i) 0)
    (hpred : ∀ i < kLen, Returns (pred i) (bitAt k i - 1) 0) : ∀ (n : Nat) {s : KtSt}, KtState k kLen s →
    s.x + n < kLen → ∃ s', Returns (ktLoopG bit pred n s) s' 0 ∧ KtState k kLen s' ∧ s'.x = s.x + n
  | 0, s, h, _ => ⟨s, Returns.pure _, h, rfl⟩
  | n + 1, s, h, hx => by
    obtain ⟨s1, h1, h2, h3⟩ := ktStepG_spec hbit hpred h (by omega)
    obtain ⟨s2, g1, g2, g3⟩ := ktLoopG_spec hbit hpred n h2 (by omega)
    exact ⟨s2, h1.bind0 g1, g2, by omega⟩

theorem ktFinishG_spec {bit pred : Nat → M Int} {k kLen : Nat} (hbit : ∀ i < kLen, Returns (bit i) (bitAt k i) 0)
    (hpred : ∀ i < kLen, Returns (pred i) (bitAt k i - 1) 0) (h1k : 1 ≤ kLen) (hlow : 2 ^ (kLen - 1) ≤ k)
    (hhigh : k < 2 ^ kLen) {s : KtSt} (h : KtState k kLen s) (hx : s.x = kLen - 1) :
    ∃ vec, Returns (ktFinishG bit pred s) vec 0 ∧ vec.length = kLen + 1 ∧ KtInv k vec (kLen + 1) 0 ∧
      wtN (fun i => vec.getD i 0) (kLen + 1) ≤ popN k (kLen + 1) ∧
      (∃ t, Low k (kLen - 1) t t ∧ wtN (fun i => vec.getD i 0) (kLen + 1) ≤ t + 2) ∧
      (vec.getD kLen 0 = 1 ∨ (vec.getD kLen 0 = 0 ∧ vec.getD (kLen - 1) 0 = 1)) := by
  obtain ⟨hlen, hbase, hy, hmode⟩ := h
  obtain ⟨vec, j, m, x, y, z, u, v, w⟩ := s
  simp only at *
  obtain ⟨L, rfl⟩ : ∃ L, kLen = L + 1 := ⟨kLen - 1, by omega⟩
  simp only [Nat.add_sub_cancel] at hlow hx
  subst hx
  have hb1 : bitAt k x = 1 := by
    unfold bitAt
    have h1 : k / 2 ^ x < 2 := by
      rw [Nat.div_lt_iff_lt_mul (Nat.two_pow_pos x), ← Nat.pow_succ']; exact hhigh
    have h2 : 1 ≤ k / 2 ^ x := by
      rw [Nat.le_div_iff_mul_le (Nat.two_pow_pos x)]; omega
    have : k / 2 ^ x = 1 := by omega
    rw [this]; rfl
  have hb2 : bitAt k (x + 1) = 0 := by
    unfold bitAt
    rw [Nat.div_eq_of_lt hhigh]; rfl
  simp only [Nat.add_sub_cancel]
  by_cases hA : m = 0 ∨ (m = 1 ∧ v ≤ y)
  · have hm : m = 0 ∨ m = 1 := by omega
    have hjx : j ≤ x := by
      rcases hmode with h | h <;> omega
    obtain ⟨vec1, f1, f2, f3, f4⟩ := fillWhile_spec (k := k) (m := m)
      (f := fun i => do
        let t ← bit i
        pure (t - m)) hm (x - j) j vec
      (fun i _ hi => (hbit _ (by omega)).bind0 (Returns.pure _)) (by omega) hbase
    rw [show j + (x - j) = x by omega] at f3 f4
    obtain ⟨g1, g2⟩ := f3.set (t := 1 - m) (m' := m) (by omega) (by rw [hb1]; ring)
      (by unfold IsDigit; omega)
    obtain ⟨e1, e2⟩ := g1.set (t := m) (m' := 0) (by simp only [List.length_set]; omega)
      (by rw [hb2]; ring) (by unfold IsDigit; omega)
    refine ⟨(vec1.set x (1 - m)).set (x + 1) m, ?_, by simp only [List.length_set]; omega, e1, ?_, ?_, ?_⟩
    · unfold ktFinishG
      simp only [if_pos hA]
      refine f1.bind0 ?_
      rw [show max j x = x by omega]
      exact (Returns.setIdx (by omega)).bind0 (Returns.setIdx (by simp only [List.length_set]; omega))
    · rw [e2, g2]
      simp only [popN]
      rw [hb1, hb2]
      rcases hmode with ⟨h0, _, _, _, _, hwt, _⟩ | ⟨h0, hju, hux, hv, hmax, hwt, _⟩
      · subst h0
        simp only [zero_mul, one_mul, add_zero, zero_add, abs_one, abs_neg, abs_zero, sub_self, sub_zero] at f4 ⊢
        omega
      · subst h0
        simp only [zero_mul, one_mul, add_zero, zero_add, abs_one, abs_neg, abs_zero, sub_self, sub_zero] at f4 ⊢
        have : v ≤ y := by omega
        omega
    · rw [e2, g2]
      rcases hmode with ⟨h0, _, _, _, _, hwt, hl0, hl2, hlow⟩ | ⟨h0, hju, hux, hv, hmax, hwt, hl0, hl2, hlow⟩
      · subst h0
        simp only [zero_mul, one_mul, add_zero, zero_add, abs_one, abs_neg, abs_zero, sub_self, sub_zero] at f4 ⊢
        refine ⟨wtN (fun i => vec1.getD i 0) x - 1, hlow.mono ?_ ?_, ?_⟩ <;> omega
      · subst h0
        simp only [zero_mul, one_mul, add_zero, zero_add, abs_one, abs_neg, abs_zero, sub_self, sub_zero] at f4 ⊢
        refine ⟨wtN (fun i => vec1.getD i 0) x - 1, hlow.mono ?_ ?_, ?_⟩ <;> omega
    · rw [getD_set_eq (by simp only [List.length_set]; omega), getD_set_ne (by omega), getD_set_eq (by omega)]
      omega
  · rcases hmode with ⟨h0, _⟩ | ⟨h0, hju, hux, hv, hmax, hwt⟩
    · omega
    · obtain ⟨hwt, hl0, hl2, hlow'⟩ := hwt
      subst h0
      have hvy : y < v := by omega
      have hu1 : u < x := by
        rcases Nat.lt_or_eq_of_le hux with h | h
        · exact h
        · subst h; omega
      have hbu : bitAt k u = 0 := by
        have := hmax (u + 1) (by omega) (by omega)
        rw [excess_succ] at this
        have := bitAt_cases k u
        omega
      obtain ⟨vec1, f1, f2, f3, f4⟩ := fillWhile_spec (k := k) (f := pred) (m := 1)
        (Or.inr rfl) (u - j) j vec
        (fun i _ hi => hpred _ (by omega)) (by omega) hbase
      rw [show j + (u - j) = u by omega] at f3 f4
      obtain ⟨g1, g2⟩ := f3.set (t := 1) (m' := 0) (by omega) (by rw [hbu]; norm_num) (by simp [IsDigit])
      obtain ⟨vec2, p1, p2, p3, p4⟩ := fillWhile_spec (k := k) (f := bit) (m := 0)
        (Or.inl rfl) (x - (u + 1)) (u + 1) (vec1.set u 1)
        (fun i _ hi => (hbit _ (by omega)).congr (by ring) rfl)
        (by simp only [List.length_set]; omega) g1
      rw [show u + 1 + (x - (u + 1)) = x by omega] at p3 p4
      rw [List.length_set] at p2
      obtain ⟨q1, q2⟩ := p3.set (t := 1) (m' := 0) (by omega) (by rw [hb1]; norm_num) (by simp [IsDigit])
      obtain ⟨e1, e2⟩ := q1.set (t := 0) (m' := 0) (by simp only [List.length_set]; omega)
        (by rw [hb2]; ring) (by simp [IsDigit])
      refine ⟨(vec2.set x 1).set (x + 1) 0, ?_, by simp only [List.length_set]; omega, e1, ?_, ?_, ?_⟩
      · unfold ktFinishG
        rw [if_neg hA]
        refine f1.bind0 ?_
        rw [show max j u = u by omega]
        refine (Returns.setIdx (by omega)).bind0 ?_
        refine p1.bind0 ?_
        rw [show max (u + 1) x = x by omega]
        exact (Returns.setIdx (by omega)).bind0 (Returns.setIdx (by simp only [List.length_set]; omega))
      · rw [e2, q2]
        simp only [popN] at p4 ⊢
        rw [hb1, hb2]
        rw [g2, hbu] at p4
        simp only [zero_mul, one_mul, add_zero, zero_add, abs_one, abs_neg, abs_zero, sub_self, sub_zero] at f4 p4 ⊢
        omega
      · rw [e2, q2]
        simp only [popN] at p4 ⊢
        rw [g2, hbu] at p4
        simp only [zero_mul, one_mul, add_zero, zero_add, abs_one, abs_neg, abs_zero, sub_self, sub_zero] at f4 p4 ⊢
        refine ⟨wtN (fun i => vec2.getD i 0) x - 1, hlow'.mono ?_ ?_, ?_⟩ <;> omega
      · rw [getD_set_eq (by simp only [List.length_set]; omega), getD_set_ne (by omega), getD_set_eq (by omega)]
        omega


/-- number of nonzero digits of a list -/
theorem wtN_list : ∀ (l : List Int), (∀ d ∈ l, IsDigit d) →
    wtN (fun i => l.getD i 0) l.length = (l.countP (· ≠ 0) : Nat) := by
  intro l
  induction l using List.reverseRecOn with
  | nil => intro _; rfl
  | append_singleton l a ih =>
    intro h
    have ha : IsDigit a := h a (by simp)
    rw [List.length_append, List.length_singleton]
    show wtN _ l.length + |(l ++ [a]).getD l.length 0| = _
    rw [wtN_congr (d' := fun i => l.getD i 0) (fun i hi => by
      simp [List.getD_eq_getElem?_getD, List.getElem?_append_left hi]), ih (fun d hd => h d (by simp [hd]))]
    rw [List.countP_append]
    have e : (l ++ [a]).getD l.length 0 = a := by simp [List.getD_eq_getElem?_getD]
    rw [e]
    rcases ha with h | h | h <;> subst h <;> simp

theorem value_eq_getD (l : List Int) : value l = valueN (fun i => l.getD i 0) l.length :=
  value_eq_valueN (fun i hi => by simp [List.getD_eq_getElem?_getD, hi])

theorem KtInv.list {k : Nat} {vec : List Int} {m : Int} (h : KtInv k vec vec.length m) :
    (∀ d ∈ vec, IsDigit d) ∧ value vec = ((k % 2 ^ vec.length : Nat) : Int) - m * 2 ^ vec.length := by
  refine ⟨fun d hd => ?_, by rw [value_eq_getD, h.val]⟩
  obtain ⟨i, hi, rfl⟩ := List.getElem_of_mem hd
  have := h.dig i hi
  simpa [List.getD_eq_getElem?_getD, hi] using this

theorem popN_extend {k n : Nat} (hk : k < 2 ^ n) : popN k (n + 1) = popN k n := by
  show popN k n + bitAt k n = _
  unfold bitAt
  rw [Nat.div_eq_of_lt hk]; simp

theorem bitLen32_spec {k : Nat} (h0 : k ≠ 0) (hk : k < 2 ^ 32) :
    2 ^ (bitLen32 (BitVec.ofNat 32 k) - 1) ≤ k ∧ k < 2 ^ bitLen32 (BitVec.ofNat 32 k) ∧
    1 ≤ bitLen32 (BitVec.ofNat 32 k) ∧ bitLen32 (BitVec.ofNat 32 k) ≤ 32 := by
  have e : (BitVec.ofNat 32 k).toNat = k := by simp; exact hk
  have h := (C45_bit_len_32 (BitVec.ofNat 32 k)).2 (by
    intro h; rw [h] at e; simp at e; omega)
  rw [e] at h
  obtain ⟨L, hL⟩ : ∃ L, bitLen32 (BitVec.ofNat 32 k) = L := ⟨_, rfl⟩
  rw [hL] at h ⊢
  refine ⟨h.1, h.2, ?_, ?_⟩
  · rcases L with _ | L
    · simp at h; omega
    · omega
  · by_contra hc
    have : 2 ^ 32 ≤ 2 ^ (L - 1) := Nat.pow_le_pow_right (by norm_num) (by omega)
    omega

theorem getD_digit {r : List Int} (hr : ∀ d ∈ r, IsDigit d) (i : Nat) : IsDigit (r.getD i 0) := by
  rw [List.getD_eq_getElem?_getD]
  by_cases hi : i < r.length
  · rw [List.getElem?_eq_getElem hi]; exact hr _ (List.getElem_mem hi)
  · rw [List.getElem?_eq_none (by omega)]; simp [IsDigit]

/-- a list padded with zeros -/
theorem pad_list (r : List Int) (n : Nat) (hn : r.length ≤ n) :
    valueN (fun i => r.getD i 0) n = valueN (fun i => r.getD i 0) r.length ∧
    wtN (fun i => r.getD i 0) n = wtN (fun i => r.getD i 0) r.length := by
  obtain ⟨e, rfl⟩ : ∃ e, n = r.length + e := ⟨n - r.length, by omega⟩
  clear hn
  induction e with
  | zero => exact ⟨rfl, rfl⟩
  | succ e ih =>
    have h0 : r.getD (r.length + e) 0 = 0 := by
      rw [List.getD_eq_getElem?_getD, List.getElem?_eq_none (by omega)]; rfl
    refine ⟨?_, ?_⟩
    · show valueN _ (r.length + e) + r.getD (r.length + e) 0 * 2 ^ (r.length + e) = _
      rw [h0, ih.1]; ring
    · show wtN _ (r.length + e) + |r.getD (r.length + e) 0| = _
      rw [h0, ih.2]; simp

/-- a bound for the low digits bounds the whole representation -/
theorem Low.whole {k L : Nat} {t : Int} (h : Low k (L - 1) t t) (hL : 1 ≤ L) (h1 : 2 ^ (L - 1) ≤ k) (h2 : k < 2 ^ L)
    {r : List Int} (hr : ∀ d ∈ r, IsDigit d) (hv : value r = k) :
    t + 1 ≤ (r.countP (· ≠ 0) : Nat) := by
  obtain ⟨x, rfl⟩ : ∃ x, L = x + 1 := ⟨L - 1, by omega⟩
  simp only [Nat.add_sub_cancel] at h h1
  obtain ⟨n, hn⟩ : ∃ n, n = r.length + x := ⟨_, rfl⟩
  obtain ⟨d, hd⟩ : ∃ d : Nat → Int, d = fun i => r.getD i 0 := ⟨_, rfl⟩
  have hdig : ∀ i, IsDigit (d i) := fun i => by rw [hd]; exact getD_digit hr i
  obtain ⟨p1, p2⟩ := pad_list r (x + r.length) (by omega)
  rw [← value_eq_getD, hv, ← hd, valueN_high] at p1
  rw [wtN_list r hr, ← hd, wtN_add] at p2
  have hk : (k : Int) = ((k % 2 ^ x : Nat) : Int) + 2 ^ x := by
    have : k / 2 ^ x = 1 := by
      have a1 : k / 2 ^ x < 2 := by
        rw [Nat.div_lt_iff_lt_mul (Nat.two_pow_pos x), ← Nat.pow_succ']; exact h2
      have a2 : 1 ≤ k / 2 ^ x := by
        rw [Nat.le_div_iff_mul_le (Nat.two_pow_pos x)]; omega
      omega
    have e := Nat.div_add_mod k (2 ^ x)
    rw [this] at e
    have : ((2 ^ x * 1 + k % 2 ^ x : Nat) : Int) = k := by rw [e]
    push_cast at this ⊢
    linarith
  generalize hq : valueN (fun i => d (x + i)) r.length = q at p1
  have e : valueN d x = ((k % 2 ^ x : Nat) : Int) - (q - 1) * 2 ^ x := by
    rw [hk] at p1; linarith
  have hq0 : 1 ≤ wtN (fun i => d (x + i)) r.length := by
    refine (wtN_pos _ _).2 ?_
    rw [hq]
    rcases low_carry hdig e with h | h <;> omega
  have ht : t ≤ wtN d x := by
    rcases low_carry hdig e with hc | hc
    · exact (h d hdig).1 (by rw [e, hc]; ring)
    · exact (h d hdig).2 (by rw [e, hc]; ring)
  omega

/-- the recoding of a number of `L` bits -/
theorem ktCoreG_spec {bit pred : Nat → M Int} {k L : Nat} (hbit : ∀ i < L, Returns (bit i) (bitAt k i) 0)
    (hpred : ∀ i < L, Returns (pred i) (bitAt k i - 1) 0) (b3 : 1 ≤ L) (b1 : 2 ^ (L - 1) ≤ k) (b2 : k < 2 ^ L) :
    ∃ ds, Returns (ktCoreG bit pred L) ds 0 ∧ (∀ d ∈ ds, IsDigit d) ∧ value ds = k ∧
      ds.getLast? = some 1 ∧ ds.length ≤ L + 1 ∧ L ≤ ds.length ∧
      ((ds.countP (· ≠ 0) : Nat) : Int) ≤ popN k L ∧
      ∀ r : List Int, (∀ d ∈ r, IsDigit d) → value r = k →
        ds.countP (· ≠ 0) ≤ r.countP (· ≠ 0) + 1 := by
  unfold ktCoreG
  obtain ⟨s, s1, s2, s3⟩ := ktLoopG_spec hbit hpred (L - 1)
    (s := { vec := List.replicate (L + 1) 0, j := 0, m := 0, x := 0, y := 0, z := 0,
            u := 0, v := 0, w := 0 })
    ⟨by simp, ⟨fun i hi => absurd hi (by simp), by simp [valueN, Nat.mod_one]⟩, rfl,
      Or.inl ⟨rfl, le_refl _, le_refl _, rfl, fun i h1 h2 => by
        have : i = 0 := by simp only at h2; omega
        subst this; exact le_refl _, le_refl _, le_refl _, by simp [excess, popN],
        Low.start k⟩⟩ (by simp only; omega)
  obtain ⟨vec, f1, f2, f3, f4, ⟨t, f6, f7⟩, f5⟩ := ktFinishG_spec hbit hpred b3 b1 b2 s2 (by rw [s3]; simp)
  rw [popN_extend b2, ← f2] at f4
  rw [← f2] at f3
  obtain ⟨g1, g2⟩ := f3.list
  rw [wtN_list vec g1] at f4
  have f8 : ∀ r : List Int, (∀ d ∈ r, IsDigit d) → value r = k →
      vec.countP (· ≠ 0) ≤ r.countP (· ≠ 0) + 1 := by
    intro r hr hv
    have := f6.whole b3 b1 b2 hr hv
    rw [← f2, wtN_list vec g1] at f7
    omega
  have hk' : k < 2 ^ vec.length := by
    rw [f2, pow_succ]; omega
  rw [Nat.mod_eq_of_lt hk'] at g2
  obtain ⟨pre, a, rfl⟩ : ∃ pre a, vec = pre ++ [a] := by
    have : vec ≠ [] := by intro h; subst h; simp at f2
    exact ⟨vec.dropLast, vec.getLast this, (List.dropLast_append_getLast this).symm⟩
  have hpl : pre.length = L := by simpa using f2
  have ea : (pre ++ [a]).getD L 0 = a := by subst hpl; simp [List.getD_eq_getElem?_getD]
  rw [ea] at f5
  refine ⟨if (pre ++ [a]).getLast? = some 0 then (pre ++ [a]).dropLast else pre ++ [a], ?_, ?_⟩
  · exact s1.bind0 (f1.bind0 (Returns.pure _))
  · rw [List.getLast?_concat, List.dropLast_concat]
    by_cases haz : a = 0
    · subst haz
      rw [if_pos rfl]
      have hpre : pre.getLast? = some 1 := by
        rcases f5 with h | ⟨_, h⟩
        · omega
        · rw [List.getLast?_eq_getElem?, hpl]
          have hlt : L - 1 < pre.length := by omega
          rw [List.getD_eq_getElem?_getD, List.getElem?_append_left hlt, List.getElem?_eq_getElem hlt] at h
          rw [List.getElem?_eq_getElem hlt]
          simpa using h
      refine ⟨fun d hd => g1 d (by simp [hd]), ?_, hpre, by omega, by omega, ?_, ?_⟩
      · rw [value_append] at g2
        have : value [(0 : Int)] = 0 := by decide
        rw [this] at g2
        omega
      · rw [List.countP_append] at f4
        push_cast at f4
        have := (pre.countP (· ≠ 0)).zero_le
        simpa using f4
      · intro r hr hv
        have := f8 r hr hv
        rw [List.countP_append] at this
        omega
    · rw [if_neg (by simp [haz])]
      have ha1 : a = 1 := by omega
      subst ha1
      exact ⟨g1, by rw [g2]; ring, List.getLast?_concat .., by simp; omega, by simp; omega, f4, f8⟩

/-- the recoding, release build -/
theorem koyamaTsuruoka_spec {k : Nat} (h0 : k ≠ 0) (hk : k < 2 ^ 32) :
    ∃ ds, Returns (koyamaTsuruokaVec .release k) ds 0 ∧ (∀ d ∈ ds, IsDigit d) ∧ value ds = k ∧
      ds.getLast? = some 1 ∧ ds.length ≤ bitLen32 (BitVec.ofNat 32 k) + 1 ∧
      bitLen32 (BitVec.ofNat 32 k) ≤ ds.length ∧
      ((ds.countP (· ≠ 0) : Nat) : Int) ≤ popN k (bitLen32 (BitVec.ofNat 32 k)) ∧
      ∀ r : List Int, (∀ d ∈ r, IsDigit d) → value r = k →
        ds.countP (· ≠ 0) ≤ r.countP (· ≠ 0) + 1 := by
  obtain ⟨b1, b2, b3, b4⟩ := bitLen32_spec h0 hk
  by_cases h1 : k = 1
  · subst h1
    have : bitLen32 (BitVec.ofNat 32 1) = 1 := by decide +kernel
    rw [this]
    refine ⟨[1], Returns.pure _, by simp [IsDigit], by decide, rfl, by simp, by simp, by decide, fun r _ _ => ?_⟩
    simp
  · rw [koyamaTsuruokaVec_eq .release h0 h1]
    exact ktCoreG_spec (fun i hi => Returns.u32Bit .release k (by omega)) (fun i hi => Returns.u32BitPred k (by omega)) b3 b1 b2

/-! ### Windows -/

theorem skipZeros_spec {v : List Int} {sh : Nat} (hsh : sh < v.length)
    (hlast : v.getLast? = some 1) :
    sh ≤ skipZeros v sh ∧ skipZeros v sh < v.length ∧ v.getD (skipZeros v sh) 0 ≠ 0 ∧
    value (v.drop sh) = 2 ^ (skipZeros v sh - sh) * value (v.drop (skipZeros v sh)) := by
  unfold skipZeros
  obtain ⟨t, ht⟩ : ∃ t, v.drop sh = t := ⟨_, rfl⟩
  have htl : t.length = v.length - sh := by rw [← ht]; simp
  have htlast : t.getLast? = some 1 := by
    rw [← ht, List.getLast?_drop, if_neg (by omega)]; exact hlast
  have hdrop : ∀ a, v.drop (sh + a) = t.drop a := by
    intro a; rw [← ht, List.drop_drop]
  have hgetD : ∀ a, v.getD (sh + a) 0 = t.getD a 0 := by
    intro a; rw [← ht, List.getD_eq_getElem?_getD, List.getD_eq_getElem?_getD, List.getElem?_drop]
  rw [hdrop, hgetD, ht, Nat.add_sub_cancel_left]
  suffices H : (t.takeWhile (· == 0)).length < t.length ∧
      t.getD (t.takeWhile (· == 0)).length 0 ≠ 0 ∧
      value t = 2 ^ (t.takeWhile (· == 0)).length * value (t.drop (t.takeWhile (· == 0)).length) by
    exact ⟨by omega, by omega, H.2.1, H.2.2⟩
  clear ht hdrop hgetD htl
  induction t with
  | nil => simp at htlast
  | cons a t ih =>
    by_cases ha : a = 0
    · subst ha
      have : t.getLast? = some 1 := by
        cases t with
        | nil => simp at htlast
        | cons b t => simpa using htlast
      obtain ⟨h1, h2, h3⟩ := ih this
      rw [List.takeWhile_cons_of_pos (by simp)]
      simp only [List.length_cons, List.drop_succ_cons]
      refine ⟨by omega, by simpa using h2, ?_⟩
      rw [value_cons, h3, pow_succ]; ring
    · rw [List.takeWhile_cons_of_neg (by simpa using ha)]
      simp [ha]

theorem value_split (l : List Int) (a : Nat) (h : a ≤ l.length) :
    value l = value (l.take a) + 2 ^ a * value (l.drop a) := by
  conv_lhs => rw [← List.take_append_drop a l]
  rw [value_append, List.length_take, Nat.min_eq_left h]

theorem value_abs_lt {l : List Int} (h : ∀ d ∈ l, IsDigit d) : (value l).natAbs < 2 ^ l.length := by
  rw [value_eq_getD]
  exact valueN_abs_lt (fun i hi => by
    simp only [List.getD_eq_getElem?_getD, List.getElem?_eq_getElem hi]
    exact h _ (List.getElem_mem hi))

theorem windShiftsLoop_spec (b : Build) {kVec : List Int} {bitlen : Nat} (hb : 1 ≤ bitlen)
    (hb31 : bitlen ≤ 31) (hd : ∀ d ∈ kVec, IsDigit d) (hlast : kVec.getLast? = some 1) :
    ∀ (fuel sh : Nat), sh < kVec.length → kVec.length < sh + fuel →
    ∃ ws, Returns (windShiftsLoop b kVec bitlen fuel sh) ws 0 ∧
      (ws.map fun w => w.1 * 2 ^ w.2).sum = 2 ^ sh * value (kVec.drop sh) ∧
      (∀ w ∈ ws, w.1 % 2 = 1 ∧ w.1.natAbs < 2 ^ bitlen ∧ sh ≤ w.2 ∧ w.2 < kVec.length ∧
        w.1.natAbs < 2 ^ (kVec.length - w.2)) ∧
      ws.Pairwise (fun a c => a.2 + bitlen ≤ c.2) ∧ ws ≠ []
  | 0, sh, h, hf => by omega
  | fuel + 1, sh, h, hf => by
    obtain ⟨z1, z2, z3, z4⟩ := skipZeros_spec h hlast
    obtain ⟨s, hs⟩ : ∃ s, skipZeros kVec sh = s := ⟨_, rfl⟩
    rw [hs] at z1 z2 z3 z4
    obtain ⟨hi, hhi⟩ : ∃ hi, hi = (if s + bitlen - 1 ≥ kVec.length then kVec.length - 1
      else s + bitlen - 1) := ⟨_, rfl⟩
    have hhi1 : s ≤ hi ∧ hi < kVec.length ∧ hi + 1 - s ≤ bitlen ∧
        hi + 1 - s = min bitlen (kVec.length - s) := by
      rw [hhi]; split_ifs <;> omega
    have hw : ∀ d ∈ (kVec.drop s).take (hi + 1 - s), IsDigit d :=
      fun d h => hd d (List.mem_of_mem_drop (List.mem_of_mem_take h))
    have hwl : ((kVec.drop s).take (hi + 1 - s)).length = hi + 1 - s := by
      rw [List.length_take, List.length_drop]; omega
    have habs := value_abs_lt hw
    rw [hwl] at habs
    have hpw : 2 ^ (hi + 1 - s) ≤ 2 ^ bitlen := Nat.pow_le_pow_right (by norm_num) hhi1.2.2.1
    have hpw' : 2 ^ (hi + 1 - s) ≤ 2 ^ (kVec.length - s) := Nat.pow_le_pow_right (by norm_num) (by omega)
    have hp31 : (2 : Nat) ^ bitlen ≤ 2 ^ 31 := Nat.pow_le_pow_right (by norm_num) hb31
    have hwrap : wrapI32 (value ((kVec.drop s).take (hi + 1 - s))) =
        value ((kVec.drop s).take (hi + 1 - s)) := by
      unfold wrapI32
      rw [Int.bmod_eq_of_le] <;> omega
    have hodd : value ((kVec.drop s).take (hi + 1 - s)) % 2 = 1 := by
      obtain ⟨n, hn⟩ : ∃ n, hi + 1 - s = n + 1 := ⟨hi - s, by omega⟩
      rw [hn, List.drop_eq_getElem_cons z2, List.take_succ_cons, value_cons]
      have hz : kVec[s] ≠ 0 := by
        simpa [List.getD_eq_getElem?_getD, z2] using z3
      have := hd kVec[s] (List.getElem_mem z2)
      unfold IsDigit at this
      omega
    have hval := value_split (kVec.drop s) (hi + 1 - s) (by rw [List.length_drop]; omega)
    rw [List.drop_drop] at hval
    have hpow : (2 : Int) ^ sh * 2 ^ (s - sh) = 2 ^ s := by
      rw [← pow_add]; congr 1; omega
    have start : ∀ {r}, Returns (if s + bitlen ≥ kVec.length then
          pure [(value ((kVec.drop s).take (hi + 1 - s)), s)]
        else do
          let rest ← windShiftsLoop b kVec bitlen fuel (s + bitlen)
          pure ((value ((kVec.drop s).take (hi + 1 - s)), s) :: rest)) r 0 →
        Returns (windShiftsLoop b kVec bitlen (fuel + 1) sh) r 0 := by
      intro r hr
      unfold windShiftsLoop
      simp only [hs, ← hhi]
      rw [if_neg (by omega)]
      refine ((convertFromVec_ok b (by rw [hwl]; omega) hw).expect).bind0 ?_
      rw [hwrap]
      exact hr
    by_cases hend : s + bitlen ≥ kVec.length
    · refine ⟨[(value ((kVec.drop s).take (hi + 1 - s)), s)], start ?_, ?_, ?_, by simp, by simp⟩
      · rw [if_pos hend]; exact Returns.pure _
      · simp only [List.map_cons, List.map_nil, List.sum_cons, List.sum_nil, add_zero]
        rw [z4, ← mul_assoc, hpow]
        rw [List.drop_eq_nil_of_le (show kVec.length ≤ s + (hi + 1 - s) by omega), value_nil] at hval
        rw [hval]; ring
      · intro w hw
        rw [List.mem_singleton] at hw
        subst hw
        exact ⟨hodd, by simp only; omega, z1, z2, by simp only; omega⟩
    · obtain ⟨ws, r1, r2, r3, r4, r5⟩ := windShiftsLoop_spec b hb hb31 hd hlast fuel (s + bitlen)
        (by omega) (by omega)
      refine ⟨(value ((kVec.drop s).take (hi + 1 - s)), s) :: ws, start ?_, ?_, ?_, ?_, by simp⟩
      · rw [if_neg hend]; exact r1.bind0 (Returns.pure _)
      · simp only [List.map_cons, List.sum_cons]
        rw [r2, z4, ← mul_assoc, hpow, hval]
        have : hi + 1 - s = bitlen := by omega
        rw [this, pow_add]; ring
      · intro w hw
        rcases List.mem_cons.1 hw with h | h
        · subst h
          exact ⟨hodd, by simp only; omega, z1, z2, by simp only; omega⟩
        · have := r3 w h
          exact ⟨this.1, this.2.1, by omega, this.2.2.2⟩
      · rw [List.pairwise_cons]
        exact ⟨fun w hw => (r3 w hw).2.2.1, r4⟩

theorem windShifts_spec {k : Nat} (h0 : k ≠ 0) (hk : k < 2 ^ 32) {bitlen : Nat} (hb : 1 ≤ bitlen)
    (hb31 : bitlen ≤ 31) :
    ∃ ws, Returns (windShifts .release k bitlen) ws 0 ∧
      (ws.map fun w => w.1 * 2 ^ w.2).sum = (k : Int) ∧
      (∀ w ∈ ws, w.1 % 2 = 1 ∧ w.1.natAbs < 2 ^ bitlen ∧ w.2 ≤ bitLen32 (BitVec.ofNat 32 k) ∧
        w.1.natAbs < 2 ^ (bitLen32 (BitVec.ofNat 32 k) + 1 - w.2)) ∧
      ws.Pairwise (fun a c => a.2 + bitlen ≤ c.2) ∧ ws ≠ [] := by
  obtain ⟨ds, d1, d2, d3, d4, d5, _, _⟩ := koyamaTsuruoka_spec h0 hk
  have hpos : 0 < ds.length := by
    cases ds with
    | nil => simp at d4
    | cons => simp
  obtain ⟨ws, w1, w2, w3, w4, w5⟩ := windShiftsLoop_spec .release hb hb31 d2 d4 (ds.length + 1) 0 hpos (by omega)
  refine ⟨ws, d1.bind0 w1, ?_, fun w hw => ?_, w4, w5⟩
  · rw [w2, List.drop_zero, d3]; ring
  · have := w3 w hw
    have hp : 2 ^ (ds.length - w.2) ≤ 2 ^ (bitLen32 (BitVec.ofNat 32 k) + 1 - w.2) :=
      Nat.pow_le_pow_right (by norm_num) (by omega)
    exact ⟨this.1, this.2.1, by omega, by omega⟩

/-! ### `naf_vec` -/

/-- invariant of the loop of `naf_vec`: the digits below `low1` are final, the others are the
current run of ones; `K` is the number whose bits the loop reads -/
structure NafInv (K : Nat) (vec : List Int) (i low1 : Nat) : Prop where
  len : vec.length = i
  le : low1 ≤ i
  base : KtInv K vec low1 0
  run : ∀ l, low1 ≤ l → l < i → vec.getD l 0 = 1 ∧ bitAt K l = 1
  gap : 0 < low1 → bitAt K (low1 - 1) = 0

theorem KtInv.ext {k : Nat} {vec vec' : List Int} {j : Nat} {m : Int} (h : KtInv k vec j m)
    (e : ∀ i, i < j → vec'.getD i 0 = vec.getD i 0) : KtInv k vec' j m :=
  ⟨fun i hi => by rw [e i hi]; exact h.dig i hi, by rw [valueN_congr e]; exact h.val⟩

theorem getD_append_lt {v w : List Int} {i : Nat} (h : i < v.length) :
    (v ++ w).getD i 0 = v.getD i 0 := by
  simp [List.getD_eq_getElem?_getD, List.getElem?_append_left h]

theorem KtInv.grow {k : Nat} {vec : List Int} {j : Nat} {m m' : Int} (h : KtInv k vec j m)
    (ht : vec.getD j 0 = bitAt k j + m - 2 * m') (hd : IsDigit (vec.getD j 0)) :
    KtInv k vec (j + 1) m' := by
  refine ⟨fun i hi => ?_, ?_⟩
  · by_cases hij : i = j
    · subst hij; exact hd
    · exact h.dig i (by omega)
  · show valueN _ j + vec.getD j 0 * 2 ^ j = _
    rw [h.val, mod_two_pow_succ, ht, pow_succ]; ring

theorem NafInv.final {K : Nat} {vec : List Int} {i low1 : Nat} (h : NafInv K vec i low1) :
    KtInv K vec i 0 := by
  obtain ⟨hlen, hle, hbase, hrun, _⟩ := h
  clear hlen
  obtain ⟨n, rfl⟩ : ∃ n, i = low1 + n := ⟨i - low1, by omega⟩
  clear hle
  induction n with
  | zero => exact hbase
  | succ n ih =>
    have := hrun (low1 + n) (by omega) (by omega)
    refine (ih (fun l h1 h2 => hrun l h1 (by omega))).grow ?_ ?_
    · rw [this.1, this.2]; ring
    · rw [this.1]; simp [IsDigit]

theorem nafStep_spec (b : Build) {k K i : Nat} {vec : List Int} {low1 : Nat} (h : NafInv K vec i low1)
    (hbit : Returns (u32Bit b k i) (bitAt K i) 0) :
    ∃ vec' low1', Returns (nafStep b k i vec low1) (vec', low1') 0 ∧ NafInv K vec' (i + 1) low1' := by
  have hfin := h.final
  obtain ⟨hlen, hle, hbase, hrun, hgap⟩ := h
  have hlast : (vec ++ [bitAt K i]).getD i 0 = bitAt K i := by
    subst hlen; simp [List.getD_eq_getElem?_getD]
  have hpre : ∀ l, l < i → (vec ++ [bitAt K i]).getD l 0 = vec.getD l 0 := fun l hl =>
    getD_append_lt (by omega)
  have hl1 : (vec ++ [bitAt K i]).length = i + 1 := by simp [hlen]
  obtain ⟨vv, hvv⟩ : ∃ vv, vec ++ [bitAt K i] = vv := ⟨_, rfl⟩
  have begin_ : ∀ {r : List Int × Nat}, Returns (if bitAt K i = 0 then do
        let vec ← (if i - low1 > 1 then do
            let prev ← (if low1 > 0 then do
                let p ← idx vv (low1 - 1)
                pure (some p) else pure none : M (Option Int))
            let vec ← (if prev = some 1 then do
                let vec ← setIdx vv (low1 - 1) (-1)
                setIdx vec low1 0
              else setIdx vv low1 (-1) : M (List Int))
            let vec ← fillWhile (fun _ => pure 0) (i - (low1 + 1)) (low1 + 1) vec
            setIdx vec i 1
          else pure vv : M (List Int))
        pure (vec, i + 1)
      else pure (vv, low1)) r 0 → Returns (nafStep b k i vec low1) r 0 := by
    intro r hr
    unfold nafStep
    refine hbit.bind0 ?_
    simp only [hvv]
    exact hr
  rw [hvv] at hlast hpre hl1
  rcases bitAt_cases K i with hb | hb
  · by_cases hrunlen : i - low1 > 1
    · -- the run of ones is replaced
      have hlowbit : bitAt K low1 = 1 := (hrun low1 (le_refl _) (by omega)).2
      -- the state after the first write(s): carry 1 at `low1 + 1`
      have fin : ∀ {v1 : List Int}, v1.length = i + 1 → KtInv K v1 (low1 + 1) 1 →
          ∃ v2, Returns (fillWhile (fun _ => pure 0) (i - (low1 + 1)) (low1 + 1) v1) v2 0 ∧
            Returns (setIdx v2 i 1) (v2.set i 1) 0 ∧ NafInv K (v2.set i 1) (i + 1) (i + 1) := by
        intro v1 hv1 hk1
        obtain ⟨v2, f1, f2, f3, _⟩ := fillWhile_spec (k := K) (f := fun _ => pure 0) (m := 1)
          (Or.inr rfl) (i - (low1 + 1)) (low1 + 1) v1 (fun l h1 h2 => by
            rw [(hrun l (by omega) (by omega)).2]; exact Returns.pure _) (by omega) hk1
        rw [show low1 + 1 + (i - (low1 + 1)) = i by omega] at f3
        refine ⟨v2, f1, Returns.setIdx (by omega), ?_⟩
        obtain ⟨g1, _⟩ := f3.set (t := 1) (m' := 0) (by omega) (by rw [hb]; norm_num) (by simp [IsDigit])
        exact ⟨by rw [List.length_set]; omega, le_refl _, g1, fun l h1 h2 => by omega,
          fun _ => by rw [Nat.add_sub_cancel]; exact hb⟩
      by_cases hprev : 0 < low1 ∧ vv.getD (low1 - 1) 0 = 1
      · obtain ⟨hp0, hp1⟩ := hprev
        -- carry 1 below `low1 - 1`
        have hb0 : KtInv K vv (low1 - 1) 1 := by
          refine ⟨fun l hl => by rw [hpre l (by omega)]; exact hbase.dig l (by omega), ?_⟩
          have hv := hbase.val
          obtain ⟨q, rfl⟩ : ∃ q, low1 = q + 1 := ⟨low1 - 1, by omega⟩
          simp only [Nat.add_sub_cancel] at *
          have e : valueN (fun l => vec.getD l 0) (q + 1) =
              valueN (fun l => vec.getD l 0) q + vec.getD q 0 * 2 ^ q := rfl
          rw [e, mod_two_pow_succ, hgap hp0, ← hpre q (by omega), hp1] at hv
          rw [valueN_congr (fun l hl => hpre l (by omega))]
          linarith
        obtain ⟨g1, _⟩ := hb0.set (t := -1) (m' := 1) (by omega) (by rw [hgap hp0]; norm_num) (by simp [IsDigit])
        rw [show low1 - 1 + 1 = low1 by omega] at g1
        obtain ⟨g2, _⟩ := g1.set (t := 0) (m' := 1) (by rw [List.length_set]; omega)
          (by rw [hlowbit]; norm_num) (by simp [IsDigit])
        obtain ⟨v2, e1, e2, e3⟩ := fin (by simp [hl1]) g2
        refine ⟨_, _, begin_ ?_, e3⟩
        rw [if_pos hb, if_pos hrunlen, if_pos hp0]
        refine Returns.bind0 ?_ (Returns.pure _)
        refine Returns.bind0 (a := some (vv.getD (low1 - 1) 0)) ?_ ?_
        · refine (Returns.idx (show low1 - 1 < vv.length by omega)).bind0 ((Returns.pure _).congr ?_ rfl)
          rw [List.getD_eq_getElem]
        · rw [hp1, if_pos rfl]
          refine Returns.bind0 ((Returns.setIdx (by omega)).bind0 (Returns.setIdx (by rw [List.length_set]; omega))) ?_
          exact e1.bind0 e2
      · have hb0 : KtInv K vv low1 0 := hbase.ext (fun l hl => hpre l (by omega))
        obtain ⟨g1, _⟩ := hb0.set (t := -1) (m' := 1) (by omega) (by rw [hlowbit]; norm_num) (by simp [IsDigit])
        obtain ⟨v2, e1, e2, e3⟩ := fin (by simp [hl1]) g1
        refine ⟨_, _, begin_ ?_, e3⟩
        rw [if_pos hb, if_pos hrunlen]
        refine Returns.bind0 ?_ (Returns.pure _)
        refine Returns.bind0 (a := if low1 > 0 then some (vv.getD (low1 - 1) 0) else none) ?_ ?_
        · split_ifs with hp
          · refine (Returns.idx (show low1 - 1 < vv.length by omega)).bind0 ((Returns.pure _).congr ?_ rfl)
            rw [List.getD_eq_getElem]
          · exact Returns.pure _
        · rw [if_neg (by
            split_ifs with hp
            · intro hc; exact hprev ⟨hp, by simpa using hc⟩
            · simp)]
          exact (Returns.setIdx (by omega)).bind0 (e1.bind0 e2)
    · refine ⟨vv, i + 1, begin_ ?_, ?_⟩
      · rw [if_pos hb, if_neg hrunlen]
        exact (Returns.pure _).bind0 (Returns.pure _)
      · refine ⟨hl1, le_refl _, ?_, fun l h1 h2 => by omega, fun _ => by
          rw [Nat.add_sub_cancel]; exact hb⟩
        refine (hfin.ext hpre).grow ?_ ?_
        · rw [hlast]; ring
        · rw [hlast, hb]; simp [IsDigit]
  · refine ⟨vv, low1, begin_ ?_, ?_⟩
    · rw [if_neg (by omega)]; exact Returns.pure _
    · refine ⟨hl1, by omega, hbase.ext (fun l hl => hpre l (by omega)), fun l h1 h2 => ?_, hgap⟩
      by_cases hl : l = i
      · subst hl; exact ⟨by rw [hlast, hb], hb⟩
      · rw [hpre l (by omega)]; exact hrun l h1 (by omega)

theorem nafLoop_spec (b : Build) {k K : Nat} : ∀ (n i : Nat) {vec : List Int} {low1 : Nat},
    NafInv K vec i low1 → (∀ l, i ≤ l → l < i + n → Returns (u32Bit b k l) (bitAt K l) 0) →
    ∃ vec', Returns (nafLoop b k n i vec low1) vec' 0 ∧ vec'.length = i + n ∧ KtInv K vec' (i + n) 0
  | 0, i, vec, low1, h, _ => ⟨vec, Returns.pure _, h.len, h.final⟩
  | n + 1, i, vec, low1, h, hb => by
    obtain ⟨v1, l1, h1, h2⟩ := nafStep_spec b h (hb i (le_refl _) (by omega))
    obtain ⟨v2, g1, g2, g3⟩ := nafLoop_spec b n (i + 1) h2 (fun l hl hl' => hb l (by omega) (by omega))
    rw [show i + 1 + n = i + (n + 1) by omega] at g2 g3
    exact ⟨v2, h1.bind0 g1, g2, g3⟩

theorem nafVec_spec (b : Build) {k K : Nat} (h0 : k ≠ 0)
    (hK : K < 2 ^ (bitLen32 (BitVec.ofNat 32 k) + 1)) (h1 : k = 1 → K = 1)
    (hb : ∀ l, l ≤ bitLen32 (BitVec.ofNat 32 k) → Returns (u32Bit b k l) (bitAt K l) 0) :
    ∃ ds, Returns (nafVec b k) ds 0 ∧ (∀ d ∈ ds, IsDigit d) ∧ value ds = K ∧
      ds.length ≤ bitLen32 (BitVec.ofNat 32 k) + 1 := by
  unfold nafVec
  rw [if_neg h0]
  by_cases hk1 : k = 1
  · rw [if_pos hk1]
    exact ⟨[1], Returns.pure _, by simp [IsDigit], by rw [h1 hk1]; decide, by simp⟩
  · rw [if_neg hk1]
    obtain ⟨v, v1, v2, v3⟩ := nafLoop_spec b (k := k) (K := K) (bitLen32 (BitVec.ofNat 32 k) + 1) 0
      (vec := []) (low1 := 0)
      ⟨rfl, le_refl _, ⟨fun i hi => absurd hi (by simp), by simp [valueN, Nat.mod_one]⟩,
        fun l h1 h2 => by omega, fun h => by omega⟩ (fun l _ hl => hb l (by omega))
    rw [Nat.zero_add] at v2 v3
    rw [← v2] at v3
    obtain ⟨g1, g2⟩ := v3.list
    refine ⟨v, v1, g1, ?_, by omega⟩
    rw [g2, v2, Nat.mod_eq_of_lt hK]; ring

end Parm
