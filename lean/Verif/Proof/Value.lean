import Verif.Proof.Pbs

/-!
# Values of digit functions, validity of ciphertexts
-/

namespace Parm

theorem valueN_congr {d d' : Nat → Int} : ∀ {n : Nat}, (∀ i, i < n → d i = d' i) →
    valueN d n = valueN d' n
  | 0, _ => rfl
  | n + 1, h => by
    show valueN d n + d n * 2 ^ n = valueN d' n + d' n * 2 ^ n
    rw [valueN_congr (fun i hi => h i (by omega)), h n (by omega)]

theorem valueN_add (d d' : Nat → Int) : ∀ n : Nat,
    valueN (fun i => d i + d' i) n = valueN d n + valueN d' n
  | 0 => rfl
  | n + 1 => by
    show valueN _ n + (d n + d' n) * 2 ^ n = (valueN d n + d n * 2 ^ n) + (valueN d' n + d' n * 2 ^ n)
    rw [valueN_add]; ring

theorem valueN_mul (c : Int) (d : Nat → Int) : ∀ n : Nat,
    valueN (fun i => c * d i) n = c * valueN d n
  | 0 => by simp [valueN]
  | n + 1 => by
    show valueN _ n + (c * d n) * 2 ^ n = c * (valueN d n + d n * 2 ^ n)
    rw [valueN_mul]; ring

theorem valueN_neg (d : Nat → Int) (n : Nat) : valueN (fun i => - d i) n = - valueN d n := by
  have := valueN_mul (-1) d n
  simpa using this

theorem valueN_sub (d d' : Nat → Int) (n : Nat) :
    valueN (fun i => d i - d' i) n = valueN d n - valueN d' n := by
  have h := valueN_add d (fun i => - d' i) n
  rw [valueN_neg] at h
  simpa [Int.sub_eq_add_neg] using h

theorem valueN_zero {d : Nat → Int} {n : Nat} (h : ∀ i, i < n → d i = 0) : valueN d n = 0 := by
  induction n with
  | zero => rfl
  | succ n ih =>
    show valueN d n + d n * 2 ^ n = 0
    rw [ih (fun i hi => h i (by omega)), h n (by omega)]; simp

/-- splitting into low and high digits -/
theorem valueN_split (d : Nat → Int) (k : Nat) : ∀ n : Nat,
    valueN d (k + n) = valueN d k + 2 ^ k * valueN (fun i => d (k + i)) n
  | 0 => by simp [valueN]
  | n + 1 => by
    show valueN d (k + n) + d (k + n) * 2 ^ (k + n)
      = valueN d k + 2 ^ k * (valueN (fun i => d (k + i)) n + d (k + n) * 2 ^ n)
    rw [valueN_split d k n, pow_add]; ring

/-- zeros above do not matter -/
theorem valueN_extend {d : Nat → Int} {n m : Nat} (hnm : n ≤ m)
    (h : ∀ i, n ≤ i → i < m → d i = 0) : valueN d m = valueN d n := by
  obtain ⟨k, rfl⟩ := Nat.exists_eq_add_of_le hnm
  rw [valueN_split, valueN_zero (d := fun i => d (n + i)) (fun i hi => h _ (by omega) (by omega))]
  simp

theorem valueN_abs_lt {d : Nat → Int} : ∀ {n : Nat}, (∀ i, i < n → IsDigit (d i)) →
    (valueN d n).natAbs < 2 ^ n
  | 0, _ => by simp [valueN]
  | n + 1, h => by
    have ih := valueN_abs_lt (d := d) (n := n) (fun i hi => h i (by omega))
    have hn := h n (by omega)
    show (valueN d n + d n * 2 ^ n).natAbs < 2 ^ (n + 1)
    have e : ((2 ^ n : Nat) : Int) = 2 ^ n := by push_cast; rfl
    rw [pow_succ]
    rcases hn with h | h | h <;> rw [h] <;> omega

theorem value_eq_valueN {l : List Int} {d : Nat → Int} (h : ∀ i (hi : i < l.length), l[i] = d i) :
    value l = valueN d l.length := by
  unfold value
  apply valueN_congr
  intro i hi
  simp [hi, h i hi]

theorem value_nil : value [] = 0 := rfl

theorem value_cons (a : Int) (l : List Int) : value (a :: l) = a + 2 * value l := by
  unfold value
  rw [List.length_cons, Nat.add_comm, valueN_split]
  have : valueN (fun i => (a :: l).getD i 0) 1 = a := by simp [valueN]
  rw [this]
  have e : (fun i => (a :: l).getD (1 + i) 0) = fun i => l.getD i 0 := by
    funext i
    rw [Nat.add_comm]
    simp
  rw [e]
  norm_num

theorem value_append (l r : List Int) : value (l ++ r) = value l + 2 ^ l.length * value r := by
  induction l with
  | nil => simp [value_nil]
  | cons a l ih =>
    rw [List.cons_append, value_cons, value_cons, ih, List.length_cons, pow_succ]; ring

theorem value_replicate_zero (n : Nat) : value (List.replicate n 0) = 0 := by
  induction n with
  | zero => rfl
  | succ n ih => rw [List.replicate_succ, value_cons, ih]; rfl

/-! ### Word operations on messages -/

section
variable {S : Scheme} {ck : ClientKey S} {pc : Cloud} {B D : Nat}

theorem WordEnc.add (st : Setting S ck pc B D) {a b : Word S.C} {m m' : Int} {k k' : Nat}
    (ha : WordEnc ck B a m k) (hb : WordEnc ck B b m' k') :
    WordEnc ck B (Word.add S a b) (m + m') (k + k') := by
  rw [wordEnc_iff] at *
  have := ha.add st.sound hb
  rwa [← Int.mul_add] at this

theorem WordEnc.sub (st : Setting S ck pc B D) {a b : Word S.C} {m m' : Int} {k k' : Nat}
    (ha : WordEnc ck B a m k) (hb : WordEnc ck B b m' k') :
    WordEnc ck B (Word.sub S a b) (m - m') (k + k') := by
  rw [wordEnc_iff] at *
  have := ha.sub st.sound hb
  rwa [← Int.mul_sub] at this

theorem WordEnc.opp (st : Setting S ck pc B D) {a : Word S.C} {m : Int} {k : Nat}
    (ha : WordEnc ck B a m k) : WordEnc ck B (Word.opp S a) (-m) k := by
  rw [wordEnc_iff] at *
  have := ha.opp st.sound
  rwa [show 2 * -m = -(2 * m) by ring]

theorem WordEnc.mulConst (st : Setting S ck pc B D) {a : Word S.C} {m : Int} {k : Nat}
    (ha : WordEnc ck B a m k) (c : Int) (hc : c.natAbs < 2 ^ 31) :
    WordEnc ck B (Word.mulConst S a c) (c * m) (c.natAbs * k) := by
  rw [wordEnc_iff] at *
  have := ha.mulConst st.sound c hc
  rwa [show 2 * (c * m) = c * (2 * m) by ring]

theorem WordEnc.triv (st : Setting S ck pc B D) (m : Int) (k : Nat) :
    WordEnc ck B (encryptWordTriv S.C pc m) m k := by
  rw [wordEnc_iff]
  exact Enc2.triv st.msgMod m k

/-- a trivial word is exact -/
theorem WordEnc.of_isTriv {w : Word S.C} {m : Int} {k : Nat} (h : WordEnc ck B w m k)
    (ht : w.isTriv = true) (k' : Nat) : WordEnc ck B w m k' := by
  obtain ⟨wc, wm⟩ := w
  cases wc with
  | ct c => cases ht
  | triv p => exact h

theorem WordEnc.of_isTrivZero {w : Word S.C} {m : Int} {k : Nat} (h : WordEnc ck B w m k)
    (ht : w.isTrivZero = true) : m % 32 = 0 ∧ WordEnc ck B w m 0 := by
  obtain ⟨wc, wm⟩ := w
  cases wc with
  | ct c => cases ht
  | triv p =>
    refine ⟨?_, h⟩
    have hp : p = 0#64 := by simpa [Word.isTrivZero] using ht
    have h2 : p = BitVec.ofInt 64 (m * 2 ^ 59) := h.2
    rw [hp] at h2
    have h3 : BitVec.ofInt 64 0 = BitVec.ofInt 64 (m * 2 ^ 59) := by rw [← h2]; rfl
    obtain ⟨t, ht⟩ := (ofInt_eq_iff _ _).1 h3
    norm_num at ht
    omega

theorem isTriv_add (a b : Word S.C) : (Word.add S a b).isTriv = (a.isTriv && b.isTriv) := by
  obtain ⟨ac, am⟩ := a
  obtain ⟨bc, bm⟩ := b
  cases ac <;> cases bc <;> rfl

theorem isTriv_opp (a : Word S.C) : (Word.opp S a).isTriv = a.isTriv := by
  obtain ⟨ac, am⟩ := a
  cases ac <;> rfl

theorem isTriv_sub (a b : Word S.C) : (Word.sub S a b).isTriv = (a.isTriv && b.isTriv) := by
  unfold Word.sub
  rw [isTriv_add, isTriv_opp]

theorem isTriv_mulConst (a : Word S.C) (k : Int) : (Word.mulConst S a k).isTriv = a.isTriv := by
  obtain ⟨ac, am⟩ := a
  unfold Word.mulConst
  cases ac <;> by_cases h : k < 0 <;> simp [h] <;> rfl

theorem IsDigit.opp {d : Int} (h : IsDigit d) : IsDigit (-d) := by
  rcases h with h | h | h <;> subst h <;> simp [IsDigit]

theorem IsDigit.zero_of_mod {d : Int} (h : IsDigit d) (h0 : d % 32 = 0) : d = 0 := by
  rcases h with h | h | h <;> subst h <;> simp_all

theorem isDigit_zero : IsDigit 0 := by simp [IsDigit]

/-- digits can be chosen zero beyond the end -/
theorem Valid.canon {x : Ctxt S.C} {v : Int} (h : Valid ck B x v) :
    ∃ d, Holds ck B 1 x d ∧ (∀ i, IsDigit (d i)) ∧ (∀ i, x.length ≤ i → d i = 0) ∧
      ∀ n, x.length ≤ n → valueN d n = v := by
  obtain ⟨d, hd, hv⟩ := h
  refine ⟨fun i => if i < x.length then d i else 0, ?_, ?_, ?_, ?_⟩
  · intro i hi; simpa [hi] using hd i hi
  · intro i
    by_cases hi : i < x.length
    · simpa [hi] using (hd i hi).2
    · simp [hi, isDigit_zero]
  · intro i hi; simp; omega
  · intro n hn
    rw [valueN_extend hn (by intro i h1 _; simp; omega), ← hv]
    apply valueN_congr
    intro i hi; simp [hi]

theorem Valid.abs_lt {x : Ctxt S.C} {v : Int} (h : Valid ck B x v) : v.natAbs < 2 ^ x.length := by
  obtain ⟨d, hd, rfl⟩ := h
  exact valueN_abs_lt (fun i hi => (hd i hi).2)

theorem Valid.nil : Valid ck B ([] : Ctxt S.C) 0 := ⟨fun _ => 0, fun i h => by simp at h, rfl⟩

theorem Valid.congr {x : Ctxt S.C} {v v' : Int} (h : Valid ck B x v) (e : v = v') :
    Valid ck B x v' := e ▸ h

end

end Parm
