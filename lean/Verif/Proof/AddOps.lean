import Verif.Proof.Encryption

/-!
# Addition in all cases, shift, addition of a constant
-/

namespace Parm
section
variable {S : Scheme} {ck : ClientKey S} {pc : Cloud} {B D : Nat}

theorem addSub_left_zero {isAdd refresh : Bool} {x y : Ctxt S.C} (h : rzero x = x.length) :
    Returns (addSubImpl S isAdd pc x y refresh) (if isAdd then y else oppositeImpl S y) 0 := by
  unfold addSubImpl
  simp only [h, if_true]
  exact Returns.pure _

theorem addSub_right_zero {isAdd refresh : Bool} {x y : Ctxt S.C} (hx : rzero x ≠ x.length)
    (h : rzero y = y.length) : Returns (addSubImpl S isAdd pc x y refresh) x 0 := by
  unfold addSubImpl
  simp only [hx, h, if_false, if_true]
  exact Returns.pure _

theorem addSub_spec (st : Setting S ck pc B D) (isAdd refresh : Bool) {x y : Ctxt S.C} {vx vy : Int}
    (hx : Valid ck B x vx) (hy : Valid ck B y vy) :
    Yields (addSubImpl S isAdd pc x y refresh) (fun z =>
      (∃ d, Holds ck B (if refresh then 1 else 5) z d ∧ valueN d z.length = pm isAdd vx vy) ∧
      z.length ≤ max x.length y.length + 1) := by
  have one_le : 1 ≤ (if refresh then 1 else 5) := by split_ifs <;> omega
  by_cases h1 : rzero x = x.length
  · have hv := hx.zero_of_trivZero h1
    refine (addSub_left_zero h1).yields ?_
    have key : Valid ck B (if isAdd then y else oppositeImpl S y) (pm isAdd vx vy) := by
      cases isAdd
      · simpa [pm, hv] using hy.oppositeImpl st
      · simpa [pm, hv] using hy
    obtain ⟨d, hd, he⟩ := key
    refine ⟨⟨d, hd.mono one_le, he⟩, ?_⟩
    cases isAdd
    · have : (oppositeImpl S y).length = y.length := List.length_map _
      simp only [Bool.false_eq_true, if_false]; omega
    · simp only [if_true]; omega
  · by_cases h2 : rzero y = y.length
    · have hv := hy.zero_of_trivZero h2
      refine (addSub_right_zero h1 h2).yields ?_
      obtain ⟨d, hd, he⟩ := hx
      refine ⟨⟨d, hd.mono one_le, ?_⟩, by omega⟩
      rw [he, hv]; cases isAdd <;> simp [pm]
    · have hx1 := rzero_le x
      have hy1 := rzero_le y
      refine (addSub_main st isAdd refresh hx hy (by omega) (by omega)).yields.mono ?_
      rintro z ⟨n, h, hl, _⟩
      refine ⟨h, ?_⟩
      omega

theorem ctAdd_valid (st : Setting S ck pc B D) {x y : Ctxt S.C} {vx vy : Int}
    (hx : Valid ck B x vx) (hy : Valid ck B y vy) :
    Yields (ctAdd S pc x y) (fun z => Valid ck B z (vx + vy) ∧
      z.length ≤ max x.length y.length + 1) :=
  ((addSub_spec st true true hx hy).mono fun _ h => h).call

theorem ctSub_valid (st : Setting S ck pc B D) {x y : Ctxt S.C} {vx vy : Int}
    (hx : Valid ck B x vx) (hy : Valid ck B y vy) :
    Yields (ctSub S pc x y) (fun z => Valid ck B z (vx - vy) ∧
      z.length ≤ max x.length y.length + 1) :=
  ((addSub_spec st false true hx hy).mono fun _ h => h).call

theorem Valid.append {x y : Ctxt S.C} {vx vy : Int} (hx : Valid ck B x vx) (hy : Valid ck B y vy) :
    Valid ck B (x ++ y) (vx + 2 ^ x.length * vy) := by
  obtain ⟨d, hd, rfl⟩ := hx
  obtain ⟨e, he, rfl⟩ := hy
  refine ⟨fun i => if i < x.length then d i else e (i - x.length), ?_, ?_⟩
  · intro i hi
    by_cases h : i < x.length
    · simpa [h, List.getElem_append_left h] using hd i h
    · have h' : i - x.length < y.length := by rw [List.length_append] at hi; omega
      simpa [h, List.getElem_append_right (Nat.le_of_not_lt h)] using he _ h'
  · rw [List.length_append, valueN_split]
    congr 1
    · apply valueN_congr; intro i hi; simp [hi]
    · congr 1
      apply valueN_congr; intro i hi; simp

theorem Valid.drop {x : Ctxt S.C} {d : Nat → Int} (hx : Holds ck B 1 x d) (k : Nat) :
    Valid ck B (x.drop k) (valueN (fun i => d (k + i)) (x.length - k)) := by
  refine ⟨fun i => d (k + i), ?_, by rw [List.length_drop]⟩
  intro i hi
  rw [List.getElem_drop]
  exact hx _ _

theorem Valid.take {x : Ctxt S.C} {d : Nat → Int} (hx : Holds ck B 1 x d) {k : Nat}
    (hk : k ≤ x.length) : Valid ck B (x.take k) (valueN d k) := by
  refine ⟨d, ?_, by rw [List.length_take, Nat.min_eq_left hk]⟩
  intro i hi
  rw [List.getElem_take]
  exact hx _ _

/-- low and high part of a valid ciphertext -/
theorem Valid.splitAt {x : Ctxt S.C} {v : Int} (hx : Valid ck B x v) {k : Nat}
    (hk : k ≤ x.length) : ∃ a b, Valid ck B (x.take k) a ∧ Valid ck B (x.drop k) b ∧
      v = a + 2 ^ k * b := by
  obtain ⟨d, hd, rfl⟩ := hx
  refine ⟨_, _, Valid.take hd hk, Valid.drop hd k, ?_⟩
  rw [← valueN_split]
  congr 1; omega

theorem Valid.trivCt (st : Setting S ck pc B D) (k : Nat) : Valid ck B (trivCt S.C pc k) 0 := by
  refine ⟨fun _ => 0, ?_, valueN_zero (fun _ _ => rfl)⟩
  intro i hi
  refine ⟨?_, isDigit_zero⟩
  simp only [Parm.trivCt, List.getElem_replicate]
  exact WordEnc.triv st 0 1

theorem length_trivCt (C : Type) (pc : Cloud) (k : Nat) : (trivCt C pc k).length = k := by
  simp [Parm.trivCt]

theorem length_ctShift (x : Ctxt S.C) (k : Nat) : (ctShift pc x k).length = x.length + k := by
  unfold ctShift
  split_ifs with h
  · simp [h]
  · simp [length_trivCt, Nat.add_comm]

theorem ctShift_valid (st : Setting S ck pc B D) {x : Ctxt S.C} {v : Int} (hx : Valid ck B x v)
    (k : Nat) : Valid ck B (ctShift pc x k) (v * 2 ^ k) := by
  unfold ctShift
  split_ifs with h
  · subst h; simpa using hx
  · have := (Valid.trivCt st k).append hx
    rw [length_trivCt] at this
    exact this.congr (by ring)

theorem Valid.single {w : Word S.C} {m : Int} (h : WordEnc ck B w m 1) (hm : IsDigit m) :
    Valid ck B [w] m := by
  refine ⟨fun _ => m, ?_, by simp [valueN]⟩
  intro i hi
  have : i = 0 := by simpa using hi
  subst this
  exact ⟨h, hm⟩

theorem Valid.cons {w : Word S.C} {m v : Int} {x : Ctxt S.C} (h : WordEnc ck B w m 1) (hm : IsDigit m)
    (hx : Valid ck B x v) : Valid ck B (w :: x) (m + 2 * v) := by
  have := (Valid.single h hm).append hx
  simpa using this

/-! ### Adding a constant -/

theorem foldl_len_spec (p : Nat → Prop) [DecidablePred p] : ∀ n : Nat,
    let l := (List.range n).foldl (fun l i => if p i then i + 1 else l) 0
    l ≤ n ∧ (∀ i, l ≤ i → i < n → ¬ p i) ∧ (0 < l → p (l - 1))
  | 0 => by simp
  | n + 1 => by
    obtain ⟨h1, h2, h3⟩ := foldl_len_spec p n
    simp only [List.range_succ, List.foldl_append, List.foldl_cons, List.foldl_nil]
    split_ifs with hp
    · exact ⟨le_refl _, fun i hi hi' => absurd hi (by omega), fun _ => hp⟩
    · refine ⟨by omega, fun i hi hi' => ?_, h3⟩
      by_cases h : i = n
      · subst h; exact hp
      · exact h2 i hi (by omega)

theorem bit_mask {a i : Nat} (ha : a < 2 ^ 63) (hi : i < 63) :
    (BitVec.ofInt 64 (a : Int) &&& (1#64 <<< i) ≠ 0) ↔ a / 2 ^ i % 2 = 1 := by
  have h0 : (BitVec.ofInt 64 (a : Int)) = BitVec.ofNat 64 a := by simp
  have hn : (BitVec.ofNat 64 a).toNat = a := by
    rw [BitVec.toNat_ofNat, Nat.mod_eq_of_lt (by omega)]
  have h1 : (1#64 <<< i).toNat = 2 ^ i := by
    have : 2 ^ i < 2 ^ 64 := Nat.pow_lt_pow_right (by norm_num) (by omega)
    rw [BitVec.toNat_shiftLeft, Nat.shiftLeft_eq]
    simp only [BitVec.toNat_ofNat]
    norm_num
    omega
  have h2 : (BitVec.ofNat 64 a &&& (1#64 <<< i)).toNat = a / 2 ^ i % 2 * 2 ^ i := by
    rw [BitVec.toNat_and, hn, h1, Nat.and_two_pow, Nat.testBit_eq_decide_div_mod_eq]
    rcases Nat.mod_two_eq_zero_or_one (a / 2 ^ i) with h | h <;> rw [h] <;> rfl
  have hp : 0 < 2 ^ i := Nat.two_pow_pos i
  rw [h0]
  constructor
  · intro h
    rcases Nat.mod_two_eq_zero_or_one (a / 2 ^ i) with h' | h'
    · exfalso; apply h
      apply BitVec.eq_of_toNat_eq
      rw [h2, h']; simp
    · exact h'
  · intro h he
    rw [he, h] at h2
    simp at h2
    omega

theorem lt_two_pow_of_bits {a l : Nat} : ∀ n, l ≤ n → a < 2 ^ n →
    (∀ i, l ≤ i → i < n → a / 2 ^ i % 2 ≠ 1) → a < 2 ^ l
  | 0, hl, ha, _ => by
    have : l = 0 := by omega
    subst this; exact ha
  | n + 1, hl, ha, h => by
    by_cases he : l = n + 1
    · subst he; exact ha
    · apply lt_two_pow_of_bits n (by omega)
      · have h1 := h n (by omega) (by omega)
        have h2 : a / 2 ^ n < 2 := by
          rw [Nat.div_lt_iff_lt_mul (Nat.two_pow_pos n), Nat.mul_comm, ← Nat.pow_succ]; exact ha
        have h3 : a / 2 ^ n = 0 := by
          generalize a / 2 ^ n = q at *
          omega
        rcases Nat.div_eq_zero_iff.1 h3 with h4 | h4
        · have := Nat.two_pow_pos n; omega
        · exact h4
      · intro i hi hi'; exact h i hi (by omega)

theorem addConstLen_spec {a : Nat} (ha : a < 2 ^ 63) :
    addConstLen (BitVec.ofInt 64 (a : Int)) ≤ 63 ∧ a < 2 ^ addConstLen (BitVec.ofInt 64 (a : Int)) ∧
    ∀ l, a < 2 ^ l → addConstLen (BitVec.ofInt 64 (a : Int)) ≤ l := by
  unfold addConstLen
  obtain ⟨h1, h2, h3⟩ := foldl_len_spec (fun i => BitVec.ofInt 64 (a : Int) &&& (1#64 <<< i) ≠ 0) 63
  obtain ⟨n, hn⟩ : ∃ n, n = (List.range 63).foldl
    (fun l i => if BitVec.ofInt 64 (a : Int) &&& (1#64 <<< i) ≠ 0 then i + 1 else l) 0 := ⟨_, rfl⟩
  rw [← hn] at h1 h2 h3 ⊢
  refine ⟨h1, lt_two_pow_of_bits 63 h1 ha ?_, ?_⟩
  · intro i hi hi' hb
    exact h2 i hi hi' ((bit_mask ha hi').2 hb)
  · intro l hl
    by_contra hc
    have hb := (bit_mask ha (by omega)).1 (h3 (by omega))
    have : a / 2 ^ (n - 1) = 0 := Nat.div_eq_of_lt (hl.trans_le (Nat.pow_le_pow_right (by norm_num) (by omega)))
    rw [this] at hb
    omega

/-- the constant as a trivial ciphertext -/
theorem addConst_word (st : Setting S ck pc B D) {k : Int} (h1 : -2 ^ 63 < k) (h2 : k < 2 ^ 63)
    (n : Nat) : Holds ck B 1 ((List.range n).map fun i =>
      encryptWordTriv S.C pc (wrapI32 ((if ((BitVec.ofInt 64 (k.natAbs : Int)).sshiftRight i) &&& 1#64 = 0
        then 0 else if decide (k ≥ 0) then 1 else pc.params.plaintextMask : Nat) : Int))) (bitDigit k) := by
  intro i hi
  refine ⟨?_, bitDigit_isDigit k i⟩
  simp only [List.getElem_map, List.getElem_range]
  refine (WordEnc.triv st _ 1).congr ?_
  have hb := bit_test (a := k.natAbs) (i := i) (by omega)
  have hm : pc.params.plaintextMask = 31 := by
    unfold Params.plaintextMask; rw [st.bitPrecision]
  unfold bitDigit
  simp only [hb, hm, decide_eq_true_eq]
  split_ifs <;> rfl

theorem ctAddConst_valid (st : Setting S ck pc B D) {x : Ctxt S.C} {v k : Int}
    (hx : Valid ck B x v) (h1 : -2 ^ 63 < k) (h2 : k < 2 ^ 63) :
    Yields (ctAddConst S pc x k) (fun z => Valid ck B z (v + k) ∧
      ∀ l, k.natAbs < 2 ^ l → z.length ≤ max x.length l + 1) := by
  unfold ctAddConst addConstImpl
  apply Yields.call
  by_cases h0 : k = 0
  · rw [if_pos h0]
    exact Yields.pure ⟨hx.congr (by rw [h0]; ring), fun l _ => by omega⟩
  · rw [if_neg h0]
    refine Yields.bind ((Returns.i64Op (by omega) (by omega)).yields rfl) ?_
    rintro _ rfl
    obtain ⟨_, hlt, hmin⟩ := addConstLen_spec (a := k.natAbs) (by omega)
    have hc : Valid ck B _ k := ⟨_, addConst_word st h1 h2 (addConstLen (BitVec.ofInt 64 (k.natAbs : Int))), by
      rw [List.length_map, List.length_range, valueN_bitDigit, Nat.mod_eq_of_lt hlt]
      split_ifs <;> omega⟩
    refine (ctAdd_valid st hx hc).mono ?_
    rintro z ⟨hz, hzl⟩
    refine ⟨hz, fun l hl => ?_⟩
    rw [List.length_map, List.length_range] at hzl
    have := hmin l hl
    omega

end
end Parm
