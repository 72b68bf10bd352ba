import Verif.Proof.Addition
import Verif.Model.Encryption

/-!
# Encryption and decryption
-/

namespace Parm

theorem Returns.mapM {α β : Type} {f : α → M β} (g : α → β) : ∀ (l : List α),
    (∀ a ∈ l, Returns (f a) (g a) 0) → Returns (l.mapM f) (l.map g) 0
  | [], _ => by
    rw [List.mapM_nil]; exact Returns.pure _
  | a :: l, h => by
    rw [List.mapM_cons]
    refine (h a (by simp)).bind0 ?_
    refine (Returns.mapM g l (fun b hb => h b (by simp [hb]))).bind0 ?_
    exact Returns.pure _

theorem inI64_iff {x : Int} : inI64 x = true ↔ -2 ^ 63 ≤ x ∧ x < 2 ^ 63 := by
  simp [inI64]

theorem Returns.i64Op {b : Build} {x : Int} (h1 : -2 ^ 63 ≤ x) (h2 : x < 2 ^ 63) :
    Returns (i64Op b x) x 0 := by
  unfold Parm.i64Op
  rw [if_pos (inI64_iff.2 ⟨h1, h2⟩)]
  exact Returns.pure _

theorem Returns.shAmt64 {b : Build} {i : Nat} (h : i < 64) : Returns (shAmt64 b i) i 0 := by
  unfold Parm.shAmt64
  rw [if_pos h]
  exact Returns.pure _

/-- bit `i` of a non-negative `i64`, as the code extracts it -/
theorem bit_test {a i : Nat} (ha : a < 2 ^ 63) :
    ((BitVec.ofInt 64 (a : Int)).sshiftRight i &&& 1#64 = 0) ↔ a / 2 ^ i % 2 = 0 := by
  have h0 : (BitVec.ofInt 64 (a : Int)) = BitVec.ofNat 64 a := by simp
  have hn : (BitVec.ofNat 64 a).toNat = a := by
    rw [BitVec.toNat_ofNat, Nat.mod_eq_of_lt (by omega)]
  have hm : (BitVec.ofNat 64 a).msb = false := by
    rw [BitVec.msb_eq_false_iff_two_mul_lt, hn]; omega
  rw [h0, BitVec.sshiftRight_eq_of_msb_false hm]
  have : ∀ b : BitVec 64, b &&& 1#64 = 0 ↔ b.toNat % 2 = 0 := by
    intro b
    constructor
    · intro h
      have := congrArg BitVec.toNat h
      simpa [BitVec.toNat_and, Nat.and_one_is_mod] using this
    · intro h
      apply BitVec.eq_of_toNat_eq
      simpa [BitVec.toNat_and, Nat.and_one_is_mod] using h
  rw [this, BitVec.toNat_ushiftRight, hn, Nat.shiftRight_eq_div_pow]

/-- binary digits with a common sign -/
theorem valueN_bits (σ : Int) (a : Nat) : ∀ w : Nat,
    valueN (fun i => σ * ((a / 2 ^ i % 2 : Nat) : Int)) w = σ * ((a % 2 ^ w : Nat) : Int)
  | 0 => by simp [valueN, Nat.mod_one]
  | w + 1 => by
    show valueN _ w + σ * ((a / 2 ^ w % 2 : Nat) : Int) * 2 ^ w = _
    rw [valueN_bits σ a w, Nat.mod_pow_succ]
    push_cast
    ring

/-- digit `i` of `m` -/
def bitDigit (m : Int) (i : Nat) : Int := if m.natAbs / 2 ^ i % 2 = 0 then 0
  else if m ≥ 0 then 1 else -1

theorem bitDigit_isDigit (m : Int) (i : Nat) : IsDigit (bitDigit m i) := by
  unfold bitDigit IsDigit; split_ifs <;> simp

theorem valueN_bitDigit (m : Int) (w : Nat) :
    valueN (bitDigit m) w = (if m ≥ 0 then 1 else -1) * ((m.natAbs % 2 ^ w : Nat) : Int) := by
  rw [← valueN_bits]
  apply valueN_congr
  intro i _
  unfold bitDigit
  have : m.natAbs / 2 ^ i % 2 = 0 ∨ m.natAbs / 2 ^ i % 2 = 1 := Nat.mod_two_eq_zero_or_one _
  rcases this with h | h <;> rw [h] <;> split_ifs <;> simp at *

theorem convertToVec_spec (build : Build) {m : Int} (h1 : -2 ^ 63 < m) (h2 : m < 2 ^ 63)
    {w : Nat} (hw : w ≤ 64) :
    Returns (convertToVec build m w) ((List.range w).map (bitDigit m)) 0 := by
  unfold convertToVec
  refine (Returns.i64Op (by omega) (by omega)).bind0 ?_
  apply Returns.mapM
  intro i hi
  have hi' : i < w := by simpa using hi
  refine (Returns.shAmt64 (by omega)).bind0 ?_
  refine (Returns.pure _).congr ?_ rfl
  unfold bitDigit
  have := bit_test (a := m.natAbs) (i := i) (by omega)
  simp only [this]
  congr 1
  simp

section
variable {S : Scheme} {ck : ClientKey S} {pc : Cloud} {B D : Nat}

theorem encryptWord_spec (st : Setting S ck pc B D) (seed : Nat) (m : Int) :
    WordEnc ck B (encryptWord ck pc.msgMod seed m) m 1 := by
  rw [st.msgMod]
  refine ⟨rfl, ?_⟩
  show ∃ e : Int, _ ∧ ck.phase (ck.encrypt seed (miToMu 32 m)) = _
  have h0 := Int.emod_nonneg m (show (32 : Int) ≠ 0 by norm_num)
  have h1 := Int.emod_lt_of_pos m (show (0 : Int) < 32 by norm_num)
  have hmu : ((miToMu 32 m).toNat : Int) = m % 32 := by
    unfold miToMu
    rw [BitVec.toNat_ofInt, Int.toNat_of_nonneg (Int.emod_nonneg _ (by norm_num))]
    norm_num
    omega
  obtain ⟨e, he, hp⟩ := st.sound.phase_encrypt seed (miToMu 32 m) (by omega)
  refine ⟨e, by simpa using he, ?_⟩
  rw [hp, hmu, ofInt_eq_iff]
  exact ⟨-(m / 32), by norm_num; omega⟩

theorem parmEncryptFromVec_ok (seed : Nat → Nat) (msgMod : Nat) : ∀ (l : List Int) (i : Nat),
    (∀ d ∈ l, IsDigit d) →
    Returns (parmEncryptFromVec ck msgMod seed i l)
      ((List.range l.length).map fun j => encryptWord ck msgMod (seed (i + j)) (l.getD j 0)) 0
  | [], i, _ => Returns.pure _
  | d :: l, i, h => by
    have hd := h d (by simp)
    unfold parmEncryptFromVec
    rw [if_neg (by unfold IsDigit at hd; omega)]
    refine (parmEncryptFromVec_ok seed msgMod l (i + 1) (fun a ha => h a (by simp [ha]))).bind0 ?_
    refine (Returns.pure _).congr ?_ rfl
    rw [List.length_cons, List.range_succ_eq_map, List.map_cons, List.map_map]
    congr 1
    apply List.map_congr_left
    intro j _
    simp [Nat.add_assoc, Nat.add_comm 1 j]

theorem parmEncryptFromVec_err (seed : Nat → Nat) (msgMod : Nat) : ∀ (l : List Int) (i : Nat),
    (¬ ∀ d ∈ l, IsDigit d) → Fails (parmEncryptFromVec ck msgMod seed i l) (.err .encAlphabet)
  | [], i, h => absurd (by simp) h
  | d :: l, i, h => by
    unfold parmEncryptFromVec
    by_cases hd : d < -1 ∨ d > 1
    · rw [if_pos hd]; exact Fails.err _
    · rw [if_neg hd]
      apply Fails.bind
      apply parmEncryptFromVec_err
      intro hall
      apply h
      intro a ha
      rcases List.mem_cons.1 ha with rfl | ha
      · unfold IsDigit; omega
      · exact hall a ha

theorem parmEncryptFromVec_valid (st : Setting S ck pc B D) (seed : Nat → Nat) {l : List Int}
    (h : ∀ d ∈ l, IsDigit d) :
    Yields (parmEncryptFromVec ck pc.msgMod seed 0 l) (fun x => x.length = l.length ∧
      Holds ck B 1 x (fun i => l.getD i 0) ∧ (∀ i (hi : i < x.length), x[i].isTriv = false)) := by
  refine ⟨_, 0, parmEncryptFromVec_ok seed pc.msgMod l 0 h, by simp, ?_, ?_⟩
  · intro i hi
    have hi' : i < l.length := by simpa using hi
    refine ⟨?_, ?_⟩
    · simp only [List.getElem_map, List.getElem_range]
      exact encryptWord_spec st _ _
    · simp only [List.getD_eq_getElem?_getD, List.getElem?_eq_getElem hi', Option.getD_some]
      exact h _ (List.getElem_mem hi')
  · intro i hi
    simp [encryptWord, Word.isTriv]

theorem parmEncrypt_valid (st : Setting S ck pc B D) (build : Build) (seed : Nat → Nat) {m : Int}
    (h1 : -2 ^ 63 < m) (h2 : m < 2 ^ 63) {w : Nat} (hw : w ≤ 64) :
    Yields (parmEncrypt ck pc.msgMod build seed m w) (fun x => x.length = w ∧
      Valid ck B x ((if m ≥ 0 then 1 else -1) * ((m.natAbs % 2 ^ w : Nat) : Int)) ∧
      (∀ i (hi : i < x.length), x[i].isTriv = false)) := by
  unfold parmEncrypt
  refine Yields.bind ((convertToVec_spec build h1 h2 hw).yields rfl) ?_
  rintro _ rfl
  refine (parmEncryptFromVec_valid st seed ?_).mono ?_
  · intro d hd
    obtain ⟨i, _, rfl⟩ := List.mem_map.1 hd
    exact bitDigit_isDigit m i
  · rintro x ⟨hl, hh, ht⟩
    have hl' : x.length = w := by simpa using hl
    refine ⟨hl', ⟨_, hh, ?_⟩, ht⟩
    rw [hl', ← valueN_bitDigit]
    apply valueN_congr
    intro i hi
    simp [hi]

/-! ### Decryption -/

theorem muToMi32 (m : Int) (n : Nat) (h : (n : Int) = m % 32) :
    muToMi 32 n = (m + 16) % 32 - 16 := by
  unfold muToMi
  have : n < 32 := by omega
  simp only [Nat.mod_eq_of_lt this]
  split_ifs <;> omega

theorem decryptMi_spec {w : Word S.C} {m : Int} {k : Nat} (h : WordEnc ck B w m k)
    (hk : k * B < 2 ^ 58) : Returns (decryptMi (some ck) w) ((m + 16) % 32 - 16) 0 := by
  obtain ⟨wc, wm⟩ := w
  obtain ⟨h1, h2⟩ := h
  simp only at h1
  subst h1
  unfold decryptMi decryptMu
  cases wc with
  | ct c =>
    obtain ⟨e, he, hp⟩ := h2
    refine (Returns.pure _).bind0 ?_
    refine (Returns.pure _).congr ?_ rfl
    apply muToMi32
    unfold ClientKey.decrypt
    rw [hp]
    exact ptToMu32 m e (by omega)
  | triv p =>
    simp only at h2
    refine (Returns.pure _).bind0 ?_
    refine (Returns.pure _).congr ?_ rfl
    apply muToMi32
    have := ptToMu32 m 0 (by norm_num)
    rw [Int.add_zero, ← h2] at this
    exact this

theorem two_pow_lt_int {i j : Nat} (h : i < j) : (2 : Int) ^ i < 2 ^ j :=
  pow_lt_pow_right₀ (by norm_num) h

theorem convertFromVecLoop_ok (build : Build) : ∀ (l : List Int) (i : Nat) (m : Int),
    i + l.length ≤ 63 → m.natAbs < 2 ^ i → (∀ d ∈ l, IsDigit d) →
    Returns (convertFromVecLoop build i m l) (m + 2 ^ i * value l) 0
  | [], i, m, _, _, _ => by
    rw [value_nil]; simp; exact Returns.pure _
  | d :: l, i, m, hl, hm, h => by
    simp only [List.length_cons] at hl
    have hd := h d (by simp)
    have hi : i < 63 := by omega
    have hp : (2 : Int) ^ i < 2 ^ 63 := two_pow_lt_int hi
    have hp0 : (0 : Int) < 2 ^ i := by positivity
    have hw : wrapI64 (2 ^ i) = 2 ^ i := by
      unfold wrapI64
      rw [Int.bmod_eq_of_le] <;> omega
    have hms : (m + d * 2 ^ i).natAbs < 2 ^ (i + 1) := by
      have e : ((2 ^ i : Nat) : Int) = 2 ^ i := by push_cast; rfl
      rw [pow_succ]
      rcases hd with h | h | h <;> subst h <;> omega
    have hp2 : (2 : Nat) ^ (i + 1) ≤ 2 ^ 63 := Nat.pow_le_pow_right (by norm_num) (by omega)
    unfold convertFromVecLoop
    refine (Returns.shAmt64 (by omega)).bind0 ?_
    simp only [hw]
    refine Returns.bind0 (a := d * 2 ^ i) ?_ ?_
    · rcases hd with h | h | h <;> subst h
      · simp only [show ((-1 : Int) = 1) = False by simp, show ((-1 : Int) = 0) = False by simp, if_false, if_true]
        refine (Returns.i64Op (by omega) (by omega)).congr (by ring) rfl
      · simp only [show ((0 : Int) = 1) = False by simp, if_false, if_true]
        exact (Returns.pure _).congr (by ring) rfl
      · simp only [if_true]
        exact (Returns.pure _).congr (by ring) rfl
    · refine (Returns.i64Op (by omega) (by omega)).bind0 ?_
      refine (convertFromVecLoop_ok build l (i + 1) _ (by omega) hms (fun a ha => h a (by simp [ha]))).congr ?_ rfl
      rw [value_cons, pow_succ]; ring

theorem convertFromVecLoop_err (build : Build) : ∀ (l : List Int) (i : Nat) (m : Int),
    i + l.length ≤ 63 → m.natAbs < 2 ^ i → (¬ ∀ d ∈ l, IsDigit d) →
    Fails (convertFromVecLoop build i m l) (.err .decAlphabet)
  | [], i, m, _, _, h => absurd (by simp) h
  | d :: l, i, m, hl, hm, h => by
    simp only [List.length_cons] at hl
    have hi : i < 63 := by omega
    have hp : (2 : Int) ^ i < 2 ^ 63 := two_pow_lt_int hi
    have hp0 : (0 : Int) < 2 ^ i := by positivity
    have hw : wrapI64 (2 ^ i) = 2 ^ i := by
      unfold wrapI64
      rw [Int.bmod_eq_of_le] <;> omega
    unfold convertFromVecLoop
    refine (Returns.shAmt64 (by omega)).bind_fails ?_
    simp only [hw]
    by_cases hd : IsDigit d
    · have hms : (m + d * 2 ^ i).natAbs < 2 ^ (i + 1) := by
        have e : ((2 ^ i : Nat) : Int) = 2 ^ i := by push_cast; rfl
        rw [pow_succ]
        rcases hd with h | h | h <;> subst h <;> omega
      have hp2 : (2 : Nat) ^ (i + 1) ≤ 2 ^ 63 := Nat.pow_le_pow_right (by norm_num) (by omega)
      refine Returns.bind_fails (a := d * 2 ^ i) (n := 0) ?_ ?_
      · rcases hd with h | h | h <;> subst h
        · simp only [show ((-1 : Int) = 1) = False by simp, show ((-1 : Int) = 0) = False by simp, if_false, if_true]
          refine (Returns.i64Op (by omega) (by omega)).congr (by ring) rfl
        · simp only [show ((0 : Int) = 1) = False by simp, if_false, if_true]
          exact (Returns.pure _).congr (by ring) rfl
        · simp only [if_true]
          exact (Returns.pure _).congr (by ring) rfl
      · refine (Returns.i64Op (by omega) (by omega)).bind_fails ?_
        apply convertFromVecLoop_err build l (i + 1) _ (by omega) hms
        intro hall
        apply h
        intro a ha
        rcases List.mem_cons.1 ha with rfl | ha
        · exact hd
        · exact hall a ha
    · apply Fails.bind
      unfold IsDigit at hd
      rw [if_neg (by omega), if_neg (by omega), if_neg (by omega)]
      exact Fails.err _

theorem convertFromVec_ok (build : Build) {l : List Int} (hl : l.length ≤ 63)
    (h : ∀ d ∈ l, IsDigit d) : Returns (convertFromVec build l) (value l) 0 := by
  unfold convertFromVec parmCtMaxlen
  rw [if_neg (by omega)]
  refine (convertFromVecLoop_ok build l 0 0 (by omega) (by norm_num) h).congr (by simp) rfl

theorem convertFromVec_long (build : Build) {l : List Int} (hl : 63 < l.length) :
    Fails (convertFromVec build l) (.err .ctTooLong) := by
  unfold convertFromVec parmCtMaxlen
  rw [if_pos (by omega)]
  exact Fails.err _

theorem convertFromVec_err (build : Build) {l : List Int} (hl : l.length ≤ 63)
    (h : ¬ ∀ d ∈ l, IsDigit d) : Fails (convertFromVec build l) (.err .decAlphabet) := by
  unfold convertFromVec parmCtMaxlen
  rw [if_neg (by omega)]
  exact convertFromVecLoop_err build l 0 0 (by omega) (by norm_num) h

theorem IsDigit.rep {d : Int} (h : IsDigit d) : (d + 16) % 32 - 16 = d := by
  rcases h with h | h | h <;> subst h <;> norm_num

theorem parmDecrypt_holds {k : Nat} (hk : k * B < 2 ^ 58) (build : Build) {x : Ctxt S.C}
    {d : Nat → Int} (h : Holds ck B k x d) (hl : x.length ≤ 63) :
    Returns (parmDecrypt ck build x) (valueN d x.length) 0 := by
  unfold parmDecrypt parmDecryptToVec
  -- the word decryptions
  have key : ∀ (y : Ctxt S.C) (e : Nat → Int), Holds ck B k y e →
      Returns (y.mapM fun ci => decryptMi (some ck) ci) ((List.range y.length).map e) 0 := by
    intro y
    induction y with
    | nil => intro e _; rw [List.mapM_nil]; exact Returns.pure _
    | cons a y ih =>
      intro e he
      rw [List.mapM_cons]
      have h0 := he 0 (by simp)
      refine (decryptMi_spec h0.1 hk).bind0 ?_
      refine (ih (fun i => e (i + 1)) (fun i hi => he (i + 1) (by simpa using hi))).bind0 ?_
      refine (Returns.pure _).congr ?_ rfl
      rw [h0.2.rep, List.length_cons, List.range_succ_eq_map, List.map_cons, List.map_map]
      rfl
  refine (key x d h).bind0 ?_
  refine (convertFromVec_ok build (by simpa using hl) ?_).congr ?_ rfl
  · intro a ha
    obtain ⟨i, hi, rfl⟩ := List.mem_map.1 ha
    exact (h i (by simpa using hi)).2
  · rw [value_eq_valueN (d := d) (by intro i hi; simp)]
    simp

theorem Valid.decrypt (st : Setting S ck pc B D) (build : Build) {x : Ctxt S.C} {v : Int}
    (h : Valid ck B x v) (hl : x.length ≤ 63) : Returns (parmDecrypt ck build x) v 0 := by
  obtain ⟨d, hd, rfl⟩ := h
  refine parmDecrypt_holds (k := 1) ?_ build hd hl
  have := st.tol8 (k := 1) (by norm_num)
  omega

end

end Parm
