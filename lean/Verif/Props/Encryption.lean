import Verif.Proof.AddOps
import Verif.Proof.Instance

/-!
# Properties C01, C02, C03, C35, C37, C45, C46: encryption and decryption
-/

namespace Parm
section
variable {S : Scheme} {ck : ClientKey S} {pc : Cloud} {B D : Nat}

/-- **C01.** Encrypting `m` into `w ≤ 63` words and decrypting gives the `w` least significant
bits of `|m|` with the sign of `m`; no failure, no bootstrap, any randomness, any build
profile. -/
theorem C01_encrypt_decrypt (st : Setting S ck pc B D) (build : Build) (seed : Nat → Nat)
    (m : Int) (hm : -2 ^ 63 < m ∧ m < 2 ^ 63) (w : Nat) (hw : w ≤ 63) :
    Returns (do let x ← parmEncrypt ck pc.msgMod build seed m w; parmDecrypt ck build x)
      (m.sign * ((m.natAbs % 2 ^ w : Nat) : Int)) 0 := by
  obtain ⟨x, n, hx, hl, hv, _⟩ := parmEncrypt_valid st build seed hm.1 hm.2 (w := w) (by omega)
  have hn : n = 0 := by
    have h0 : Returns (parmEncrypt ck pc.msgMod build seed m w) _ 0 :=
      (convertToVec_spec build hm.1 hm.2 (by omega)).bind0
        (parmEncryptFromVec_ok seed pc.msgMod _ 0 (by
          intro d hd
          obtain ⟨i, _, rfl⟩ := List.mem_map.1 hd
          exact bitDigit_isDigit m i))
    exact (hx.unique h0).2
  subst hn
  refine hx.bind0 ?_
  refine (hv.decrypt st build (by omega)).congr ?_ rfl
  rcases lt_trichotomy m 0 with h | h | h
  · rw [if_neg (by omega), Int.sign_eq_neg_one_of_neg h]
  · subst h; simp
  · rw [if_pos (by omega), Int.sign_eq_one_of_pos h]

/-- **C01**, the usual case: `m` fits into `w` words. -/
theorem C01_roundtrip (st : Setting S ck pc B D) (build : Build) (seed : Nat → Nat)
    (m : Int) (hm : -2 ^ 63 < m ∧ m < 2 ^ 63) (w : Nat) (hw : w ≤ 63) (hfit : m.natAbs < 2 ^ w) :
    Returns (do let x ← parmEncrypt ck pc.msgMod build seed m w; parmDecrypt ck build x) m 0 := by
  refine (C01_encrypt_decrypt st build seed m hm w hw).congr ?_ rfl
  rw [Nat.mod_eq_of_lt hfit]
  exact Int.sign_mul_natAbs m

/-- **C01**, the most negative `i64`: a release build encrypts zeros in the low 63 words (the
documented truncation), a debug build panics. -/
theorem C01_min_release (st : Setting S ck pc B D) (seed : Nat → Nat) (w : Nat) (hw : w ≤ 63) :
    Returns (do let x ← parmEncrypt ck pc.msgMod .release seed (-2 ^ 63) w; parmDecrypt ck .release x)
      0 0 := by
  have h1 : Returns (convertToVec .release (-2 ^ 63) w) (List.replicate w 0) 0 := by
    unfold convertToVec
    refine Returns.bind0 (a := -2 ^ 63) (Returns.pure _) ?_
    have := Returns.mapM (f := fun i => do
        let sh ← shAmt64 .release i
        pure (if ((BitVec.ofInt 64 (-2 ^ 63)).sshiftRight sh) &&& 1#64 = 0 then (0 : Int)
          else if decide ((-2 ^ 63 : Int) ≥ 0) then 1 else -1)) (fun _ => (0 : Int)) (List.range w) ?_
    · simpa using this
    · intro i hi
      have hi' : i < w := by simpa using hi
      refine (Returns.shAmt64 (by omega)).bind0 ?_
      refine (Returns.pure _).congr ?_ rfl
      have : ∀ j : Fin 63, ((BitVec.ofInt 64 (-2 ^ 63)).sshiftRight j.val) &&& 1#64 = 0 := by decide +kernel
      rw [if_pos (this ⟨i, by omega⟩)]
  obtain ⟨x, n, hx, hl, hh, _⟩ := parmEncryptFromVec_valid st seed (l := List.replicate w 0)
    (by intro d hd; rw [List.eq_of_mem_replicate hd]; exact isDigit_zero)
  have h0 : Returns (parmEncrypt ck pc.msgMod .release seed (-2 ^ 63) w) x n := h1.bind0 hx
  have hn : n = 0 := (hx.unique (parmEncryptFromVec_ok seed pc.msgMod _ 0
    (by intro d hd; rw [List.eq_of_mem_replicate hd]; exact isDigit_zero))).2
  subst hn
  refine h0.bind0 ?_
  have hv : Valid ck B x 0 := ⟨_, hh, valueN_zero (by
    intro i hi; simp only [List.getD_eq_getElem?_getD, List.getElem?_replicate]; split_ifs <;> rfl)⟩
  exact hv.decrypt st .release (by rw [hl]; simpa using hw)

theorem C01_min_debug_panics (seed : Nat → Nat) (w : Nat) :
    Fails (parmEncrypt ck pc.msgMod .debug seed (-2 ^ 63) w) (.panic .overflow) := by
  unfold parmEncrypt convertToVec
  apply Fails.bind
  apply Fails.bind
  exact Fails.panic _

/-- a 7-bit number in 7 words, the same number truncated to 3 words -/
example : Returns (do
    let x ← parmEncrypt Demo.ck 32 .debug id (-77) 7; parmDecrypt Demo.ck .debug x) (-77) 0 :=
  C01_roundtrip Demo.st .debug id (-77) (by norm_num) 7 (by norm_num) (by norm_num)
example : Returns (do
    let x ← parmEncrypt Demo.ck 32 .debug id (-77) 3; parmDecrypt Demo.ck .debug x) (-5) 0 :=
  (C01_encrypt_decrypt Demo.st .debug id (-77) (by norm_num) 3 (by norm_num)).congr (by rfl) rfl

/-- **C02**, acceptance: a vector over {-1,0,1} is encrypted word by word; word `i` decrypts to
digit `i`, and the ciphertext decrypts to the signed binary value if it has at most 63 words. -/
theorem C02_vec_roundtrip (st : Setting S ck pc B D) (build : Build) (seed : Nat → Nat)
    (l : List Int) (h : ∀ d ∈ l, IsDigit d) :
    Yields (parmEncryptFromVec ck pc.msgMod seed 0 l) (fun x =>
      x.length = l.length ∧
      (∀ i (h1 : i < x.length) (h2 : i < l.length), Returns (decryptMi (some ck) x[i]) l[i] 0) ∧
      (l.length ≤ 63 → Returns (parmDecrypt ck build x) (value l) 0)) := by
  refine (parmEncryptFromVec_valid st seed h).mono ?_
  rintro x ⟨hl, hh, _⟩
  refine ⟨hl, ?_, ?_⟩
  · intro i h1 h2
    have hk : 1 * B < 2 ^ 58 := by have := st.tol8 (k := 1) (by norm_num); omega
    have hd := hh i h1
    refine (decryptMi_spec hd.1 hk).congr ?_ rfl
    rw [hd.2.rep]
    simp [h2]
  · intro h63
    have hv : Valid ck B x (value l) := ⟨_, hh, by rw [hl]; rfl⟩
    exact hv.decrypt st build (by omega)

/-- **C02**, rejection: any other vector is an `Err`. -/
theorem C02_vec_reject (seed : Nat → Nat) (l : List Int) (h : ¬ ∀ d ∈ l, IsDigit d) :
    Fails (parmEncryptFromVec ck pc.msgMod seed 0 l) (.err .encAlphabet) :=
  parmEncryptFromVec_err seed pc.msgMod l 0 h

example : Yields (parmEncryptFromVec Demo.ck 32 id 0 [1, -1, 0, 1]) (fun x =>
    x.length = 4 ∧ Returns (parmDecrypt Demo.ck .release x) 7 0) :=
  (C02_vec_roundtrip Demo.st .release id [1, -1, 0, 1] (by unfold IsDigit; decide)).mono
    fun _ h => ⟨h.1, h.2.2 (by decide)⟩
example : Fails (parmEncryptFromVec Demo.ck 32 id 0 [1, 2, 0]) (.err .encAlphabet) :=
  C02_vec_reject (pc := Demo.cloud) id [1, 2, 0] (by unfold IsDigit; decide)

/-- **C03.** For every ciphertext whatsoever (any phases, any mixture of words), with `ds` the
decryptions of its words: decryption returns the signed binary value of `ds` if there are at
most 63 words, all in {-1,0,1}, and this value fits `i64`; otherwise it is an `Err`.  Holds in
both build profiles: no overflow check fires. -/
theorem C03_decrypt_total (build : Build) (x : Ctxt S.C) :
    ∃ ds : List Int, ds.length = x.length ∧
      (∀ i (h : i < x.length) (h' : i < ds.length), Returns (decryptMi (some ck) x[i]) ds[i] 0) ∧
      (x.length ≤ 63 → (∀ d ∈ ds, IsDigit d) →
        Returns (parmDecrypt ck build x) (value ds) 0 ∧ (value ds).natAbs ≤ 2 ^ 63 - 1) ∧
      (63 < x.length → Fails (parmDecrypt ck build x) (.err .ctTooLong)) ∧
      (x.length ≤ 63 → (¬ ∀ d ∈ ds, IsDigit d) → Fails (parmDecrypt ck build x) (.err .decAlphabet)) := by
  obtain ⟨g, hg⟩ : ∃ g : Word S.C → Int, ∀ w, Returns (decryptMi (some ck) w) (g w) 0 := by
    refine ⟨fun w => muToMi w.msgMod (match w.ct with
      | .ct c => ck.decrypt w.msgMod c
      | .triv pt => ptToMu w.msgMod pt), ?_⟩
    rintro ⟨wc, wm⟩
    unfold decryptMi decryptMu
    cases wc with
    | ct c => exact (Returns.pure _).bind0 (Returns.pure _)
    | triv p => exact (Returns.pure _).bind0 (Returns.pure _)
  have hm : Returns (parmDecryptToVec ck x) (x.map g) 0 := Returns.mapM g x (fun w _ => hg w)
  refine ⟨x.map g, by simp, ?_, ?_, ?_, ?_⟩
  · intro i h h'
    rw [List.getElem_map]
    exact hg _
  · intro hl hd
    refine ⟨hm.bind0 (convertFromVec_ok build (by simpa using hl) hd), ?_⟩
    have h1 : (value (x.map g)).natAbs < 2 ^ (x.map g).length := by
      apply valueN_abs_lt
      intro i hi
      simp only [List.getD_eq_getElem?_getD, List.getElem?_eq_getElem hi, Option.getD_some]
      exact hd _ (List.getElem_mem hi)
    have h2 : 2 ^ (x.map g).length ≤ 2 ^ 63 :=
      Nat.pow_le_pow_right (by norm_num) (by simpa using hl)
    omega
  · intro hl
    exact hm.bind_fails (convertFromVec_long build (by simpa using hl))
  · intro hl hd
    exact hm.bind_fails (convertFromVec_err build (by simpa using hl) hd)

/-- each of the three outcomes occurs: 63 words, 64 words, a word outside the alphabet -/
example : Returns (parmDecrypt Demo.ck .debug (trivCt _ Demo.cloud 62 ++ [encryptWordTriv _ Demo.cloud (-1)]))
    (-2 ^ 62) 0 := by
  have h := (Valid.trivCt Demo.st 62).append (Valid.single (WordEnc.triv Demo.st (-1) 1)
    (by unfold IsDigit; decide))
  rw [length_trivCt] at h
  exact (h.decrypt Demo.st .debug (by simp [length_trivCt])).congr (by norm_num) rfl
example : Fails (parmDecrypt Demo.ck .debug (trivCt _ Demo.cloud 64)) (.err .ctTooLong) := by
  obtain ⟨ds, _, _, _, h, _⟩ := C03_decrypt_total (ck := Demo.ck) .debug (trivCt _ Demo.cloud 64)
  exact h (by simp [length_trivCt])
example : Fails (parmDecrypt Demo.ck .debug [encryptWordTriv _ Demo.cloud 2]) (.err .decAlphabet) := by
  obtain ⟨ds, hl, hw, _, _, h⟩ := C03_decrypt_total (ck := Demo.ck) .debug
    [encryptWordTriv Demo.scheme.C Demo.cloud 2]
  refine h (by simp) ?_
  match ds, hl with
  | [d], _ =>
    have h2 := decryptMi_spec (WordEnc.triv Demo.st 2 1) (by norm_num)
    have h3 : d = 2 := ((hw 0 (by simp) (by simp)).unique h2).1.trans (by norm_num)
    subst h3
    unfold IsDigit; decide

/-- **C35.** A word holding message `m` (any integer) with noise below half a step decrypts to
the representative of `m` modulo 32 in `[-16, 16)`. -/
theorem C35_word_decrypt {w : Word S.C} {m : Int} {k : Nat} (h : WordEnc ck B w m k)
    (hk : k * B < 2 ^ 58) :
    ∃ v : Int, Returns (decryptMi (some ck) w) v 0 ∧ -16 ≤ v ∧ v < 16 ∧ (v - m) % 32 = 0 :=
  ⟨_, decryptMi_spec h hk, by omega, by omega, by omega⟩

/-- **C35**, fresh encryption of any integer -/
theorem C35_word_roundtrip (st : Setting S ck pc B D) (seed : Nat) (m : Int) :
    ∃ v : Int, Returns (decryptMi (some ck) (encryptWord ck pc.msgMod seed m)) v 0 ∧
      -16 ≤ v ∧ v < 16 ∧ (v - m) % 32 = 0 :=
  C35_word_decrypt (encryptWord_spec st seed m) (by
    have := st.tol8 (k := 1) (by norm_num); omega)

/-- **C35**, trivial words decrypt exactly, with or without key -/
theorem C35_triv_exact (hpc : pc.msgMod = 32) (key : Option (ClientKey S)) (m : Int) :
    ∃ v : Int, Returns (decryptMi key (encryptWordTriv S.C pc m)) v 0 ∧
      -16 ≤ v ∧ v < 16 ∧ (v - m) % 32 = 0 := by
  refine ⟨(m + 16) % 32 - 16, ?_, by omega, by omega, by omega⟩
  unfold decryptMi decryptMu encryptWordTriv
  refine (Returns.pure _).bind0 ?_
  refine (Returns.pure _).congr ?_ rfl
  rw [hpc]
  apply muToMi32
  rw [miToPt32]
  have := ptToMu32 m 0 (by norm_num)
  rwa [Int.add_zero] at this

/-- **C35**, the bound is sharp: noise of exactly half a step decrypts to the next message. -/
theorem C35_half_step_rounds_up (c : S.C) (m : Int)
    (hp : ck.phase c = BitVec.ofInt 64 (m * 2 ^ 59 + 2 ^ 58)) :
    Returns (decryptMi (some ck) ⟨.ct c, 32⟩) ((m + 1 + 16) % 32 - 16) 0 := by
  unfold decryptMi decryptMu
  refine (Returns.pure _).bind0 ?_
  refine (Returns.pure _).congr ?_ rfl
  apply muToMi32
  unfold ClientKey.decrypt
  rw [ptToMu32_nat]
  have h1 : ((ck.phase c).toNat : Int) = (m * 2 ^ 59 + 2 ^ 58) % 2 ^ 64 := by
    rw [hp, BitVec.toNat_ofInt, Int.toNat_of_nonneg (Int.emod_nonneg _ (by norm_num))]
    norm_num
  push_cast
  rw [h1]
  norm_num
  omega

example : ∃ v : Int, Returns (decryptMi (some Demo.ck) (encryptWord Demo.ck 32 7 (-45))) v 0 ∧
    -16 ≤ v ∧ v < 16 ∧ (v - -45) % 32 = 0 := C35_word_roundtrip Demo.st 7 (-45)
example : Returns (decryptMi (some Demo.ck) ⟨.ct ((0#64, BitVec.ofInt 64 (3 * 2 ^ 59 + 2 ^ 58)) : Demo.scheme.C), 32⟩)
    4 0 :=
  (C35_half_step_rounds_up (ck := Demo.ck) ((0#64, BitVec.ofInt 64 (3 * 2 ^ 59 + 2 ^ 58)) : Demo.scheme.C) 3
    (by decide +kernel)).congr (by norm_num) rfl

/-- **C37.** Without a client key, an encrypted word is an `Err` … -/
theorem C37_no_key_no_plaintext (c : S.C) (msgMod : Nat) :
    Fails (decryptMi (S := S) none ⟨.ct c, msgMod⟩) (.err .noClientKey) ∧
    Fails (decryptMu (S := S) none ⟨.ct c, msgMod⟩) (.err .noClientKey) :=
  ⟨Fails.bind (Fails.err _), Fails.err _⟩

/-- … and a trivial word decrypts to the same value with any key or none. -/
theorem C37_trivial_needs_no_key (key : Option (ClientKey S)) (pt : BitVec 64) (msgMod : Nat) :
    ∃ v, Returns (decryptMi key (⟨.triv pt, msgMod⟩ : Word S.C)) v 0 ∧
      Returns (decryptMi (S := S) none ⟨.triv pt, msgMod⟩) v 0 :=
  ⟨_, (Returns.pure _).bind0 (Returns.pure _), (Returns.pure _).bind0 (Returns.pure _)⟩

end

/-! ### C45, C46: helper functions of the API -/

theorem foldl_bitlen (p : Nat → Prop) [DecidablePred p] : ∀ n : Nat,
    let l := ((List.range n).map (· + 1)).foldl (fun l i => if p i then i + 1 else l) 1
    1 ≤ l ∧ l ≤ n + 1 ∧ (1 < l → p (l - 1)) ∧ ∀ i, l ≤ i → i ≤ n → ¬ p i
  | 0 => by simp; intro i h1 h2; omega
  | n + 1 => by
    obtain ⟨h0, h1, h2, h3⟩ := foldl_bitlen p n
    simp only [List.range_succ, List.map_append, List.map_cons, List.map_nil, List.foldl_append,
      List.foldl_cons, List.foldl_nil]
    split_ifs with hp
    · exact ⟨by omega, le_refl _, fun _ => by simpa using hp, fun i hi hi' => absurd hi (by omega)⟩
    · refine ⟨h0, by omega, h2, fun i hi hi' => ?_⟩
      by_cases h : i = n + 1
      · subst h; exact hp
      · exact h3 i hi (by omega)

theorem bit_mask_gen {w : Nat} (k : BitVec w) {i : Nat} (hi : i < w) :
    (k &&& (1#w <<< i) ≠ 0) ↔ k.toNat / 2 ^ i % 2 = 1 := by
  have hlt : 2 ^ i < 2 ^ w := Nat.pow_lt_pow_right (by norm_num) hi
  have h1 : (1#w <<< i).toNat = 2 ^ i := by
    have h1w : 1 < 2 ^ w := by have := Nat.two_pow_pos i; omega
    rw [BitVec.toNat_shiftLeft, Nat.shiftLeft_eq, BitVec.toNat_ofNat, Nat.mod_eq_of_lt h1w,
      Nat.one_mul, Nat.mod_eq_of_lt hlt]
  have h2 : (k &&& (1#w <<< i)).toNat = k.toNat / 2 ^ i % 2 * 2 ^ i := by
    rw [BitVec.toNat_and, h1, Nat.and_two_pow, Nat.testBit_eq_decide_div_mod_eq]
    rcases Nat.mod_two_eq_zero_or_one (k.toNat / 2 ^ i) with h | h <;> rw [h] <;> rfl
  have hp : 0 < 2 ^ i := Nat.two_pow_pos i
  constructor
  · intro h
    rcases Nat.mod_two_eq_zero_or_one (k.toNat / 2 ^ i) with h' | h'
    · exfalso; apply h
      apply BitVec.eq_of_toNat_eq
      rw [h2, h']; simp
    · exact h'
  · intro h he
    rw [he, h] at h2
    simp at h2
    omega

theorem bitlen_gen {w : Nat} (hw : 0 < w) (k : BitVec w) (hk : k ≠ 0) :
    let l := ((List.range (w - 1)).map (· + 1)).foldl
      (fun l i => if k &&& (1#w <<< i) ≠ 0 then i + 1 else l) 1
    k.toNat < 2 ^ l ∧ 2 ^ (l - 1) ≤ k.toNat := by
  obtain ⟨h0, h1, h2, h3⟩ := foldl_bitlen (fun i => k &&& (1#w <<< i) ≠ 0) (w - 1)
  refine ⟨?_, ?_⟩
  · refine lt_two_pow_of_bits w (by omega) k.isLt ?_
    intro i hi hi' hb
    exact h3 i hi (by omega) ((bit_mask_gen k hi').2 hb)
  · generalize ((List.range (w - 1)).map (· + 1)).foldl
      (fun l i => if k &&& (1#w <<< i) ≠ 0 then i + 1 else l) 1 = l at *
    by_cases hl : 1 < l
    · have := (bit_mask_gen k (i := l - 1) (by omega)).1 (h2 hl)
      by_contra hc
      rw [Nat.div_eq_of_lt (by omega)] at this
      simp at this
    · have : l = 1 := by omega
      subst this
      have : k.toNat ≠ 0 := fun h => hk (BitVec.eq_of_toNat_eq (by simpa using h))
      simp; omega

/-- **C45.** `bit_len_32` is the position of the highest set bit plus one, 0 for 0. -/
theorem C45_bit_len_32 (k : BitVec 32) :
    (k = 0 → bitLen32 k = 0) ∧
    (k ≠ 0 → 2 ^ (bitLen32 k - 1) ≤ k.toNat ∧ k.toNat < 2 ^ bitLen32 k) := by
  refine ⟨fun h => by simp [bitLen32, h], fun h => ?_⟩
  have := bitlen_gen (by norm_num) k h
  unfold bitLen32
  rw [if_neg h]
  exact ⟨this.2, this.1⟩

/-- **C45.** `bit_len_64` likewise. -/
theorem C45_bit_len_64 (k : BitVec 64) :
    (k = 0 → bitLen64 k = 0) ∧
    (k ≠ 0 → 2 ^ (bitLen64 k - 1) ≤ k.toNat ∧ k.toNat < 2 ^ bitLen64 k) := by
  refine ⟨fun h => by simp [bitLen64, h], fun h => ?_⟩
  have := bitlen_gen (by norm_num) k h
  unfold bitLen64
  rw [if_neg h]
  exact ⟨this.2, this.1⟩

example : bitLen32 0xffffffff#32 = 32 ∧ bitLen64 1#64 = 1 := by decide +kernel

/-- **C46.** `bin_hw` counts the nonzero digits of a vector over {-1,0,1} … -/
theorem C46_bin_hw : ∀ (v : List Int), (∀ d ∈ v, IsDigit d) →
    Returns (binHw v) (v.countP (· ≠ 0)) 0
  | [], _ => Returns.pure _
  | d :: v, h => by
    have hd := h d (by simp)
    unfold binHw
    have hd' : ¬ d.natAbs > 1 := by unfold IsDigit at hd; omega
    rw [if_neg hd']
    refine (C46_bin_hw v (fun a ha => h a (by simp [ha]))).bind0 ?_
    refine (Returns.pure _).congr ?_ rfl
    rcases hd with h | h | h <;> subst h <;> simp [Nat.add_comm]

/-- … and returns `Err` for any other vector. -/
theorem C46_bin_hw_err : ∀ (v : List Int), (¬ ∀ d ∈ v, IsDigit d) → Fails (binHw v) (.err .hwAlphabet)
  | [], h => absurd (by simp) h
  | d :: v, h => by
    unfold binHw
    by_cases hd : d.natAbs > 1
    · rw [if_pos hd]; exact Fails.err _
    · rw [if_neg hd]
      apply Fails.bind
      apply C46_bin_hw_err
      intro hall
      apply h
      intro a ha
      rcases List.mem_cons.1 ha with rfl | ha
      · unfold IsDigit; omega
      · exact hall a ha

example : Returns (binHw [1, 0, -1, 1]) 3 0 := C46_bin_hw _ (by unfold IsDigit; decide)
example : Fails (binHw [1, 0, 3, 1]) (.err .hwAlphabet) := C46_bin_hw_err _ (by unfold IsDigit; decide)

end Parm
