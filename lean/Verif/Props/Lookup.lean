import Verif.Proof.Signum
import Verif.Proof.Instance

/-!
# Properties C32–C34, C36: words and look-up tables
-/

namespace Parm
section
variable {S : Scheme} {ck : ClientKey S} {pc : Cloud} {B D : Nat}

/-- **C32.** Look-up of a 16-entry table on an encrypted word: fresh noise, value `table[m]` on
the first half of the message space, `-table[m-16]` on the second; exactly one bootstrap. -/
theorem C32_lookup (st : Setting S ck pc B D) (lut : List Nat) (hl : lut.length = 16)
    (hr : ∀ v ∈ lut, v < 32) {w : Word S.C} {k : Nat} (hk : k ≤ tolWeight pc.params.quadWeight) (he : Encrypted w)
    (m : Nat) (hm : m < 32) (hw : WordEnc ck B w m k) :
    ∃ r, Returns (evalLut5Uint S pc w lut) r 1 ∧ Encrypted r ∧
      WordEnc ck B r (if h : m < 16 then (lut[m] : Int) else -(lut[m - 16] : Int)) 1 := by
  obtain ⟨r, n, h1, h2, h3, h4⟩ := evalLut5Uint_spec st hl.ge hr hk hw
  obtain ⟨wc, wm⟩ := w
  obtain ⟨c, hc⟩ := he
  simp only at hc
  subst hc
  rw [show n = 1 from h4] at h1
  refine ⟨r, h1, ?_, ?_⟩
  · obtain ⟨rc, rm⟩ := r
    cases rc with
    | ct c' => exact ⟨c', rfl⟩
    | triv p => cases h3
  · have e : tableAt (lut.map fun (v : Nat) => (v : Int)) m
        = if h : m < 16 then (lut[m] : Int) else -(lut[m - 16] : Int) := by
      unfold tableAt
      have e0 : (m : Int) % 32 = m := by omega
      rw [e0]
      by_cases h : m < 16
      · rw [if_pos (by omega), dif_pos h, Int.toNat_natCast]
        rw [List.getD_eq_getElem _ _ (by simp; omega), List.getElem_map]
      · have e1 : ((m : Int) - 16).toNat = m - 16 := by omega
        rw [if_neg (by omega), dif_neg h, e1]
        rw [List.getD_eq_getElem _ _ (by simp; omega), List.getElem_map]
    rwa [e] at h2

/-- a table of squares on an encryption of 20 = 16 + 4 -/
example : ∃ r, Returns (evalLut5Uint Demo.scheme Demo.cloud (encryptWord Demo.ck 32 3 20)
    [0,1,4,9,16,25,4,17,0,17,4,25,16,9,4,1]) r 1 ∧ WordEnc Demo.ck (2 ^ 53) r (-16) 1 := by
  obtain ⟨r, h1, _, h2⟩ := C32_lookup Demo.st [0,1,4,9,16,25,4,17,0,17,4,25,16,9,4,1] rfl (by decide)
    (k := 1) (Demo.st.wt8 (by norm_num)) ⟨_, rfl⟩ 20 (by norm_num) (encryptWord_spec Demo.st 3 20)
  exact ⟨r, h1, h2⟩

/-- **C33.** The look-up on a trivial word is trivial, costs nothing, and decrypts to the same
value as the look-up on an encryption of the same message. -/
theorem C33_trivial_agrees (st : Setting S ck pc B D) (lut : List Nat) (hl : lut.length = 16)
    (hr : ∀ v ∈ lut, v < 32) {w t : Word S.C} {k : Nat} (hk : k ≤ tolWeight pc.params.quadWeight)
    (ht : ¬ Encrypted t) {m : Int} (hw : WordEnc ck B w m k) (hwt : WordEnc ck B t m 0) :
    ∃ r r' n v, Returns (evalLut5Uint S pc t lut) r 0 ∧ ¬ Encrypted r ∧
      Returns (evalLut5Uint S pc w lut) r' n ∧
      Returns (decryptMi (S := S) none r) v 0 ∧ Returns (decryptMi (some ck) r') v 0 := by
  obtain ⟨r', n, h1, h2, _⟩ := evalLut5Uint_spec st hl.ge hr hk hw
  obtain ⟨r, n', g1, g2, g3, g4⟩ := evalLut5Uint_spec st hl.ge hr (k := 0) (by omega) hwt
  have hB : 1 * B < 2 ^ 58 := by have := st.tol8 (k := 1) (by norm_num); omega
  have tt : t.isTriv = true := by
    obtain ⟨tc, tm⟩ := t
    cases tc with
    | ct c => exact absurd ⟨c, rfl⟩ ht
    | triv p => rfl
  rw [tt] at g3 g4
  rw [show n' = 0 from g4] at g1
  refine ⟨r, r', n, _, g1, ?_, h1, ?_, decryptMi_spec h2 hB⟩
  · rintro ⟨c, hc⟩
    rw [Word.isTriv, hc] at g3; cases g3
  · have h5 := decryptMi_spec g2 hB
    obtain ⟨rc, rm⟩ := r
    cases rc with
    | ct c => cases g3
    | triv p => exact h5

example : ∃ r r' n v, Returns (evalLut5Uint Demo.scheme Demo.cloud (encryptWordTriv _ Demo.cloud 20)
      (lutF1 7)) r 0 ∧ ¬ Encrypted r ∧
      Returns (evalLut5Uint Demo.scheme Demo.cloud (encryptWord Demo.ck 32 3 20) (lutF1 7)) r' n ∧
      Returns (decryptMi (S := Demo.scheme) none r) v 0 ∧ Returns (decryptMi (some Demo.ck) r') v 0 :=
  C33_trivial_agrees Demo.st (lutF1 7) rfl (by decide) (k := 1) (Demo.st.wt8 (by norm_num))
    (by rintro ⟨c, hc⟩; cases hc) (encryptWord_spec Demo.st 3 20) (WordEnc.triv Demo.st 20 0)

/-- **C33**, the restriction to entries below 32 is needed: with all entries 33, a trivial word
gives 1 (33 modulo 32) while the look-up on *every* encrypted word gives 0, because the conversion
`f64 → u64` in the accumulator saturates. -/
theorem C33_large_entries_disagree (st : Setting S ck pc B D) (hB : B + 1 < 2 ^ 58) (c : S.C)
    {m : Int} (hm : WordEnc ck B ⟨.ct c, pc.msgMod⟩ m (tolWeight pc.params.quadWeight)) :
    (∃ r, Returns (evalLut5Uint S pc (encryptWordTriv S.C pc 0) (List.replicate 16 33)) r 0 ∧
      Returns (decryptMi (some ck) r) 1 0) ∧
    (∃ r, Returns (evalLut5Uint S pc ⟨.ct c, pc.msgMod⟩ (List.replicate 16 33)) r 1 ∧
      Returns (decryptMi (some ck) r) 0 0) := by
  have elut : ((List.replicate 16 33).map fun (v : Nat) => 2 * (u64ToF64 v : Int))
      = List.replicate 16 66 := by
    rw [List.map_replicate]; congr 1
  constructor
  · refine ⟨encryptWordTriv S.C pc 1, ?_, ?_⟩
    · unfold evalLut5Uint evalLut5Float
      rw [elut]
      have hm : ptToMu pc.msgMod (miToPt pc.msgMod 0) = 0 := by rw [st.msgMod]; decide
      refine Returns.bind0 (a := 66) ?_ ?_
      · show Returns (if ptToMu pc.msgMod (miToPt pc.msgMod 0) < 16
          then idx (List.replicate 16 (66 : Int)) (ptToMu pc.msgMod (miToPt pc.msgMod 0)) else _) _ _
        simp only [hm]
        exact (Returns.idx (l := List.replicate 16 (66 : Int)) (i := 0) (by simp)).congr rfl rfl
      · exact (Returns.pure _).congr rfl rfl
    · have := decryptMi_spec (WordEnc.triv st (ck := ck) 1 0) (by simp)
      exact this.congr (by norm_num) rfl
  · obtain ⟨half, hacc, _⟩ := st.accCond
    obtain ⟨acc, hA⟩ : ∃ acc, acc = genNoPaddingAcc pc (fun x => (List.replicate 16 (66 : Int)).getD x 0) :=
      ⟨_, rfl⟩
    obtain ⟨_, e0, he0, hp0⟩ := hm
    obtain ⟨k, d, e', hk, hd, he', hph, hres⟩ := st.sound.phase_pbs acc c m e0
      (by rw [hA]; exact length_genAcc hacc _) he0 hp0
    have hbox : ∃ s : Int, s.natAbs ≤ 1 ∧ negacyclic acc k = BitVec.ofInt 64 s := by
      rw [hA, negacyclic_genAcc hacc _ k hk]
      have hq : (k + half) / (2 * half) % 32 < 32 := Nat.mod_lt _ (by norm_num)
      obtain ⟨q, hqe⟩ : ∃ q, q = (k + half) / (2 * half) % 32 := ⟨_, rfl⟩
      rw [← hqe] at hq ⊢
      have h1 : ∀ i, i < 16 → (List.replicate 16 (66 : Int)).getD i 0 = 66 := by
        intro i hi
        rw [List.getD_eq_getElem _ _ (by simpa using hi), List.getElem_replicate]
      unfold boxAt
      by_cases h : q < 16
      · refine ⟨-1, by norm_num, ?_⟩
        rw [if_pos h]
        show satU64 ((List.replicate 16 (66 : Int)).getD q 0 * 2 ^ 59 / 2) = _
        rw [h1 q h]; decide
      · refine ⟨1, by norm_num, ?_⟩
        rw [if_neg h]
        show - satU64 ((List.replicate 16 (66 : Int)).getD (q - 16) 0 * 2 ^ 59 / 2) = _
        rw [h1 _ (by omega)]; decide
    obtain ⟨s, hs, hneg⟩ := hbox
    refine ⟨⟨.ct (S.pbs acc c), pc.msgMod⟩, ?_, ?_⟩
    · unfold evalLut5Uint evalLut5Float
      rw [elut]
      refine Returns.bindEq (k := 0) Returns.bumpPbs rfl ?_
      rw [if_neg (by rw [st.msgMod, st.carryMod]; simp), hA]
      exact Returns.pure _
    · have : WordEnc ck (B + 1) (⟨.ct (S.pbs acc c), pc.msgMod⟩ : Word S.C) 0 1 := by
        refine ⟨st.msgMod, s + e', by omega, ?_⟩
        rw [hres, hneg, ← ofInt_add']
        congr 1; omega
      exact (decryptMi_spec this (by omega)).congr (by norm_num) rfl

example : ∃ r, Returns (evalLut5Uint Demo.scheme Demo.cloud (encryptWord Demo.ck 32 3 0)
    (List.replicate 16 33)) r 1 ∧ Returns (decryptMi (some Demo.ck) r) 0 0 :=
  (C33_large_entries_disagree Demo.st (by norm_num) _
    (WordEnc.mono (encryptWord_spec Demo.st 3 0) (Demo.st.wt8 (by norm_num)))).2

/-- **C34.** The word operations are homomorphic modulo 32, on every mixture of trivial and
encrypted words, with the stated noise growth.  (`|c| < 2^31`: every `i32` constant except
`i32::MIN`.) -/
theorem C34_word_ops (st : Setting S ck pc B D) {a b : Word S.C} {m m' : Int} {k k' : Nat}
    (ha : WordEnc ck B a m k) (hb : WordEnc ck B b m' k') :
    WordEnc ck B (Word.add S a b) (m + m') (k + k') ∧
    WordEnc ck B (Word.sub S a b) (m - m') (k + k') ∧
    WordEnc ck B (Word.opp S a) (-m) k ∧
    ∀ c : Int, -2 ^ 31 < c → c < 2 ^ 31 → WordEnc ck B (Word.mulConst S a c) (c * m) (c.natAbs * k) :=
  ⟨ha.add st hb, ha.sub st hb, ha.opp st, fun c h1 h2 => ha.mulConst st c (by omega)⟩

/-- **C34**, end to end: messages and decryption.  If the accumulated noise stays below half a
step, `c·a + b` decrypts to `c·m + m'` modulo 32. -/
theorem C34_linear_decrypts (st : Setting S ck pc B D) (s s' : Nat) (m m' c : Int)
    (h1 : -2 ^ 31 < c) (h2 : c < 2 ^ 31) (hn : (c.natAbs + 1) * B < 2 ^ 58) :
    ∃ v : Int, Returns (decryptMi (some ck) (Word.add S (Word.mulConst S (encryptWord ck pc.msgMod s m) c)
        (encryptWord ck pc.msgMod s' m'))) v 0 ∧ -16 ≤ v ∧ v < 16 ∧ (v - (c * m + m')) % 32 = 0 := by
  have h := ((encryptWord_spec st s m).mulConst st c (by omega)).add st (encryptWord_spec st s' m')
  rw [Nat.mul_one] at h
  exact ⟨_, decryptMi_spec h hn, by omega, by omega, by omega⟩

example : ∃ v : Int, Returns (decryptMi (some Demo.ck) (Word.add Demo.scheme
      (Word.mulConst Demo.scheme (encryptWord Demo.ck 32 1 5) (-7)) (encryptWord Demo.ck 32 2 1))) v 0 ∧
      -16 ≤ v ∧ v < 16 ∧ (v - (-7 * 5 + 1)) % 32 = 0 :=
  C34_linear_decrypts Demo.st 1 2 5 1 (-7) (by norm_num) (by norm_num) (by norm_num)

/-- **C36.** Non-negativity test on encrypted and trivial words alike. -/
theorem C36_nonneg (st : Setting S ck pc B D) {w : Word S.C} {m : Int} (h1 : -16 ≤ m) (h2 : m < 16)
    {k : Nat} (hk : k ≤ tolWeight pc.params.quadWeight) (hw : WordEnc ck B w m k) :
    Yields (pbsNonneg S pc w) (fun r => WordEnc ck B r (if 0 ≤ m then 1 else 0) 1) := by
  refine (pbsNonneg_spec st hk hw).mono fun r hr => ?_
  have : (if m % 32 < 16 then (1 : Int) else 0) = if 0 ≤ m then 1 else 0 := by
    split_ifs <;> omega
  rwa [this] at hr

example : Yields (pbsNonneg Demo.scheme Demo.cloud (encryptWord Demo.ck 32 9 (-3)))
    (fun r => WordEnc Demo.ck (2 ^ 53) r 0 1) :=
  C36_nonneg Demo.st (by norm_num) (by norm_num) (k := 1) (Demo.st.wt8 (by norm_num)) (encryptWord_spec Demo.st 9 (-3))
example : Yields (pbsNonneg Demo.scheme Demo.cloud (encryptWordTriv _ Demo.cloud 0))
    (fun r => WordEnc Demo.ck (2 ^ 53) r 1 1) :=
  C36_nonneg Demo.st (by norm_num) (by norm_num) (k := 0) (by norm_num) (WordEnc.triv Demo.st 0 0)

end
end Parm
