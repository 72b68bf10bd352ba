import Verif.Proof.Word

/-!
# Look-up tables: accumulator and bootstrap
-/

namespace Parm

/-! ### The accumulator -/

theorem length_flatMap_replicate {α : Type} (g : Nat → α) (b : Nat) : ∀ n : Nat,
    ((List.range n).flatMap (fun i => List.replicate b (g i))).length = n * b := by
  intro n
  induction n with
  | zero => simp
  | succ n ih =>
    rw [List.range_succ, List.flatMap_append, List.length_append, ih, Nat.add_mul]
    simp

theorem flatMap_replicate_getElem {α : Type} (g : Nat → α) (b : Nat) (d : α) :
    ∀ (n j : Nat), j < n * b →
      ((List.range n).flatMap (fun i => List.replicate b (g i))).getD j d = g (j / b) := by
  intro n
  induction n with
  | zero => intro j hj; simp at hj
  | succ n ih =>
    intro j hj
    have hb : 0 < b := by
      rcases Nat.eq_zero_or_pos b with h | h
      · subst h; simp at hj
      · exact h
    have hlen := length_flatMap_replicate g b n
    rw [List.range_succ, List.flatMap_append]
    by_cases hjn : j < n * b
    · rw [List.getD_append _ _ _ _ (by rw [hlen]; exact hjn)]
      exact ih j hjn
    · rw [List.getD_append_right _ _ _ _ (by rw [hlen]; omega), hlen]
      have h1 : j / b = n := by
        apply Nat.div_eq_of_lt_le
        · omega
        · exact hj
      rw [Nat.add_mul] at hj
      have h2 : j - n * b < b := by omega
      simp [h1, List.getD_eq_getElem?_getD, h2]

/-- the parts of `Setting` the accumulator depends on -/
structure AccCond (pc : Cloud) (box : Nat) : Prop where
  msgMod : pc.msgMod = 32
  carryMod : pc.carryMod = 1
  poly : pc.polySize = 16 * (2 * box)
  pos : 0 < box

theorem length_genAcc {pc : Cloud} {half : Nat} (h : AccCond pc half) (f : Nat → Int) :
    (genNoPaddingAcc pc f).length = pc.polySize := by
  have := h.poly
  have := h.pos
  unfold genNoPaddingAcc
  simp only [h.msgMod, h.carryMod, List.length_append, List.length_drop, List.length_take,
    List.length_map, length_flatMap_replicate, List.length_replicate]
  omega

/-- value of the `m`-th box, `m < 32`, in the negacyclic extension -/
def boxAt (g : Nat → BitVec 64) (m : Nat) : BitVec 64 := if m < 16 then g m else - g (m - 16)

theorem getD_genAcc {pc : Cloud} {half : Nat} (h : AccCond pc half) (f : Nat → Int) (k : Nat)
    (hk : k < pc.polySize) :
    (genNoPaddingAcc pc f).getD k 0
      = boxAt (fun i => satU64 (f i * 2 ^ 59 / 2)) ((k + half) / (2 * half)) := by
  have hp := h.poly
  have hpos := h.pos
  obtain ⟨g, hg⟩ : ∃ g : Nat → BitVec 64, g = fun i => satU64 (f i * 2 ^ 59 / 2) := ⟨_, rfl⟩
  have e16 : (32 * 1 / 2 : Nat) = 16 := rfl
  have ed : ((2 ^ 63 / (32 * 1) * 2 : Nat) : Int) = 2 ^ 59 := by norm_num
  have eb : pc.polySize / 16 = 2 * half := by omega
  have eh : 2 * half / 2 = half := by omega
  have er : pc.polySize - 16 * (2 * half) = 0 := by omega
  obtain ⟨body, hbody⟩ : ∃ body : List (BitVec 64), body = (List.range 16).flatMap
      (fun i => List.replicate (2 * half) (g i)) := ⟨_, rfl⟩
  have hlen : body.length = pc.polySize := by
    rw [hbody, length_flatMap_replicate, hp]
  have hget : ∀ j, j < pc.polySize → body.getD j 0 = g (j / (2 * half)) := by
    intro j hj
    rw [hbody]
    exact flatMap_replicate_getElem g _ _ 16 j (by omega)
  have hbox : ∀ j, j < pc.polySize → j / (2 * half) < 16 := by
    intro j hj
    rw [Nat.div_lt_iff_lt_mul (by omega)]; omega
  have hacc : genNoPaddingAcc pc f = ((body.take half).map (fun a => -a) ++ body.drop half).drop half
      ++ ((body.take half).map (fun a => -a) ++ body.drop half).take half := by
    unfold genNoPaddingAcc
    simp only [h.msgMod, h.carryMod, e16, ed, eb, eh, er, List.replicate_zero, List.append_nil]
    rw [hbody, hg]
  have hl1 : ((body.take half).map (fun a => -a)).length = half := by
    simp [hlen]; omega
  have hd : ((body.take half).map (fun a => -a) ++ body.drop half).drop half = body.drop half := by
    rw [List.drop_append_of_le_length (by omega)]
    rw [List.drop_eq_nil_of_le (by omega), List.nil_append]
  have ht : ((body.take half).map (fun a => -a) ++ body.drop half).take half
      = (body.take half).map (fun a => -a) := by
    rw [List.take_append_of_le_length (by omega), List.take_of_length_le (by omega)]
  rw [hacc, hd, ht, ← hg]
  unfold boxAt
  by_cases hk1 : k + half < pc.polySize
  · rw [List.getD_append _ _ _ _ (by simp [hlen]; omega)]
    rw [if_pos (hbox _ hk1), ← hget _ hk1]
    simp [List.getD_eq_getElem?_getD, List.getElem?_drop, Nat.add_comm]
  · rw [List.getD_append_right _ _ _ _ (by simp [hlen]; omega)]
    have h1 : (k + half) / (2 * half) = 16 := by
      apply Nat.div_eq_of_lt_le <;> omega
    rw [h1]
    simp only [List.length_drop, hlen, Nat.lt_irrefl, if_false, Nat.sub_self]
    have h2 : k - (pc.polySize - half) < half := by omega
    have h3 : (k - (pc.polySize - half)) / (2 * half) = 0 := Nat.div_eq_of_lt (by omega)
    have h4 := hget (k - (pc.polySize - half)) (by omega)
    rw [h3] at h4
    rw [List.getD_eq_getElem?_getD] at h4 ⊢
    rw [List.getElem?_map, List.getElem?_take_of_lt h2]
    have h5 : k - (pc.polySize - half) < body.length := by omega
    rw [List.getElem?_eq_getElem h5] at h4 ⊢
    simpa using h4

theorem negacyclic_genAcc {pc : Cloud} {half : Nat} (h : AccCond pc half) (f : Nat → Int) (k : Nat)
    (hk : k < 2 * pc.polySize) :
    negacyclic (genNoPaddingAcc pc f) k
      = boxAt (fun i => satU64 (f i * 2 ^ 59 / 2)) ((k + half) / (2 * half) % 32) := by
  have hp := h.poly
  have hpos := h.pos
  unfold negacyclic
  rw [length_genAcc h]
  by_cases hk1 : k < pc.polySize
  · rw [if_pos hk1, getD_genAcc h f k hk1]
    have : (k + half) / (2 * half) < 32 := by
      rw [Nat.div_lt_iff_lt_mul (by omega)]; omega
    rw [Nat.mod_eq_of_lt this]
  · rw [if_neg hk1, getD_genAcc h f _ (by omega)]
    have h1 : (k + half) / (2 * half) = (k - pc.polySize + half) / (2 * half) + 16 := by
      have : k + half = (k - pc.polySize + half) + (2 * half) * 16 := by omega
      rw [this, Nat.add_mul_div_left _ _ (by omega)]
    have h2 : (k - pc.polySize + half) / (2 * half) < 17 := by
      rw [Nat.div_lt_iff_lt_mul (by omega)]; omega
    rw [h1]
    unfold boxAt
    have h4 : 0 ≤ (k - pc.polySize + half) / (2 * half) := Nat.zero_le _
    by_cases h3 : (k - pc.polySize + half) / (2 * half) < 16
    · rw [if_pos h3, Nat.mod_eq_of_lt (by omega), if_neg (by omega)]
      simp
    · have : (k - pc.polySize + half) / (2 * half) = 16 := by omega
      rw [this]
      simp

theorem satU64_mul {v : Int} (h0 : 0 ≤ v) (h1 : v < 64) :
    satU64 (v * 2 ^ 59 / 2) = BitVec.ofInt 64 (v * 2 ^ 58) := by
  have e : v * 2 ^ 59 / 2 = v * 2 ^ 58 := by omega
  rw [e]
  unfold satU64
  rw [if_neg (by omega), if_neg (by omega)]

/-! ### The bootstrap -/

section
variable {S : Scheme} {ck : ClientKey S} {pc : Cloud} {B D : Nat}

theorem Setting.accCond (st : Setting S ck pc B D) : ∃ half, AccCond pc half ∧
    (2 ^ 64 / (2 * pc.polySize)) * (2 * half) = 2 ^ 59 := by
  obtain ⟨logN, h5, h63, hN⟩ := st.polySize
  refine ⟨2 ^ (logN - 5), ⟨st.msgMod, st.carryMod, ?_, Nat.two_pow_pos _⟩, ?_⟩
  · rw [hN, show (16 : Nat) = 2 ^ 4 from rfl, ← Nat.pow_succ', ← Nat.pow_add]
    congr 1; omega
  · rw [hN, ← Nat.pow_succ', ← Nat.pow_succ', Nat.pow_div (by omega) (by norm_num), ← Nat.pow_add]
    congr 1; omega

theorem tableAt_eq_boxAt {lut : List Int} (hl : 16 ≤ lut.length) (hr : ∀ v ∈ lut, 0 ≤ v ∧ v < 64)
    (m : Int) :
    boxAt (fun i => satU64 (lut.getD i 0 * 2 ^ 59 / 2)) (m % 32).toNat
      = BitVec.ofInt 64 (tableAt lut m * 2 ^ 58) := by
  have hm0 := Int.emod_nonneg m (show (32 : Int) ≠ 0 by norm_num)
  have hm1 := Int.emod_lt_of_pos m (show (0 : Int) < 32 by norm_num)
  have hsat : ∀ i, i < 16 → satU64 (lut.getD i 0 * 2 ^ 59 / 2)
      = BitVec.ofInt 64 (lut.getD i 0 * 2 ^ 58) := by
    intro i hi
    have hi' : i < lut.length := by omega
    have := hr lut[i] (List.getElem_mem hi')
    apply satU64_mul <;> simp [List.getD_eq_getElem?_getD, hi', this]
  unfold boxAt tableAt
  by_cases h : m % 32 < 16
  · rw [if_pos (by omega), if_pos h]
    exact hsat _ (by omega)
  · rw [if_neg (by omega), if_neg h]
    simp only []
    rw [hsat _ (by omega), ← ofInt_neg']
    congr 1
    have : (m % 32).toNat - 16 = (m % 32 - 16).toNat := by omega
    rw [this]; ring

theorem tableAt_range {lut : List Int} (hl : 16 ≤ lut.length) (hr : ∀ v ∈ lut, 0 ≤ v ∧ v < 64)
    (m : Int) : -64 < tableAt lut m ∧ tableAt lut m < 64 := by
  have hm0 := Int.emod_nonneg m (show (32 : Int) ≠ 0 by norm_num)
  have hm1 := Int.emod_lt_of_pos m (show (0 : Int) < 32 by norm_num)
  have key : ∀ i, i < 16 → 0 ≤ lut.getD i 0 ∧ lut.getD i 0 < 64 := by
    intro i hi
    have hi' : i < lut.length := by omega
    have := hr lut[i] (List.getElem_mem hi')
    simp only [List.getD_eq_getElem?_getD, List.getElem?_eq_getElem hi', Option.getD_some]
    exact this
  unfold tableAt
  split
  · have := key (m % 32).toNat (by omega); omega
  · have := key (m % 32 - 16).toNat (by omega); omega

theorem pbs_spec (st : Setting S ck pc B D) {lut : List Int} (hl : 16 ≤ lut.length)
    (hr : ∀ v ∈ lut, 0 ≤ v ∧ v < 64) {c : S.C} {m e : Int} (heT : e.natAbs ≤ tolWeight pc.params.quadWeight * B)
    (hc : ck.phase c = BitVec.ofInt 64 (m * 2 ^ 59 + e)) :
    ∃ e' : Int, e'.natAbs ≤ B ∧
      ck.phase (S.pbs (genNoPaddingAcc pc (fun x => lut.getD x 0)) c)
        = BitVec.ofInt 64 (tableAt lut m * 2 ^ 58 + e') := by
  obtain ⟨half, hacc, hU⟩ := st.accCond
  have he : e.natAbs + D < 2 ^ 58 := by have := st.tolerance; omega
  obtain ⟨k, d, e', hk, hd, he', hph, hres⟩ := st.sound.phase_pbs
    (genNoPaddingAcc pc (fun x => lut.getD x 0)) c m e (length_genAcc hacc _) heT hc
  refine ⟨e', he', ?_⟩
  rw [hres, negacyclic_genAcc hacc _ k hk, ofInt_add', ← tableAt_eq_boxAt hl hr]
  congr 2
  rw [hc, ofInt_eq_iff] at hph
  obtain ⟨t, ht⟩ := hph
  have hpos := hacc.pos
  obtain ⟨U, hUeq⟩ : ∃ U, U = 2 ^ 64 / (2 * pc.polySize) := ⟨_, rfl⟩
  rw [← hUeq] at hU ht
  have hUpos : 0 < U := by
    rcases Nat.eq_zero_or_pos U with h | h
    · rw [h] at hU; norm_num at hU
    · exact h
  obtain ⟨q, hq⟩ : ∃ q, q = (k + half) / (2 * half) := ⟨_, rfl⟩
  rw [← hq]
  have hq1 : q * (2 * half) ≤ k + half := by rw [hq]; exact Nat.div_mul_le_self _ _
  have hq2 : k + half < (q + 1) * (2 * half) := by
    rw [hq]; exact Nat.lt_mul_of_div_lt (Nat.lt_succ_self _) (by omega)
  have h1 : q * 2 ^ 59 ≤ k * U + 2 ^ 58 := by
    have := Nat.mul_le_mul_right U hq1
    have e1 : q * (2 * half) * U = q * 2 ^ 59 := by rw [← hU]; ring
    have e2 : 2 * ((k + half) * U) = 2 * (k * U) + U * (2 * half) := by ring
    omega
  have h2 : k * U + 2 ^ 58 < (q + 1) * 2 ^ 59 := by
    have := Nat.mul_lt_mul_of_pos_right hq2 hUpos
    have e1 : (q + 1) * (2 * half) * U = (q + 1) * 2 ^ 59 := by rw [← hU]; ring
    have e2 : 2 * ((k + half) * U) = 2 * (k * U) + U * (2 * half) := by ring
    omega
  have hkU : ((k : Int) * (U : Int)) = ((k * U : Nat) : Int) := by push_cast; ring
  rw [hkU] at ht
  obtain ⟨X, hX⟩ : ∃ X, X = k * U := ⟨_, rfl⟩
  rw [← hX] at h1 h2 ht
  norm_num at *
  omega

/-- a word with `isTriv` -/
theorem isTriv_ct (c : S.C) (n : Nat) : (⟨.ct c, n⟩ : Word S.C).isTriv = false := rfl

/-- what a look-up does to one word -/
theorem evalLut5Float_spec (st : Setting S ck pc B D) {lut : List Int} (hl : 16 ≤ lut.length)
    (hr : ∀ v ∈ lut, 0 ≤ v ∧ v < 64) {w : Word S.C} {m : Int} {k : Nat} (hk : k ≤ tolWeight pc.params.quadWeight)
    (hw : WordEnc ck B w m k) :
    CYields (evalLut5Float S pc w lut) (fun r n => Enc2 ck B r (tableAt lut m) 1 ∧
      r.isTriv = w.isTriv ∧ n = if w.isTriv then 0 else 1) := by
  obtain ⟨wc, wm⟩ := w
  obtain ⟨h1, h2⟩ := hw
  simp only at h1
  subst h1
  cases wc with
  | ct c =>
    obtain ⟨e, he, hp⟩ := h2
    obtain ⟨e', he', hp'⟩ := pbs_spec st hl hr (m := m) (e := e) (he.trans (Nat.mul_le_mul_right B hk)) hp
    refine ⟨⟨.ct (S.pbs (genNoPaddingAcc pc (fun x => lut.getD x 0)) c), pc.msgMod⟩, 1, ?_,
      ⟨st.msgMod, e', by simpa using he', hp'⟩, rfl, rfl⟩
    unfold evalLut5Float
    refine Returns.bindEq (k := 0) Returns.bumpPbs rfl ?_
    rw [if_neg (by rw [st.msgMod, st.carryMod]; omega)]
    exact Returns.pure _
  | triv pt =>
    simp only at h2
    have hm0 := Int.emod_nonneg m (show (32 : Int) ≠ 0 by norm_num)
    have hm1 := Int.emod_lt_of_pos m (show (0 : Int) < 32 by norm_num)
    have hmu : (ptToMu 32 pt : Int) = m % 32 := by
      have := ptToMu32 m 0 (by norm_num)
      rw [Int.add_zero, ← h2] at this
      exact this
    have hrange := tableAt_range hl hr m
    obtain ⟨F, hF⟩ : ∃ F, F = tableAt lut m := ⟨_, rfl⟩
    have hfm : Returns (if ptToMu 32 pt < 16 then idx lut (ptToMu 32 pt)
      else if ptToMu 32 pt < 32 then do
        let v ← idx lut (ptToMu 32 pt - 16)
        pure (-v)
      else M.panic .lutRange : M Int) F 0 := by
      rw [hF]
      unfold tableAt
      by_cases h : ptToMu 32 pt < 16
      · rw [if_pos h, if_pos (by omega)]
        refine (Returns.idx (by omega)).congr ?_ rfl
        have : (m % 32).toNat = ptToMu 32 pt := by omega
        rw [this]
        simp [List.getD_eq_getElem?_getD, List.getElem?_eq_getElem (show ptToMu 32 pt < lut.length by omega)]
      · rw [if_neg h, if_pos (by omega), if_neg (by omega)]
        refine (Returns.idx (by omega)).bind0 ?_
        refine (Returns.pure _).congr ?_ rfl
        have : (m % 32 - 16).toNat = ptToMu 32 pt - 16 := by omega
        rw [this]
        simp [List.getD_eq_getElem?_getD, List.getElem?_eq_getElem (show ptToMu 32 pt - 16 < lut.length by omega)]
    rw [← hF] at hrange ⊢
    have hsat : satI32 F = F := by
      unfold satI32
      rw [if_neg (by omega), if_neg (by omega)]
    unfold evalLut5Float
    by_cases hodd : F % 2 = 1
    · refine ⟨Word.addHalf S (encryptWordTriv S.C pc (((F - 1) / 2) % 32)), 0, ?_, ?_, rfl, rfl⟩
      · refine Returns.bind0 hfm ?_
        rw [hsat]
        have e1 : (F - 1).tdiv 2 = (F - 1) / 2 := by
          rw [Int.tdiv_eq_ediv]
          split
          · omega
          · rename_i hh; exact absurd (Or.inr (by omega)) hh
        have hs2 : satI32 ((F - 1) / 2) = (F - 1) / 2 := by
          unfold satI32
          rw [if_neg (by omega), if_neg (by omega)]
        simp only [hodd, if_true, e1, hs2]
        exact Returns.pure _
      · have := (Enc2.triv (ck := ck) (B := B) st.msgMod (((F - 1) / 2) % 32) 1).addHalf st.sound
        refine this.congr (-((F - 1) / 2 / 32)) ?_
        omega
    · refine ⟨encryptWordTriv S.C pc ((F / 2) % 32), 0, ?_, ?_, rfl, rfl⟩
      · refine Returns.bind0 hfm ?_
        rw [hsat]
        have e1 : F.tdiv 2 = F / 2 := by
          rw [Int.tdiv_eq_ediv]
          split
          · omega
          · rename_i hh; exact absurd (Or.inr (by omega)) hh
        have hs2 : satI32 (F / 2) = F / 2 := by
          unfold satI32
          rw [if_neg (by omega), if_neg (by omega)]
        simp only [hodd, if_false, e1, hs2]
        exact Returns.pure _
      · refine (Enc2.triv (ck := ck) (B := B) st.msgMod ((F / 2) % 32) 1).congr (-(F / 2 / 32)) ?_
        omega

theorem WordEnc.mono {w : Word S.C} {m : Int} {k k' : Nat} (hw : WordEnc ck B w m k) (hk : k ≤ k') :
    WordEnc ck B w m k' := by
  rw [wordEnc_iff] at *; exact hw.mono hk

theorem WordEnc.congr {w : Word S.C} {m m' : Int} {k : Nat} (hw : WordEnc ck B w m k)
    (h : m % 32 = m' % 32) : WordEnc ck B w m' k := by
  rw [wordEnc_iff] at *
  exact hw.congr (m / 32 - m' / 32) (by omega)

theorem tableAt_double (lut : List Nat) (m : Int) :
    tableAt (lut.map fun (v : Nat) => 2 * (v : Int)) m = 2 * tableAt (lut.map fun (v : Nat) => (v : Int)) m := by
  unfold tableAt
  have : ∀ i, (lut.map fun (v : Nat) => 2 * (v : Int)).getD i 0
      = 2 * (lut.map fun (v : Nat) => (v : Int)).getD i 0 := by
    intro i
    simp only [List.getD_eq_getElem?_getD, List.getElem?_map]
    cases lut[i]? <;> simp
  rw [this, this]
  split <;> ring

/-- what an integer look-up does to one word -/
theorem evalLut5Uint_spec (st : Setting S ck pc B D) {lut : List Nat} (hl : 16 ≤ lut.length)
    (hr : ∀ v ∈ lut, v < 32) {w : Word S.C} {m : Int} {k : Nat} (hk : k ≤ tolWeight pc.params.quadWeight)
    (hw : WordEnc ck B w m k) :
    CYields (evalLut5Uint S pc w lut) (fun r n =>
      WordEnc ck B r (tableAt (lut.map fun (v : Nat) => (v : Int)) m) 1 ∧
      r.isTriv = w.isTriv ∧ n = if w.isTriv then 0 else 1) := by
  have e : (lut.map fun (v : Nat) => 2 * (u64ToF64 v : Int))
      = lut.map fun (v : Nat) => 2 * (v : Int) := by
    apply List.map_congr_left
    intro v hv
    have := hr v hv
    unfold u64ToF64
    rw [if_pos (by omega)]
  unfold evalLut5Uint
  rw [e]
  have := evalLut5Float_spec st (lut := lut.map fun (v : Nat) => 2 * (v : Int)) (by simpa using hl)
    (by
      intro v hv
      obtain ⟨n, hn, rfl⟩ := List.mem_map.1 hv
      have := hr n hn
      omega) hk hw
  refine this.mono ?_
  rintro r n ⟨h1, h2, h3⟩
  refine ⟨?_, h2, h3⟩
  rw [wordEnc_iff, ← tableAt_double]
  exact h1

end

end Parm
