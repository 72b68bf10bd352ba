import Verif.Proof.AddAny
import Verif.Proof.ScalarMul

/-!
# No operation fails, whatever the words hold (C74)

The operands are only required to consist of words of message modulus 32.
-/

namespace Parm
section
variable {S : Scheme} {pc : Cloud}

/-- the moduli of the shipped parameters -/
structure Mods (pc : Cloud) : Prop where
  msg : pc.msgMod = 32
  carry : pc.carryMod = 1

theorem Mod32.nil {C : Type} : Mod32 ([] : Ctxt C) := by intro w h; cases h

theorem Mod32.append {C : Type} {x y : Ctxt C} (hx : Mod32 x) (hy : Mod32 y) : Mod32 (x ++ y) := by
  intro w h
  rcases List.mem_append.1 h with h | h
  · exact hx w h
  · exact hy w h

theorem Mod32.take {C : Type} {x : Ctxt C} (hx : Mod32 x) (n : Nat) : Mod32 (x.take n) :=
  fun w h => hx w (List.mem_of_mem_take h)

theorem Mod32.drop {C : Type} {x : Ctxt C} (hx : Mod32 x) (n : Nat) : Mod32 (x.drop n) :=
  fun w h => hx w (List.mem_of_mem_drop h)

theorem Mod32.get {C : Type} {x : Ctxt C} (hx : Mod32 x) {i : Nat} (h : i < x.length) : x[i].msgMod = 32 :=
  hx _ (List.getElem_mem h)

theorem Mod32.of_get {C : Type} {x : Ctxt C} (h : ∀ i (hi : i < x.length), x[i].msgMod = 32) : Mod32 x := by
  intro w hw
  obtain ⟨i, hi, rfl⟩ := List.getElem_of_mem hw
  exact h i hi

theorem Mod32.replicate {C : Type} {w : Word C} (hw : w.msgMod = 32) (n : Nat) : Mod32 (List.replicate n w) := by
  intro v hv
  rw [List.eq_of_mem_replicate hv]; exact hw

theorem Mods.triv (h : Mods pc) (C : Type) (m : Int) : (encryptWordTriv C pc m).msgMod = 32 := h.msg

theorem Mods.trivCt (h : Mods pc) (C : Type) (n : Nat) : Mod32 (trivCt C pc n) := Mod32.replicate (h.triv C 0) n

theorem Mod32.opp {x : Ctxt S.C} (hx : Mod32 x) : Mod32 (x.map (Word.opp S)) := by
  intro w hw
  obtain ⟨v, hv, rfl⟩ := List.mem_map.1 hw
  rw [msgMod_opp]; exact hx v hv

theorem Mod32.shift (h : Mods pc) {x : Ctxt S.C} (hx : Mod32 x) (k : Nat) : Mod32 (ctShift pc x k) := by
  unfold ctShift
  split_ifs
  · exact hx
  · exact (h.trivCt _ _).append hx

/-- a look-up in a table of 16 entries -/
theorem lut_any (h : Mods pc) {lut : List Nat} (hl : lut.length = 16) {w : Word S.C} (hw : w.msgMod = 32) :
    Yields (evalLut5Uint S pc w lut) (fun r => r.msgMod = 32) :=
  (evalLut5Uint_any h.msg h.carry hl hw).yields.mono fun _ ⟨_, h, _⟩ => h

theorem idx_any {C : Type} {x : Ctxt C} (hx : Mod32 x) {i : Nat} (h : i < x.length) :
    Yields (idx x i) (fun r => r.msgMod = 32) := (Returns.idx h).yields (hx.get h)

/-- addition, with the bound of the length by effective lengths -/
theorem addSub_any_eff (h : Mods pc) (isAdd refresh : Bool) {x y : Ctxt S.C} (hx : Mod32 x) (hy : Mod32 y) {a b : Nat}
    (ha : isAdd = true → Eff x a) (hb : isAdd = true → Eff y b) :
    Yields (addSubImpl S isAdd pc x y refresh) (fun z => Mod32 z ∧ z.length ≤ max x.length y.length + 1 ∧
      (isAdd = true → z.length ≤ max (max x.length y.length) (max a b + 1) ∧ Eff z (max a b + 1))) := by
  by_cases h1 : rzero x = x.length
  · refine (addSub_left_zero h1).yields ?_
    cases isAdd
    · have : (oppositeImpl S y).length = y.length := by simp [oppositeImpl]
      refine ⟨?_, ?_, by simp⟩
      · simpa [oppositeImpl] using hy.opp
      · simp only [Bool.false_eq_true, if_false]; omega
    · exact ⟨hy, by simp only [if_true]; omega, fun _ => ⟨by simp only [if_true]; omega, (hb rfl).mono (by omega)⟩⟩
  · by_cases h2 : rzero y = y.length
    · exact (addSub_right_zero h1 h2).yields ⟨hx, by omega, fun hi => ⟨by omega, (ha hi).mono (by omega)⟩⟩
    · have h1' : rzero x < x.length := by have := rzero_le x; omega
      have h2' : rzero y < y.length := by have := rzero_le y; omega
      refine (addSub_any h.msg h.carry isAdd refresh hx h1' h2').yields.mono ?_
      rintro z ⟨n, hz, hl, _⟩
      refine ⟨hz, by omega, fun hi => ?_⟩
      have e1 := (ha hi).strip h1'
      have e2 := (hb hi).strip h2'
      have hlen : z.length ≤ max a b + 1 := by omega
      exact ⟨by omega, (Eff.length z).mono hlen⟩

theorem ctAdd_any (h : Mods pc) {x y : Ctxt S.C} (hx : Mod32 x) (hy : Mod32 y) :
    Yields (ctAdd S pc x y) (fun z => Mod32 z ∧ z.length ≤ max x.length y.length + 1) :=
  ((addSub_any_eff h true true hx hy (fun _ => Eff.length x) (fun _ => Eff.length y)).mono fun _ h => ⟨h.1, h.2.1⟩).call

theorem ctAdd_any_eff (h : Mods pc) {x y : Ctxt S.C} (hx : Mod32 x) (hy : Mod32 y) {a b : Nat} (ha : Eff x a)
    (hb : Eff y b) :
    Yields (ctAdd S pc x y) (fun z => Mod32 z ∧ z.length ≤ max (max x.length y.length) (max a b + 1) ∧
      Eff z (max a b + 1)) :=
  ((addSub_any_eff h true true hx hy (fun _ => ha) (fun _ => hb)).mono fun _ h => ⟨h.1, h.2.2 rfl⟩).call

theorem addSub_any_len (h : Mods pc) (isAdd refresh : Bool) {x y : Ctxt S.C} (hx : Mod32 x) (hy : Mod32 y) :
    Yields (addSubImpl S isAdd pc x y refresh) (fun z => Mod32 z ∧ z.length ≤ max x.length y.length + 1) :=
  (addSub_any_eff h isAdd refresh hx hy (fun _ => Eff.length x) (fun _ => Eff.length y)).mono
    fun _ h => ⟨h.1, h.2.1⟩

/-! ### Constants -/

theorem ctAddConst_any (h : Mods pc) {x : Ctxt S.C} (hx : Mod32 x) {k : Int} (hk1 : -2 ^ 63 ≤ k) (hk2 : k < 2 ^ 63)
    (hk : pc.build = .release ∨ k ≠ -2 ^ 63) :
    Yields (ctAddConst S pc x k) (fun z => Mod32 z ∧ ∀ l, k.natAbs < 2 ^ l → z.length ≤ max x.length l + 1) := by
  unfold ctAddConst addConstImpl
  apply Yields.call
  have add : ∀ (ka : Int) (f : Nat → Int), (∀ l, k.natAbs < 2 ^ l → addConstLen (BitVec.ofInt 64 ka) ≤ l) →
      Yields (ctAdd S pc x ((List.range (addConstLen (BitVec.ofInt 64 ka))).map fun i => encryptWordTriv S.C pc (f i)))
        (fun z => Mod32 z ∧ ∀ l, k.natAbs < 2 ^ l → z.length ≤ max x.length l + 1) := by
    intro ka f hka
    refine (ctAdd_any h hx ?_).mono ?_
    · intro w hw
      obtain ⟨i, _, rfl⟩ := List.mem_map.1 hw
      exact h.triv _ _
    · rintro z ⟨h1, h2⟩
      refine ⟨h1, fun l hl => h2.trans ?_⟩
      have := hka l hl
      rw [List.length_map, List.length_range]
      omega
  by_cases h0 : k = 0
  · rw [if_pos h0]
    exact Yields.pure ⟨hx, fun l _ => by omega⟩
  · rw [if_neg h0]
    by_cases hmin : k = -2 ^ 63
    · have hr : pc.build = .release := hk.resolve_right fun hh => hh hmin
      refine Yields.bind (P := fun ka => ka = -2 ^ 63) ?_ ?_
      · rw [hr, hmin]
        have e : i64Op .release ((-2 ^ 63 : Int).natAbs : Int) = pure (-2 ^ 63) := by
          unfold i64Op
          rw [if_neg (by decide)]
          exact congrArg pure (by decide)
        rw [e]
        exact Yields.pure rfl
      · rintro _ rfl
        refine add _ _ fun l hl => ?_
        have : addConstLen (BitVec.ofInt 64 (-2 ^ 63)) = 0 := by decide
        omega
    · refine Yields.bind ((Returns.i64Op (by omega) (by omega)).yields rfl) ?_
      rintro _ rfl
      exact add _ _ (addConstLen_spec (a := k.natAbs) (by omega)).2.2

/-! ### Signum, maximum, rounding -/

theorem sgnFirst_any (h : Mods pc) {x : Ctxt S.C} (hx : Mod32 x) (j : Nat) {b : Word S.C} (hb : b.msgMod = 32) :
    Yields (sgnFirst S pc x j b) (fun r => r.msgMod = 32) := by
  unfold sgnFirst
  have step : ∀ (i : Nat) (w : Word S.C), w.msgMod = 32 →
      Yields (if sgnGamma * j + i < x.length then do
        let xi ← idx x (sgnGamma * j + i)
        let xi := if i = 0 then xi else Word.mulConst S xi (2 ^ i : Nat)
        pure (Word.add S w xi)
      else pure w) (fun r => r.msgMod = 32) := by
    intro i w hw
    by_cases hi : sgnGamma * j + i < x.length
    · rw [if_pos hi]
      refine Yields.bind (idx_any hx hi) ?_
      intro xi _
      exact Yields.pure (by rw [msgMod_add]; exact hw)
    · rw [if_neg hi]
      exact Yields.pure hw
  refine Yields.bind (P := fun r => r.msgMod = 32) ?_ ?_
  · split_ifs with hi hq
    · refine Yields.bind (idx_any hx hi) ?_
      intro x3 _
      refine Yields.bind (P := fun _ => True) (Yields.pure trivial) ?_
      intro _ _
      exact Yields.pure (by rw [msgMod_add]; exact hb)
    · refine Yields.bind (idx_any hx hi) ?_
      intro x3 h3
      refine Yields.bind (lut_any h rfl h3) ?_
      intro _ _
      exact Yields.pure (by rw [msgMod_add]; exact hb)
    · exact Yields.pure hb
  · intro b1 hb1
    refine Yields.bind (step 0 b1 hb1) ?_
    intro b2 hb2
    refine Yields.bind (step 1 b2 hb2) ?_
    intro b3 hb3
    exact step 2 b3 hb3

theorem foldl_add_mod (l : List (Word S.C)) : ∀ {b : Word S.C}, b.msgMod = 32 → (l.foldl (Word.add S) b).msgMod = 32 := by
  induction l with
  | nil => intro b hb; exact hb
  | cons a l ih => intro b hb; exact ih (by rw [msgMod_add]; exact hb)

theorem sgnNext_any (h : Mods pc) {x : Ctxt S.C} (hx : Mod32 x) (j : Nat) {b : Word S.C} (hb : b.msgMod = 32) :
    Yields (sgnNext S pc x j b) (fun r => r.msgMod = 32) := by
  unfold sgnNext
  refine Yields.bind (Yields.parFor (P := fun _ r => r.msgMod = 32) ?_) ?_
  · intro i hi
    split_ifs with hj
    · refine Yields.bind (idx_any hx hj) ?_
      intro xi hxi
      exact lut_any h rfl hxi
    · exact Yields.pure ((h.trivCt _ _).get hi)
  · intro sj _
    exact Yields.pure (foldl_add_mod sj hb)

theorem sgnRaw_any (h : Mods pc) : ∀ (fuel : Nat) {x : Ctxt S.C} (first : Bool), Mod32 x → x.length ≤ fuel →
    Yields (sgnRecursionRaw S pc fuel x first) (fun z => Mod32 z ∧ z.length = 1)
  | fuel, x, first, hx, hf => by
    unfold sgnRecursionRaw
    by_cases h0 : x.length = 0
    · rw [if_pos h0]
      exact Yields.pure ⟨h.trivCt _ _, by simp [trivCt]⟩
    · rw [if_neg h0]
      by_cases h1 : x.length = 1
      · rw [if_pos h1]; exact Yields.pure ⟨hx, h1⟩
      · rw [if_neg h1]
        cases fuel with
        | zero => omega
        | succ fuel =>
          simp only
          refine Yields.bind (Yields.parFor (P := fun _ r => r.msgMod = 32) ?_) ?_
          · intro j hj
            split_ifs
            · exact sgnFirst_any h hx j ((h.trivCt _ _).get hj)
            · exact sgnNext_any h hx j ((h.trivCt _ _).get hj)
          · rintro b ⟨hl, hb⟩
            refine sgnRaw_any h fuel false (Mod32.of_get hb) ?_
            rw [hl, length_trivCt]
            unfold sgnGamma
            omega

theorem ctSgn_any (h : Mods pc) {x : Ctxt S.C} (hx : Mod32 x) :
    Yields (ctSgn S pc x) (fun z => Mod32 z ∧ z.length = if x = [] then 0 else 1) := by
  unfold ctSgn sgnImpl
  apply Yields.call
  by_cases h0 : x.length = 0
  · rw [if_pos h0, if_pos (List.length_eq_zero_iff.1 h0)]
    exact Yields.pure ⟨Mod32.nil, rfl⟩
  · rw [if_neg h0, if_neg (fun hh => h0 (List.length_eq_zero_iff.2 hh))]
    by_cases h1 : x.length = 1
    · rw [if_pos h1]; exact Yields.pure ⟨hx, h1⟩
    · rw [if_neg h1]
      refine Yields.bind (sgnRaw_any h _ true hx (le_refl _)) ?_
      rintro s ⟨hs, hl⟩
      refine Yields.bind (idx_any hs (by omega)) ?_
      intro s0 hs0
      refine Yields.bind (lut_any h rfl hs0) ?_
      intro r hr
      refine Yields.pure ⟨?_, rfl⟩
      intro w hw
      rw [List.mem_singleton.1 hw]; exact hr

theorem pbsNonneg_any (h : Mods pc) {w : Word S.C} (hw : w.msgMod = 32) :
    Yields (pbsNonneg S pc w) (fun r => r.msgMod = 32) := by
  obtain ⟨wc, wm⟩ := w
  dsimp only at hw
  subst hw
  have hmod : ∀ w : Word S.C, (Word.addHalf S w).msgMod = w.msgMod := by
    rintro ⟨c, m⟩; cases c <;> rfl
  unfold pbsNonneg
  refine Yields.bind (P := fun r => r.msgMod = 32) ?_ fun r hr => Yields.pure (by rw [hmod]; exact hr)
  unfold evalLut5Float
  cases wc with
  | ct c =>
    refine Yields.bind (P := fun _ => True) (Returns.bumpPbs.yields trivial) fun _ _ => ?_
    rw [if_neg (by rw [h.msg, h.carry, List.length_replicate]; omega)]
    exact Yields.pure h.msg
  | triv pt =>
    have hlt := ptToMu32_lt pt
    dsimp only
    refine Yields.bind (P := fun _ => True) ?_ ?_
    · by_cases h1 : ptToMu 32 pt < 16
      · rw [if_pos h1]
        exact (Returns.idx (by rw [List.length_replicate]; omega)).yields trivial
      · rw [if_neg h1, if_pos hlt]
        have hi : ptToMu 32 pt - 16 < (List.replicate 16 (1 : Int)).length := by rw [List.length_replicate]; omega
        exact Yields.bind (P := fun _ => True) ((Returns.idx hi).yields trivial) fun _ _ => Yields.pure trivial
    · intro F _
      by_cases hh : satI32 F % 2 = 1
      · simp only [hh, if_true]
        exact Yields.pure h.msg
      · simp only [hh, if_false]
        exact Yields.pure h.msg

theorem maxImpl_any (h : Mods pc) {x y : Ctxt S.C} (hx : Mod32 x) (hy : Mod32 y) :
    Yields (maxImpl S pc x y) (fun z => Mod32 z ∧ z.length = max x.length y.length) := by
  unfold maxImpl
  refine Yields.bind (addSub_any_len h false true hx hy).call ?_
  rintro r ⟨hr, _⟩
  refine Yields.bind (sgnRaw_any h _ true hr (le_refl _)) ?_
  rintro s ⟨hs, hl⟩
  refine Yields.bind (idx_any hs (by omega)) ?_
  intro s0 hs0
  refine Yields.bind (pbsNonneg_any h hs0) ?_
  intro sg hsg
  have hxa : Mod32 (x ++ List.replicate (y.length - x.length) (encryptWordTriv S.C pc 0)) :=
    hx.append (Mod32.replicate (h.triv _ _) _)
  have hya : Mod32 (y ++ List.replicate (x.length - y.length) (encryptWordTriv S.C pc 0)) :=
    hy.append (Mod32.replicate (h.triv _ _) _)
  refine (Yields.parFor (P := fun _ r => r.msgMod = 32) ?_).mono ?_
  · intro i hi
    rw [length_trivCt] at hi
    refine Yields.bind (idx_any hxa hi) ?_
    intro xi hxi
    refine Yields.bind (idx_any hya (by simp at hi ⊢; omega)) ?_
    intro yi hyi
    refine Yields.bind (P := fun r => r.msgMod = 32) ?_ ?_
    · split_ifs
      · exact Yields.pure (by rw [msgMod_mulConst]; exact hyi)
      · exact lut_any h rfl hyi
    · intro t ht
      refine lut_any h rfl ?_
      rw [msgMod_add, msgMod_add]; exact ht
  · rintro z ⟨h1, h2⟩
    refine ⟨Mod32.of_get h2, ?_⟩
    rw [h1, length_trivCt]
    simp; omega

theorem ctRoundAt_any (h : Mods pc) {x : Ctxt S.C} (hx : Mod32 x) (p : Nat) :
    Yields (ctRoundAt S pc x p) (fun z => Mod32 z ∧ z.length ≤ max x.length (p + 1) + 1) := by
  unfold ctRoundAt roundAtImpl
  apply Yields.call
  by_cases h0 : p = 0
  · rw [if_pos h0]; exact Yields.pure ⟨hx, by omega⟩
  · rw [if_neg h0]
    by_cases h1 : p ≥ x.length + 1
    · rw [if_pos h1]; exact Yields.pure ⟨Mod32.nil, by simp [ctZero, emptyCt]⟩
    · rw [if_neg h1]
      refine Yields.bind (ctSgn_any h (hx.take _)) ?_
      rintro s ⟨hs, _⟩
      refine Yields.bind (idx_any hx (by omega)) ?_
      intro xp hxp
      refine Yields.bind (P := fun r => r.msgMod = 32) ?_ ?_
      · split_ifs with hl
        · refine Yields.bind (idx_any hs hl) ?_
          intro s0 _
          exact Yields.pure (by rw [msgMod_add, msgMod_mulConst]; exact hxp)
        · exact Yields.pure (by rw [msgMod_mulConst]; exact hxp)
      · intro yys hy
        refine Yields.bind (lut_any h rfl hy) ?_
        intro rw' hrw
        refine (ctAdd_any h (Mod32.shift h (hx.drop p) p) ((h.trivCt _ _).append ?_)).mono ?_
        · intro w hw
          rw [List.mem_singleton.1 hw]; exact hrw
        · rintro z ⟨z1, z2⟩
          refine ⟨z1, z2.trans ?_⟩
          rw [length_ctShift, List.length_append, length_trivCt, List.length_drop, List.length_singleton]
          omega

/-! ### Multiplication -/

theorem decryptMi_any {w : Word S.C} (ht : w.isTriv = true) : Yields (decryptMi (S := S) none w) (fun _ => True) := by
  obtain ⟨wc, wm⟩ := w
  cases wc with
  | ct c => cases ht
  | triv pt => exact ((Returns.pure _).bind0 (Returns.pure _)).yields trivial

theorem mulLwe_any (h : Mods pc) {x y : Word S.C} (hx : x.msgMod = 32) (hy : y.msgMod = 32) :
    Yields (mulLwe S pc x y) (fun r => r.msgMod = 32) := by
  unfold mulLwe
  by_cases htx : x.isTriv = true
  · rw [if_pos htx]
    refine Yields.bind (decryptMi_any htx) fun m _ => ?_
    exact Yields.pure (by rw [msgMod_mulConst]; exact hy)
  · rw [if_neg htx]
    by_cases hty : y.isTriv = true
    · rw [if_pos hty]
      refine Yields.bind (decryptMi_any hty) fun m _ => ?_
      exact Yields.pure (by rw [msgMod_mulConst]; exact hx)
    · rw [if_neg hty]
      exact lut_any h rfl (by rw [msgMod_add, msgMod_mulConst]; exact hx)

theorem fillMulary_any (h : Mods pc) {x y : Ctxt S.C} (hx : Mod32 x) (hy : Mod32 y) (hl : x.length = y.length) :
    Yields (fillMulary S pc x y) (fun rows => rows.length = x.length ∧
      ∀ j (hj : j < rows.length), Mod32 rows[j] ∧ rows[j].length = 2 * x.length ∧ Eff rows[j] (x.length + j)) := by
  unfold fillMulary
  rw [if_neg (by omega)]
  refine (Yields.parFor (P := fun j r => Mod32 r ∧ r.length = 2 * x.length ∧ Eff r (x.length + j)) ?_).mono ?_
  · intro j hj
    rw [List.length_replicate] at hj
    rw [List.getElem_replicate]
    refine Yields.bind (idx_any hy (by omega)) ?_
    intro yj hyj
    have hlen : (((trivCt S.C pc (2 * x.length)).drop j).take x.length).length = x.length := by
      simp [length_trivCt]; omega
    refine Yields.bind (Yields.parFor (P := fun i r => r.msgMod = 32) ?_) ?_
    · intro i hi
      rw [hlen] at hi
      refine Yields.bind (idx_any hx hi) ?_
      intro xi hxi
      exact (mulLwe_any h hxi hyj).expect
    · rintro mid ⟨hml, hm⟩
      rw [hlen] at hml
      refine Yields.pure ⟨(((h.trivCt _ _).take _).append (Mod32.of_get hm)).append ((h.trivCt _ _).drop _), ?_, ?_⟩
      · simp [length_trivCt, hml]; omega
      · intro i hi hi'
        have hdrop : (trivCt S.C pc (2 * x.length)).drop (j + x.length) = trivCt S.C pc (x.length - j) := by
          simp only [trivCt, List.drop_replicate]; congr 1; omega
        have hl : ((trivCt S.C pc (2 * x.length)).take j ++ mid).length ≤ i := by simp [length_trivCt, hml]; omega
        rw [List.getElem_append_right hl]
        have hz : ∀ w ∈ (trivCt S.C pc (2 * x.length)).drop (j + x.length), w.isTrivZero = true := by
          intro w hw
          rw [hdrop] at hw
          unfold trivCt at hw
          rw [List.eq_of_mem_replicate hw]
          simp only [encryptWordTriv, Word.isTrivZero]
          rw [h.msg]; decide
        exact hz _ (List.getElem_mem _)
  · rintro rows ⟨h1, h2⟩
    rw [List.length_replicate] at h1
    exact ⟨h1, h2⟩

theorem reduceLoop_any_eff (h : Mods pc) {n : Nat} : ∀ (rows : List (Ctxt S.C)) (j : Nat) (cur other : Ctxt S.C),
    (∀ i (hi : i < rows.length), Mod32 rows[i] ∧ rows[i].length = 2 * n ∧ Eff rows[i] (n + (j + i))) →
    j + rows.length = n → Mod32 cur → cur.length ≤ 2 * n → Eff cur (n + j) → 1 ≤ j →
    Yields (reduceLoop S pc rows cur other) (fun z => Mod32 z ∧ z.length ≤ 2 * n)
  | [], j, cur, other, _, _, hv, hl, _, _ => by
    unfold reduceLoop
    exact Yields.pure ⟨hv, hl⟩
  | row :: rows, j, cur, other, hrows, hjn, hv, hl, heff, hj => by
    unfold reduceLoop
    obtain ⟨h1, h2, h3⟩ := hrows 0 (by simp)
    simp only [List.getElem_cons_zero, Nat.add_zero] at h1 h2 h3
    rw [List.length_cons] at hjn
    refine Yields.bind (ctAdd_any_eff h hv h1 heff h3) ?_
    rintro z ⟨hz, hzl, hze⟩
    have hz2 : z.length ≤ 2 * n := by rw [Nat.max_self] at hzl; omega
    refine reduceLoop_any_eff h (n := n) rows (j + 1) z cur ?_ (by omega) hz hz2
      (hze.mono (by rw [Nat.max_self]; omega)) (by omega)
    intro i hi
    have := hrows (i + 1) (by simpa using hi)
    simp only [List.getElem_cons_succ] at this
    rwa [show j + (i + 1) = j + 1 + i by omega] at this

theorem mulSchoolbook_any (h : Mods pc) {x y : Ctxt S.C} (hx : Mod32 x) (hy : Mod32 y) (hl : x.length = y.length)
    (h2 : 2 ≤ x.length) : Yields (mulSchoolbook S pc x y) (fun z => Mod32 z ∧ z.length ≤ 2 * x.length) := by
  unfold mulSchoolbook
  refine Yields.bind (fillMulary_any h hx hy hl) ?_
  rintro rows ⟨hr, hrows⟩
  unfold reduceMulsquary
  refine Yields.bind ((Returns.idx (show 0 < rows.length by omega)).yields rfl) ?_
  rintro _ rfl
  refine Yields.bind ((Returns.idx (show 1 < rows.length by omega)).yields rfl) ?_
  rintro _ rfl
  obtain ⟨a1, a2, a3⟩ := hrows 0 (by omega)
  obtain ⟨b1, b2, b3⟩ := hrows 1 (by omega)
  refine Yields.bind (ctAdd_any_eff h a1 b1 a3 b3) ?_
  rintro s ⟨hs, hsl, hse⟩
  refine reduceLoop_any_eff h (n := x.length) (rows.drop 2) 2 s _ ?_ ?_ hs (by omega) (hse.mono (by omega)) (by norm_num)
  · intro i hi
    rw [List.getElem_drop]
    exact hrows (2 + i) (by simp at hi; omega)
  · simp; omega

theorem mul1word_any (h : Mods pc) {x y : Ctxt S.C} (hx : Mod32 x) (hy : Mod32 y) (hl : x.length = y.length)
    (h1 : x.length = 1) : Yields (mul1word S pc x y) (fun z => Mod32 z ∧ z.length ≤ 2) := by
  unfold mul1word
  refine Yields.bind (fillMulary_any h hx hy hl) ?_
  rintro rows ⟨hr, hrows⟩
  have h0 : 0 < rows.length := by omega
  obtain ⟨a1, a2, _⟩ := hrows 0 h0
  exact (Returns.idx h0).yields ⟨a1, by omega⟩

theorem mulKaratsuba_any (h : Mods pc) {mulRec : Ctxt S.C → Ctxt S.C → M (Ctxt S.C)} {x y : Ctxt S.C} {l : Nat}
    (hrec : ∀ {a b : Ctxt S.C}, Mod32 a → Mod32 b → ∀ n, max a.length b.length ≤ n → n < l →
      Yields (mulRec a b) (fun z => Mod32 z ∧ z.length ≤ mulLen n))
    (hx : Mod32 x) (hy : Mod32 y) (hlx : x.length = l) (hly : y.length = l)
    (h16 : 16 ≤ l) (h17 : l ≠ 17) (h32 : l ≤ 32) :
    Yields (mulKaratsuba S pc mulRec x y) (fun z => Mod32 z ∧ z.length ≤ mulLen l) := by
  unfold mulKaratsuba
  rw [if_neg (by omega), hlx]
  obtain ⟨n0, hn0⟩ : ∃ n0, n0 = (l + 1) / 2 := ⟨_, rfl⟩
  rw [← hn0]
  have lx0 : (x.take n0).length = n0 := by simp; omega
  have ly0 : (y.take n0).length = n0 := by simp; omega
  have lx1 : (x.drop n0).length = l - n0 := by simp [hlx]
  have ly1 : (y.drop n0).length = l - n0 := by simp [hly]
  refine Yields.bind (Yields.par2
    (P := fun r => Mod32 r.1 ∧ r.1.length ≤ mulLen (l - n0) ∧
      Mod32 r.2.1 ∧ r.2.1.length ≤ mulLen n0 ∧
      Mod32 r.2.2 ∧ r.2.2.length ≤ n0 + (max (mulLen (l - n0)) (mulLen n0) + 1))
    (Q := fun c => Mod32 c ∧ c.length ≤ n0 + mulLen (n0 + 1)) ?_ ?_) ?_
  · refine Yields.bind (Yields.par2 (hrec (hx.drop n0) (hy.drop n0) (l - n0) (by omega) (by omega))
      (hrec (hx.take n0) (hy.take n0) n0 (by omega) (by omega))) ?_
    rintro ⟨a, b⟩ ⟨⟨ha, hal⟩, hb, hbl⟩
    simp only at ha hal hb hbl
    refine Yields.bind (ctAdd_any h ha hb) ?_
    rintro p ⟨hp, hpl⟩
    refine Yields.pure ⟨ha, hal, hb, hbl, (h.trivCt _ _).append hp.opp, ?_⟩
    simp only [List.length_append, length_trivCt, List.length_map]; omega
  · refine Yields.bind (Yields.par2 (ctAdd_any h (hx.take n0) (hx.drop n0)) (ctAdd_any h (hy.take n0) (hy.drop n0))) ?_
    rintro ⟨p, q⟩ ⟨⟨hp, hpl⟩, hq, hql⟩
    simp only at hp hpl hq hql
    refine Yields.bind (hrec hp hq (n0 + 1) (by omega) (by omega)) ?_
    rintro c ⟨hc, hcl⟩
    refine Yields.pure ⟨(h.trivCt _ _).append hc, ?_⟩
    simp only [List.length_append, length_trivCt]; omega
  · rintro ⟨⟨a, b, nn⟩, c⟩ ⟨⟨ha, hal, hb, hbl, hn, hnl⟩, hc, hcl⟩
    simp only at ha hal hb hbl hn hnl hc hcl
    refine Yields.bind (ctAdd_any h hc hn) ?_
    rintro cn ⟨hcn, hcnl⟩
    have bound : ∀ r : Nat, r ≤ max (2 * n0 + mulLen (l - n0)) (max (mulLen n0)
        (max (n0 + mulLen (n0 + 1)) (n0 + (max (mulLen (l - n0)) (mulLen n0) + 1)) + 1) + 1) + 1 →
        r ≤ mulLen l := by
      intro r hr
      refine hr.trans ?_
      rw [hn0]
      clear * - h16 h17 h32
      interval_cases l <;> first | omega | decide
    by_cases hbe : b.length = 2 * n0
    · simp only [if_pos hbe]
      refine (ctAdd_any h (hb.append ha) hcn).mono ?_
      rintro z ⟨hz, hzl⟩
      rw [List.length_append] at hzl
      exact ⟨hz, bound _ (by omega)⟩
    · simp only [if_neg hbe]
      refine Yields.bind (ctAdd_any h hb hcn) ?_
      rintro bc ⟨hbc, hbcl⟩
      refine (ctAdd_any h (Mod32.shift h ha (2 * n0)) hbc).mono ?_
      rintro z ⟨hz, hzl⟩
      rw [length_ctShift] at hzl
      exact ⟨hz, bound _ (by omega)⟩

theorem mulImpl_any (h : Mods pc) : ∀ (fuel : Nat) {x y : Ctxt S.C},
    Mod32 x → Mod32 y → max x.length y.length ≤ 32 → max x.length y.length ≤ fuel →
    Yields (mulImpl S pc fuel x y) (fun z => Mod32 z ∧ z.length ≤ mulLen (max x.length y.length)) := by
  intro fuel
  have al : ∀ {x y : Ctxt S.C}, Mod32 x → Mod32 y → Mod32 (mulAlign S pc x y).1 ∧ Mod32 (mulAlign S pc x y).2 ∧
      (mulAlign S pc x y).1.length = max x.length y.length ∧ (mulAlign S pc x y).2.length = max x.length y.length := by
    intro x y hx hy
    unfold mulAlign
    exact ⟨hx.append (Mod32.replicate (h.triv _ _) _), hy.append (Mod32.replicate (h.triv _ _) _), by simp; omega,
      by simp; omega⟩
  induction fuel with
  | zero =>
    intro x y hx hy _ h0
    obtain ⟨ax, ay, lx, ly⟩ := al hx hy
    unfold mulImpl
    simp only
    rw [if_pos (by omega)]
    exact Yields.pure ⟨Mod32.nil, by simp [ctZero, emptyCt]⟩
  | succ fuel ih =>
    intro x y hx hy h32 hf
    obtain ⟨ax, ay, lx, ly⟩ := al hx hy
    unfold mulImpl
    simp only
    by_cases h0 : (mulAlign S pc x y).1.length = 0
    · rw [if_pos h0]
      exact Yields.pure ⟨Mod32.nil, by simp [ctZero, emptyCt]⟩
    · rw [if_neg h0]
      by_cases h1 : (mulAlign S pc x y).1.length = 1
      · rw [if_pos h1]
        refine (mul1word_any h ax ay (by omega) h1).mono ?_
        rintro z ⟨hz, hzl⟩
        exact ⟨hz, hzl.trans (by rw [show max x.length y.length = 1 by omega]; decide)⟩
      · rw [if_neg h1]
        by_cases h2 : (mulAlign S pc x y).1.length < 16 ∨ (mulAlign S pc x y).1.length = 17
        · rw [if_pos h2]
          refine (mulSchoolbook_any h ax ay (by omega) (by omega)).mono ?_
          rintro z ⟨hz, hzl⟩
          refine ⟨hz, hzl.trans ?_⟩
          unfold mulLen
          rw [if_pos (by omega)]; omega
        · rw [if_neg h2, if_pos (by omega)]
          refine mulKaratsuba_any h ?_ ax ay lx ly (by omega) (by omega) h32
          intro a b ha hb n hn hnl
          refine (ih ha hb (by omega) (by omega)).call.mono ?_
          rintro z ⟨hz, hzl⟩
          exact ⟨hz, hzl.trans (mulLen_mono hn)⟩

theorem ctMul_any (h : Mods pc) {x y : Ctxt S.C} (hx : Mod32 x) (hy : Mod32 y) (hl : max x.length y.length ≤ 32) :
    Yields (ctMul S pc x y) (fun z => Mod32 z ∧ z.length ≤ mulLen (max x.length y.length)) :=
  (mulImpl_any h mulFuel hx hy hl hl).call

/-! ### Squaring -/

theorem pbsSqu3_any (h : Mods pc) {w : Word S.C} (hw : w.msgMod = 32) {p : Nat} (hp : p ≤ 5) :
    Yields (pbsSqu3 S pc w p) (fun r => r.msgMod = 32) := by
  unfold pbsSqu3
  have : p = 0 ∨ p = 1 ∨ p = 2 ∨ p = 3 ∨ p = 4 ∨ p = 5 := by omega
  rcases this with rfl | rfl | rfl | rfl | rfl | rfl
  · exact lut_any h rfl hw
  · exact Yields.pure (h.triv _ _)
  all_goals exact lut_any h rfl hw

theorem squ23word_any (h : Mods pc) {x : Ctxt S.C} (hx : Mod32 x) (h2 : x.length = 2 ∨ x.length = 3) :
    Yields (squ23word S pc x) (fun z => Mod32 z ∧ z.length = 2 * x.length) := by
  unfold squ23word
  rw [if_neg (not_not.2 h2)]
  refine Yields.bind (P := fun r => r.msgMod = 32) ?_ ?_
  · split_ifs with hl
    · refine Yields.bind (idx_any hx (by omega)) fun x1 h1 => ?_
      refine Yields.bind (idx_any hx (by omega)) fun x0 h0 => ?_
      exact Yields.pure (by rw [msgMod_add, msgMod_mulConst]; exact h1)
    · refine Yields.bind (idx_any hx (by omega)) fun x2 h2 => ?_
      refine Yields.bind (idx_any hx (by omega)) fun x1 h1 => ?_
      refine Yields.bind (idx_any hx (by omega)) fun x0 h0 => ?_
      exact Yields.pure (by rw [msgMod_add, msgMod_mulConst, msgMod_add, msgMod_mulConst]; exact h2)
  · intro w hw
    refine Yields.bind (Yields.parFor (P := fun _ r => r.msgMod = 32) ?_) ?_
    · intro i hi
      rw [length_trivCt] at hi
      exact pbsSqu3_any h hw (by split_ifs <;> omega)
    · rintro res ⟨hl, hr⟩
      rw [length_trivCt] at hl
      have hres : Mod32 res := Mod32.of_get hr
      refine Yields.bind (idx_any hres (by omega)) fun r0 h0 => ?_
      refine Yields.pure ⟨?_, by simp; omega⟩
      intro v hv
      rcases List.mem_cons.1 hv with rfl | hv
      · exact h0
      · rcases List.mem_cons.1 hv with rfl | hv
        · exact h.triv _ _
        · exact hres.drop 1 v hv

theorem squDnq_any (h : Mods pc) {squRec : Ctxt S.C → M (Ctxt S.C)} {x : Ctxt S.C} {l : Nat}
    (hrec : ∀ {a : Ctxt S.C}, Mod32 a → a.length < l →
      Yields (squRec a) (fun z => Mod32 z ∧ z.length ≤ squLen a.length))
    (hx : Mod32 x) (hl : x.length = l) (h4 : 4 ≤ l) (h32 : l ≤ 32) :
    Yields (squDnq S pc squRec x) (fun z => Mod32 z ∧ z.length ≤ squLen l) := by
  unfold squDnq
  rw [hl]
  obtain ⟨n0, hn0⟩ : ∃ n0, n0 = (l + 1) / 2 := ⟨_, rfl⟩
  simp only [← hn0]
  have lx0 : (x.take n0).length = n0 := by simp; omega
  have lx1 : (x.drop n0).length = l - n0 := by simp [hl]
  have ra := hrec (hx.drop n0) (by omega)
  have rb := hrec (hx.take n0) (by omega)
  rw [lx1] at ra
  rw [lx0] at rb
  refine Yields.bind (Yields.par3 ra rb (R := fun c => Mod32 c ∧ c.length ≤ mulLen n0 + (n0 + 1)) ?_) ?_
  · refine Yields.bind (ctMul_any h (hx.take n0) (hx.drop n0) (by omega)) ?_
    rintro c ⟨hc, hcl⟩
    rw [lx0, lx1, Nat.max_eq_left (by omega)] at hcl
    exact Yields.pure ⟨Mod32.shift h hc _, by rw [length_ctShift]; omega⟩
  · rintro ⟨a, b, c⟩ ⟨⟨ha, hal⟩, ⟨hb, hbl⟩, hc, hcl⟩
    simp only at ha hal hb hbl hc hcl
    have bound : ∀ r : Nat, r ≤ max (2 * n0 + squLen (l - n0)) (max (squLen n0)
        (mulLen n0 + (n0 + 1)) + 1) + 1 → r ≤ squLen l := by
      intro r hr
      refine hr.trans ?_
      rw [hn0]
      clear * - h4 h32
      interval_cases l <;> decide
    by_cases hbe : b.length = 2 * n0
    · simp only [if_pos hbe]
      refine (ctAdd_any h (hb.append ha) hc).mono ?_
      rintro z ⟨hz, hzl⟩
      rw [List.length_append] at hzl
      exact ⟨hz, bound _ (by omega)⟩
    · simp only [if_neg hbe]
      refine Yields.bind (ctAdd_any h hb hc) ?_
      rintro bc ⟨hbc, hbcl⟩
      refine (ctAdd_any h (Mod32.shift h ha (2 * n0)) hbc).mono ?_
      rintro z ⟨hz, hzl⟩
      rw [length_ctShift] at hzl
      exact ⟨hz, bound _ (by omega)⟩

theorem squImpl_any (h : Mods pc) : ∀ (fuel : Nat) {x : Ctxt S.C}, Mod32 x → x.length ≤ 32 → x.length ≤ fuel →
    Yields (squImpl S pc fuel x) (fun z => Mod32 z ∧ z.length ≤ squLen x.length) := by
  intro fuel
  induction fuel with
  | zero =>
    intro x hx _ h0
    unfold squImpl
    rw [if_pos (by omega)]
    exact Yields.pure ⟨Mod32.nil, by simp [ctZero, emptyCt]⟩
  | succ fuel ih =>
    intro x hx h32 hf
    unfold squImpl
    by_cases h0 : x.length = 0
    · rw [if_pos h0]
      exact Yields.pure ⟨Mod32.nil, by simp [ctZero, emptyCt]⟩
    · rw [if_neg h0]
      by_cases h1 : x.length = 1
      · rw [if_pos h1]
        unfold squ1word
        refine Yields.bind (idx_any hx (by omega)) fun x0 hx0 => ?_
        refine Yields.bind (lut_any h rfl hx0) fun r hr => ?_
        refine Yields.pure ⟨?_, by rw [h1]; simp [singleCt, squLen]⟩
        intro w hw
        rw [List.mem_singleton.1 hw]; exact hr
      · rw [if_neg h1]
        by_cases h3 : x.length ≤ 3
        · rw [if_pos h3]
          have h23 : x.length = 2 ∨ x.length = 3 := by omega
          refine (squ23word_any h hx h23).mono ?_
          rintro z ⟨hz, hzl⟩
          refine ⟨hz, ?_⟩
          rw [hzl]
          rcases h23 with h | h <;> rw [h] <;> decide
        · rw [if_neg h3, if_pos h32]
          refine squDnq_any h ?_ hx rfl (by omega) h32
          intro a ha hal
          exact (ih ha (by omega) (by omega)).call

theorem ctSqu_any (h : Mods pc) {x : Ctxt S.C} (hx : Mod32 x) (hl : x.length ≤ 32) :
    Yields (ctSqu S pc x) (fun z => Mod32 z ∧ z.length ≤ squLen x.length) :=
  (squImpl_any h mulFuel hx hl hl).call

/-! ### Scalar multiplication -/

theorem ascLoop_any (h : Mods pc) {n : Nat} :
    ∀ (chain : Asc) (vals : List (Ctxt S.C)) (zs : List Int) (ls : List Nat) (c : Int),
    zs.length = vals.length → ls.length = vals.length →
    (∀ i (h : i < vals.length) (hl : i < ls.length), Mod32 vals[i] ∧ vals[i].length ≤ n + ls[i]) →
    chainGo chain zs = some c →
    Yields (ascLoop (ascArith S pc) chain vals) (fun out => ∃ z, out.getLast? = some z ∧ Mod32 z ∧
      z.length ≤ n + chainLenGo chain ls)
  | [], vals, zs, ls, c, hz, hl, hv, hc => by
    unfold ascLoop
    refine Yields.pure ?_
    unfold chainGo at hc
    rw [List.getLast?_eq_getElem?] at hc
    obtain ⟨hlt, hc⟩ := List.getElem?_eq_some_iff.1 hc
    have := hv (zs.length - 1) (by omega) (by omega)
    refine ⟨vals[zs.length - 1], ?_, this.1, ?_⟩
    · have e : vals.length - 1 = zs.length - 1 := by omega
      rw [List.getLast?_eq_getElem?, e, List.getElem?_eq_getElem (by omega)]
    · refine this.2.trans ?_
      unfold chainLenGo
      rw [List.getLastD_eq_getLast?, List.getLast?_eq_getElem?,
        List.getElem?_eq_getElem (show ls.length - 1 < ls.length by omega)]
      have : zs.length = ls.length := by omega
      simp [this]
  | e :: es, vals, zs, ls, c, hz, hll, hv, hc => by
    unfold chainGo at hc
    by_cases h1 : e.lIdx < vals.length
    · by_cases h2 : e.rIdx < vals.length
      · rw [List.getElem?_eq_getElem (show e.lIdx < zs.length by omega),
          List.getElem?_eq_getElem (show e.rIdx < zs.length by omega)] at hc
        simp only at hc
        obtain ⟨hl, l2⟩ := hv _ h1 (by omega)
        obtain ⟨r1, r2⟩ := hv _ h2 (by omega)
        have hr := Mod32.shift h r1 e.rShift
        have hopp : ∀ x : Ctxt S.C, (ctOpp S x).length = x.length := fun x => by simp [ctOpp, oppositeImpl]
        have hLl : (if e.lPos then vals[e.lIdx] else ctOpp S vals[e.lIdx]).length ≤ n + ls[e.lIdx] := by
          split_ifs
          · exact l2
          · rw [hopp]; exact l2
        have hRl : (if e.rPos then ctShift pc vals[e.rIdx] e.rShift
              else ctOpp S (ctShift pc vals[e.rIdx] e.rShift)).length ≤ n + ls[e.rIdx] + e.rShift := by
          have : (ctShift pc vals[e.rIdx] e.rShift).length ≤ n + ls[e.rIdx] + e.rShift := by
            rw [length_ctShift]; omega
          split_ifs
          · exact this
          · rw [hopp]; exact this
        unfold ascLoop ascStep
        refine Yields.bind (P := fun out => ∃ z, out = vals ++ [z] ∧ Mod32 z ∧
          z.length ≤ n + (max ls[e.lIdx] (ls[e.rIdx] + e.rShift) + 1)) ?_ ?_
        · refine Yields.bind ((Returns.idx h1).yields rfl) ?_
          rintro _ rfl
          refine Yields.bind ((Returns.pure _).yields rfl) ?_
          rintro _ rfl
          refine Yields.bind ((Returns.idx h2).yields rfl) ?_
          rintro _ rfl
          refine Yields.bind ((Returns.pure _).yields rfl) ?_
          rintro _ rfl
          refine Yields.bind ((Returns.pure _).yields rfl) ?_
          rintro _ rfl
          refine Yields.bind (ctAdd_any h (x := if e.lPos then vals[e.lIdx] else ctOpp S vals[e.lIdx])
            (y := if e.rPos then ctShift pc vals[e.rIdx] e.rShift
              else ctOpp S (ctShift pc vals[e.rIdx] e.rShift)) ?_ ?_) ?_
          · split_ifs
            · exact hl
            · exact hl.opp
          · split_ifs
            · exact hr
            · exact hr.opp
          · rintro z ⟨hz, hzl⟩
            exact Yields.pure ⟨z, rfl, hz, by omega⟩
        · rintro _ ⟨z, rfl, z1, z2⟩
          refine ascLoop_any h (n := n) es (vals ++ [z]) _
            (ls ++ [max (ls.getD e.lIdx 0) (ls.getD e.rIdx 0 + e.rShift) + 1]) c
            (by simp [hz]) (by simp [hll]) ?_ hc
          intro i hi hi''
          by_cases hiv : i < vals.length
          · rw [List.getElem_append_left hiv, List.getElem_append_left (show i < ls.length by omega)]
            exact hv i hiv _
          · have : i = vals.length := by simp at hi; omega
            subst this
            rw [List.getElem_append_right (by omega), List.getElem_append_right (by omega)]
            simp only [List.getElem_singleton]
            refine ⟨z1, ?_⟩
            rw [List.getD_eq_getElem _ _ (show e.lIdx < ls.length by omega),
              List.getD_eq_getElem _ _ (show e.rIdx < ls.length by omega)]
            exact z2
      · rw [List.getElem?_eq_none (show zs.length ≤ e.rIdx by omega)] at hc
        split at hc <;> simp_all
    · rw [List.getElem?_eq_none (show zs.length ≤ e.lIdx by omega)] at hc
      split at hc <;> simp_all

theorem reduceLoop_any (h : Mods pc) {m : Nat} : ∀ (rows : List (Ctxt S.C)) (cur other : Ctxt S.C),
    (∀ x ∈ rows, Mod32 x ∧ x.length ≤ m) → ∀ {t : Nat}, Mod32 cur → cur.length ≤ m + t →
    Yields (reduceLoop S pc rows cur other) (fun z => Mod32 z ∧ z.length ≤ m + t + rows.length)
  | [], cur, other, _, t, hc, hl => by unfold reduceLoop; exact Yields.pure ⟨hc, by simpa using hl⟩
  | row :: rows, cur, other, hr, t, hc, hl => by
    unfold reduceLoop
    obtain ⟨r1, r2⟩ := hr row (by simp)
    refine Yields.bind (ctAdd_any h hc r1) ?_
    rintro z ⟨hz, hzl⟩
    refine (reduceLoop_any h (m := m) rows z cur (fun x hx => hr x (by simp [hx])) (t := t + 1) hz (by omega)).mono ?_
    rintro w ⟨w1, w2⟩
    exact ⟨w1, by rw [List.length_cons]; omega⟩

theorem scalarMulImpl_any (h : Mods pc) (ht : TableOk pc.asc) {k : Int} (hk1 : -2 ^ 31 ≤ k) (hk2 : k < 2 ^ 31)
    (habs' : Returns (i32Op pc.build (k.natAbs : Int)) (wrapI32 (k.natAbs : Int)) 0)
    (hws : ∀ ws, 2 ≤ k.natAbs → Returns (windShifts .release k.natAbs ascBitlen) ws 0 →
      Returns (windShifts pc.build k.natAbs ascBitlen) ws 0)
    {x : Ctxt S.C} (hx : Mod32 x) : Yields (scalarMulImpl S pc k x) (fun z => Mod32 z ∧
      ∀ l, k.natAbs < 2 ^ l → z.length ≤ x.length + l + 7) := by
  unfold scalarMulImpl
  obtain ⟨xp, hxp⟩ : ∃ xp, xp = (if k ≥ 0 then x else x.map (Word.opp S)) := ⟨_, rfl⟩
  have hxpv : Mod32 xp := by
    rw [hxp]
    split_ifs
    · exact hx
    · exact hx.opp
  have hxpl : xp.length = x.length := by
    rw [hxp]; split_ifs <;> simp
  simp only [← hxp]
  clear hxp
  obtain ⟨ka, hka⟩ : ∃ ka : Nat, ka = k.natAbs := ⟨_, rfl⟩
  have hka31 : ka ≤ 2 ^ 31 := by omega
  have habs : Returns (i32Op pc.build (k.natAbs : Int)) (wrapI32 (ka : Int)) 0 := by
    rw [hka]; exact habs'
  have hwrap : (wrapU32 (wrapI32 (ka : Int))).toNat = ka := by
    have : wrapU32 (wrapI32 (ka : Int)) = ka := by
      unfold wrapU32 wrapI32
      rw [show ((2 : Nat) ^ 32 : Nat) = 4294967296 by norm_num]
      have := Int.bmod_emod (x := (ka : Int)) (m := 4294967296)
      norm_num at this ⊢
      rw [this]
      omega
    rw [this]; rfl
  refine Yields.bind (habs.yields rfl) ?_
  rintro _ rfl
  simp only [hwrap]
  rw [← hka] at hws
  rw [← hka]
  by_cases h0 : ka = 0
  · rw [if_pos h0]; exact Yields.pure ⟨Mod32.nil, fun l _ => by simp [emptyCt]⟩
  rw [if_neg h0]
  by_cases h1 : ka = 1
  · rw [if_pos h1]; exact Yields.pure ⟨hxpv, fun l _ => by omega⟩
  rw [if_neg h1]
  obtain ⟨ws, w1, w2, w3, w4, w5⟩ := windShifts_spec h0 (show ka < 2 ^ 32 by omega)
    (bitlen := ascBitlen) (by decide) (by decide)
  refine Yields.bind ((hws ws (by omega) w1).yields rfl) ?_
  rintro _ rfl
  have hwne : ∀ w ∈ ws, absU32 w.1 % 2 = 1 ∧ absU32 w.1 < 2 ^ 12 := by
    intro w hw
    have := w3 w hw
    unfold absU32
    refine ⟨by omega, this.2.1⟩
  refine Yields.bind (P := fun map => map.map (·.1) = (initKeys (emptyCt S.C) ws []).map (·.1) ∧
    ∀ e ∈ map, Mod32 e.2 ∧ e.2.length ≤ x.length + (Nat.log2 e.1 + 5)) ?_ ?_
  · refine (Yields.parFor (P := fun i e => e.1 = ((initKeys (emptyCt S.C) ws []).map (·.1)).getD i 0 ∧
      Mod32 e.2 ∧ e.2.length ≤ x.length + (Nat.log2 e.1 + 5)) ?_).mono ?_
    · intro i hi
      have hkey : ((initKeys (emptyCt S.C) ws [])[i]).1 ∈ (initKeys (emptyCt S.C) ws []).map (·.1) :=
        List.mem_map.2 ⟨_, List.getElem_mem hi, rfl⟩
      rw [mem_keys_initKeys] at hkey
      have hkey' : ((initKeys (emptyCt S.C) ws [])[i]).1 % 2 = 1 ∧
          ((initKeys (emptyCt S.C) ws [])[i]).1 < 2 ^ 12 := by
        rcases hkey with h | ⟨w, hw, e⟩
        · simp at h
        · rw [← e]; exact hwne w hw
      obtain ⟨ch, c1, c2, c3⟩ := ht _ hkey'.1 hkey'.2
      refine Yields.bind ((Returns.mapIdx c1).yields rfl) ?_
      rintro _ rfl
      refine Yields.bind (P := fun z => Mod32 z ∧ z.length ≤ xp.length + chainLen ch) ?_ ?_
      · apply Yields.expect
        unfold ascEval
        refine Yields.bind (ascLoop_any h (n := xp.length) ch [xp] [1] [0] _ rfl rfl ?_ c2) ?_
        · intro i hi _
          have : i = 0 := by simpa using hi
          subst this
          exact ⟨hxpv, by simp⟩
        · rintro out ⟨z, hz, hzm, hzl⟩
          rw [hz]
          exact Yields.pure ⟨hzm, hzl⟩
      · rintro z ⟨hz, hzl⟩
        refine Yields.pure ⟨?_, hz, by simp only; omega⟩
        rw [List.getD_eq_getElem _ _ (by simpa using hi)]
        simp
    · rintro map ⟨m1, m2⟩
      refine ⟨?_, ?_⟩
      · apply List.ext_getElem
        · simp [m1]
        · intro i hi hi'
          have := (m2 i (by simpa using hi)).1
          rw [List.getD_eq_getElem _ _ hi'] at this
          simpa using this
      · intro e he
        obtain ⟨i, hi, rfl⟩ := List.getElem_of_mem he
        exact (m2 i hi).2
  · rintro map ⟨m1, m2⟩
    obtain ⟨L, hL⟩ : ∃ L, bitLen32 (BitVec.ofNat 32 ka) = L := ⟨_, rfl⟩
    obtain ⟨b1, b2, b3, b4⟩ := bitLen32_spec h0 (show ka < 2 ^ 32 by omega)
    rw [hL] at w3 b1 b2 b3 b4
    refine Yields.bind (P := fun rows => rows.length = ws.length ∧
      ∀ r ∈ rows, Mod32 r ∧ r.length ≤ x.length + L + 5) ?_ ?_
    · refine (Yields.seqFor (P := fun i row => Mod32 row ∧ row.length ≤ x.length + L + 5) ?_).mono ?_
      · intro i hi
        have hiw : i < ws.length := by simpa using hi
        have hmem := List.getElem_mem hiw
        obtain ⟨u, u1, u2⟩ := mapGet?_some (m := map) (k := absU32 ws[i].1) (by
          rw [m1, mem_keys_initKeys]
          exact Or.inr ⟨_, hmem, rfl⟩)
        obtain ⟨u3, u4⟩ := m2 _ u2
        simp only at u3 u4
        have hw := w3 _ hmem
        have hlog : Nat.log2 (absU32 ws[i].1) + ws[i].2 ≤ L := by
          have := log2_lt_of (a := absU32 ws[i].1) (b := L + 1 - ws[i].2) (by unfold absU32; omega)
            hw.2.2.2
          omega
        refine Yields.bind ((Returns.idx hiw).yields rfl) ?_
        rintro _ rfl
        refine Yields.bind ((Returns.mapIdx u1).yields rfl) ?_
        rintro _ rfl
        split_ifs with hneg
        · refine Yields.pure ⟨Mod32.shift h (Mod32.opp u3) _, ?_⟩
          rw [length_ctShift]
          have : (ctOpp S u).length = u.length := by simp [ctOpp, oppositeImpl]
          omega
        · refine Yields.pure ⟨Mod32.shift h u3 _, ?_⟩
          rw [length_ctShift]; omega
      · rintro rows ⟨r1, r2⟩
        refine ⟨by simpa using r1, ?_⟩
        intro x hx
        obtain ⟨i, hi, rfl⟩ := List.getElem_of_mem hx
        exact r2 i hi
    · rintro rows ⟨r1, r2⟩
      have hpos : 0 < ws.length := List.length_pos_iff.2 w5
      have hlen3 : ws.length ≤ 3 := by
        by_contra hc
        have g : ∀ i (h : i < ws.length) (h' : i + 1 < ws.length), ws[i].2 + 12 ≤ ws[i+1].2 :=
          fun i h h' => (List.pairwise_iff_getElem.1 w4) i (i + 1) h h' (by omega)
        have g0 : ws[0].2 + 12 ≤ ws[1].2 := g 0 (by omega) (by omega)
        have g1 : ws[1].2 + 12 ≤ ws[2].2 := g 1 (by omega) (by omega)
        have g2 : ws[2].2 + 12 ≤ ws[3].2 := g 2 (by omega) (by omega)
        have := (w3 _ (List.getElem_mem (show 3 < ws.length by omega))).2.2.1
        omega
      have hLl : ∀ l, ka < 2 ^ l → L ≤ l := by
        intro l hl
        by_contra hc
        have : 2 ^ l ≤ 2 ^ (L - 1) := Nat.pow_le_pow_right (by norm_num) (by omega)
        omega
      by_cases hone : rows.length = 1
      · rw [if_pos hone]
        obtain ⟨q1, q2⟩ := r2 _ (List.getElem_mem (show 0 < rows.length by omega))
        refine (Returns.idx (show 0 < rows.length by omega)).yields ⟨q1, fun l hl => ?_⟩
        have := hLl l hl; omega
      · rw [if_neg hone]
        unfold reduceMulsquary
        refine Yields.bind ((Returns.idx (show 0 < rows.length by omega)).yields rfl) ?_
        rintro _ rfl
        refine Yields.bind ((Returns.idx (show 1 < rows.length by omega)).yields rfl) ?_
        rintro _ rfl
        obtain ⟨a1, a2⟩ := r2 _ (List.getElem_mem (show 0 < rows.length by omega))
        obtain ⟨c1, c2⟩ := r2 _ (List.getElem_mem (show 1 < rows.length by omega))
        refine Yields.bind (ctAdd_any h a1 c1) ?_
        rintro s ⟨hs, hsl⟩
        refine (reduceLoop_any h (m := x.length + L + 5) _ s _ (fun x hx => r2 x (List.mem_of_mem_drop hx)) (t := 1) hs
          (by omega)).mono ?_
        rintro z ⟨z1, z2⟩
        refine ⟨z1, fun l hl => ?_⟩
        have := hLl l hl
        rw [List.length_drop] at z2
        omega

theorem ctScalarMul_any (h : Mods pc) (hb : pc.build = .release) (ht : TableOk pc.asc)
    {k : Int} (hk1 : -2 ^ 31 ≤ k) (hk2 : k < 2 ^ 31) {x : Ctxt S.C} (hx : Mod32 x) :
    Yields (ctScalarMul S pc k x) (fun z => Mod32 z ∧ ∀ l, k.natAbs < 2 ^ l → z.length ≤ x.length + l + 7) :=
  (scalarMulImpl_any h ht hk1 hk2 (by rw [hb]; exact i32Op_release_abs hk1 hk2)
    (by rw [hb]; exact fun _ _ h => h) hx).call

end
end Parm
