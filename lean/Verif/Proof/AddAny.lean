import Verif.Proof.Addition

/-!
# Addition of arbitrary ciphertexts: it never fails, with a known length and cost (C08, C09)

Nothing is assumed about the contents of the words: they may hold any phase (noisy, of no digit at all) or any trivial value.
-/

namespace Parm
section
variable {S : Scheme} {pc : Cloud}

/-- all words have message modulus 32 -/
def Mod32 {C : Type} (x : Ctxt C) : Prop := ∀ w ∈ x, w.msgMod = 32

theorem msgMod_add (a b : Word S.C) : (Word.add S a b).msgMod = a.msgMod := by
  obtain ⟨ac, am⟩ := a
  obtain ⟨bc, bm⟩ := b
  cases ac <;> cases bc <;> rfl

theorem msgMod_opp (a : Word S.C) : (Word.opp S a).msgMod = a.msgMod := by
  obtain ⟨ac, am⟩ := a
  cases ac <;> rfl

theorem msgMod_sub (a b : Word S.C) : (Word.sub S a b).msgMod = a.msgMod := msgMod_add _ _

theorem msgMod_mulConst (a : Word S.C) (k : Int) : (Word.mulConst S a k).msgMod = a.msgMod := by
  obtain ⟨ac, am⟩ := a
  unfold Word.mulConst
  cases ac <;> dsimp only <;> split_ifs <;> first | rfl | rw [msgMod_opp]

theorem ptToMu32_lt (pt : BitVec 64) : ptToMu 32 pt < 32 := by
  unfold ptToMu
  rw [delta32]
  dsimp only
  rw [BitVec.toNat_udiv]
  generalize pt + _ = p
  have := p.isLt
  rw [show (BitVec.ofNat 64 576460752303423488).toNat = 576460752303423488 from rfl]
  omega

/-- a look-up in a table of 16 entries, on any word -/
theorem evalLut5Uint_any (hm : pc.msgMod = 32) (hc : pc.carryMod = 1) {lut : List Nat} (hl : lut.length = 16)
    {w : Word S.C} (hw : w.msgMod = 32) :
    CYields (evalLut5Uint S pc w lut) (fun r n => r.msgMod = 32 ∧ r.isTriv = w.isTriv ∧ n = if w.isTriv then 0 else 1) := by
  obtain ⟨wc, wm⟩ := w
  dsimp only at hw
  subst hw
  unfold evalLut5Uint evalLut5Float
  cases wc with
  | ct c =>
    refine ⟨⟨.ct (S.pbs (genNoPaddingAcc pc fun x => (lut.map fun (v : Nat) => 2 * (u64ToF64 v : Int)).getD x 0) c),
      pc.msgMod⟩, 1, Returns.bindEq (k := 0) Returns.bumpPbs rfl ?_, hm, rfl, rfl⟩
    rw [if_neg (by rw [hm, hc, List.length_map]; omega)]
    exact Returns.pure _
  | triv pt =>
    have hlt := ptToMu32_lt pt
    have hfm : ∃ F, Returns (if ptToMu 32 pt < 16 then idx (lut.map fun (v : Nat) => 2 * (u64ToF64 v : Int)) (ptToMu 32 pt)
      else if ptToMu 32 pt < 32 then do
        let v ← idx (lut.map fun (v : Nat) => 2 * (u64ToF64 v : Int)) (ptToMu 32 pt - 16)
        pure (-v)
      else M.panic .lutRange : M Int) F 0 := by
      by_cases h : ptToMu 32 pt < 16
      · rw [if_pos h]
        exact ⟨_, Returns.idx (by simp; omega)⟩
      · rw [if_neg h, if_pos hlt]
        exact ⟨_, (Returns.idx (by simp; omega)).bind0 (Returns.pure _)⟩
    obtain ⟨F, hF⟩ := hfm
    dsimp only
    by_cases hh : satI32 F % 2 = 1
    · refine ⟨Word.addHalf S (encryptWordTriv S.C pc (satI32 ((F - 1).tdiv 2) % 32)), 0, hF.bind0 ?_, hm, rfl, rfl⟩
      simp only [hh, if_true]
      exact Returns.pure _
    · refine ⟨encryptWordTriv S.C pc (satI32 (F.tdiv 2) % 32), 0, hF.bind0 ?_, hm, rfl, rfl⟩
      simp only [hh, if_false]
      exact Returns.pure _

/-- **both operands have a word that is not a trivial zero** -/
theorem addSub_any (hm : pc.msgMod = 32) (hc : pc.carryMod = 1) (isAdd refresh : Bool) {x y : Ctxt S.C} (hx : Mod32 x)
    (hxr : rzero x < x.length) (hyr : rzero y < y.length) :
    CYields (addSubImpl S isAdd pc x y refresh) (fun z n =>
      let wlen := max (x.length - lzero x) (y.length - lzero y)
      let r := max (rzero x) (rzero y)
      Mod32 z ∧ z.length = wlen + 1 ∧
      n ≤ (if refresh then 2 else 1) * (wlen - r) ∧
      ((∀ i, r ≤ i → i < wlen → (∃ h : i < x.length, x[i].isTriv = false) ∨
        (∃ h : i < y.length, y[i].isTriv = false)) →
        n = (if refresh then 2 else 1) * (wlen - r))) := by
  unfold addSubImpl
  simp only [show rzero x ≠ x.length by omega, show rzero y ≠ y.length by omega, if_false]
  have hsx := rzero_lt_strip x hxr
  have hsy := rzero_lt_strip y hyr
  have hlx := lzero_le x
  have hly := lzero_le y
  obtain ⟨wlen, hwlen⟩ : ∃ n, n = max (x.length - lzero x) (y.length - lzero y) := ⟨_, rfl⟩
  obtain ⟨r, hr⟩ : ∃ n, n = max (rzero x) (rzero y) := ⟨_, rfl⟩
  rw [← hwlen, ← hr]
  have hrw : r < wlen := by omega
  obtain ⟨w0, hw0⟩ : ∃ w0, w0 = x.take wlen ++ List.replicate (wlen - x.length)
      (encryptWordTriv S.C pc 0) := ⟨_, rfl⟩
  have hl0 : w0.length = wlen := by rw [hw0]; simp; omega
  have hw0e : ∀ i (hi : i < w0.length), w0[i].msgMod = 32 ∧
      (w0[i].isTriv = true → ¬ ∃ h : i < x.length, x[i].isTriv = false) := by
    intro i hi
    by_cases h : i < x.length
    · have e : w0[i] = x[i] := by
        simp only [hw0]
        rw [List.getElem_append_left (by simp; omega)]
        simp
      rw [e]
      refine ⟨hx _ (List.getElem_mem h), ?_⟩
      rintro ht ⟨_, hf⟩; rw [ht] at hf; cases hf
    · have e : w0[i] = encryptWordTriv S.C pc 0 := by
        simp only [hw0]
        rw [List.getElem_append_right (by simp; omega)]
        simp
      rw [e]
      refine ⟨hm, ?_⟩
      rintro _ ⟨h', _⟩; exact h h'
  obtain ⟨w, hw⟩ : ∃ w, w = if isAdd then zipInplace (Word.add S) w0 y
      else zipInplace (Word.sub S) w0 y := ⟨_, rfl⟩
  have hlw : w.length = wlen := by
    rw [hw]; cases isAdd <;> simp [length_zipInplace, hl0]
  have hwe : ∀ i (hi : i < w.length), w[i].msgMod = 32 ∧
      (w[i].isTriv = true → ¬ ((∃ h : i < x.length, x[i].isTriv = false) ∨
        (∃ h : i < y.length, y[i].isTriv = false))) := by
    intro i hi
    have hi0 : i < w0.length := by omega
    obtain ⟨h1, h2⟩ := hw0e i hi0
    by_cases h : i < y.length
    · have e : w[i] = if isAdd then Word.add S w0[i] y[i] else Word.sub S w0[i] y[i] := by
        simp only [hw]
        cases isAdd
        · simp only [Bool.false_eq_true, if_false]
          rw [getElem_zipInplace _ _ _ _ _ hi0, dif_pos h]
        · simp only [if_true]
          rw [getElem_zipInplace _ _ _ _ _ hi0, dif_pos h]
      refine ⟨?_, ?_⟩
      · rw [e]
        split_ifs
        · rw [msgMod_add, h1]
        · rw [msgMod_sub, h1]
      · intro ht
        have : w0[i].isTriv = true ∧ y[i].isTriv = true := by
          rw [e] at ht
          cases isAdd
          · simpa [isTriv_sub] using ht
          · simpa [isTriv_add] using ht
        rintro (hh | ⟨_, hh⟩)
        · exact h2 this.1 hh
        · rw [this.2] at hh; cases hh
    · have e : w[i] = w0[i] := by
        simp only [hw]
        cases isAdd
        · simp only [Bool.false_eq_true, if_false]
          rw [getElem_zipInplace _ _ _ _ _ hi0, dif_neg h]
        · simp only [if_true]
          rw [getElem_zipInplace _ _ _ _ _ hi0, dif_neg h]
      rw [e]
      refine ⟨h1, ?_⟩
      intro ht
      rintro (hh | ⟨hh, _⟩)
      · exact h2 ht hh
      · exact h hh
  rw [← hw0, ← hw]
  have hlq : (trivCt S.C pc wlen).length = wlen := by simp [trivCt]
  rw [if_neg (by omega)]
  -- the carries
  refine CYields.bind (P := fun qHi n => qHi.length = wlen - r ∧
      (∀ i (hi : i < qHi.length), qHi[i].msgMod = 32) ∧
      n ≤ wlen - r ∧
      ((∀ i, r ≤ i → i < wlen → ((∃ h : i < x.length, x[i].isTriv = false) ∨
        (∃ h : i < y.length, y[i].isTriv = false))) → n = wlen - r)) ?_ ?_
  · have hlen : ((trivCt S.C pc wlen).drop r).length = wlen - r := by rw [List.length_drop, hlq]
    refine (CYields.parFor (P := fun i a n => a.msgMod = 32 ∧ n ≤ 1 ∧
      (w[i + r]?.map Word.isTriv = some false → n = 1)) ?_).mono ?_
    · intro i0 hi0
      rw [hlen] at hi0
      have hiw : i0 < (w.drop r).length := by rw [List.length_drop]; omega
      have hir : i0 + r < w.length := by omega
      have hget : (w.drop r)[i0] = w[i0 + r] := by
        rw [List.getElem_drop]; congr 1; omega
      have hmod := (hwe (i0 + r) hir).1
      obtain ⟨a, n, ha, hP⟩ : CYields (pbsF4 S pc (if i0 > 0 then
          Word.add S (Word.mulConst S w[i0 + r] 3) (w[i0 + r - 1]'(by omega))
          else Word.mulConst S w[i0 + r] 3)) (fun r' n => r'.msgMod = 32 ∧
            n ≤ 1 ∧ (w[i0 + r]?.map Word.isTriv = some false → n = 1)) := by
        have hopt : w[i0 + r]?.map Word.isTriv = some (w[i0 + r].isTriv) := by
          rw [List.getElem?_eq_getElem hir]; rfl
        rw [hopt]
        refine (evalLut5Uint_any hm hc (lut := lutF4) rfl ?_).mono ?_
        · split_ifs
          · rw [msgMod_add, msgMod_mulConst, hmod]
          · rw [msgMod_mulConst, hmod]
        · rintro a n ⟨h1, h2, h3⟩
          refine ⟨h1, by rw [h3]; split_ifs <;> omega, ?_⟩
          intro hf
          have hf' : w[i0 + r].isTriv = false := by simpa using hf
          rw [h3]
          by_cases g : i0 > 0
          · simp [if_pos g, isTriv_add, isTriv_mulConst, hf']
          · simp [if_neg g, isTriv_mulConst, hf']
      refine ⟨a, n, ?_, hP⟩
      refine (Returns.idx hiw).bind0 ?_
      rw [hget]
      by_cases h0 : i0 > 0
      · simp only [if_pos h0] at ha ⊢
        have hp : i0 + r - 1 < w.length := by omega
        refine Returns.bind0 (a := Word.add S (Word.mulConst S w[i0 + r] 3) w[i0 + r - 1]) ?_ ha
        exact (Returns.idx hp).bind0 (Returns.pure _)
      · simp only [if_neg h0] at ha ⊢
        exact Returns.bind0 (Returns.pure _) ha
    · rintro qHi n ⟨c, h1, h2, h3⟩
      rw [hlen] at h1 h3
      refine ⟨h1, fun i hi => (h2 i hi).1, ?_, ?_⟩
      · rw [h3]; exact sum_range_le (fun i hi => (h2 i (by omega)).2.1)
      · intro hall
        rw [h3]
        apply sum_range_eq
        intro i hi
        refine (h2 i (by omega)).2.2 ?_
        have hir : i + r < w.length := by omega
        rw [List.getElem?_eq_getElem hir]
        have := (hwe (i + r) hir).2
        cases hh : w[i + r].isTriv
        · simp [hh]
        · exact absurd (hall (i + r) (by omega) (by omega)) (this hh)
  rintro qHi n1 ⟨hql, hqe, hn1, hn1'⟩
  obtain ⟨q, hq⟩ : ∃ q, q = (trivCt S.C pc wlen).take r ++ qHi := ⟨_, rfl⟩
  rw [← hq]
  have hlenq : q.length = wlen := by rw [hq]; simp [hlq, hql]; omega
  have hqm : Mod32 q := by
    intro v hv
    rw [hq] at hv
    rcases List.mem_append.1 hv with hv | hv
    · have := List.mem_of_mem_take hv
      unfold trivCt at this
      rw [List.eq_of_mem_replicate this]
      exact hm
    · obtain ⟨i, hi, rfl⟩ := List.getElem_of_mem hv
      exact hqe i hi
  refine CYields.bind (P := fun w2 n => n = 0 ∧ w2.length = wlen ∧
      (∀ i (hi : i < w2.length), w2[i].msgMod = 32 ∧
        ∀ hiw : i < w.length, w[i].isTriv = false → w2[i].isTriv = false)) ?_ ?_
  · refine (CYields.seqFor (P := fun i a n => n = 0 ∧ a.msgMod = 32 ∧
        ∀ hiw : i < w.length, w[i].isTriv = false → a.isTriv = false) ?_).mono ?_
    · intro i hi
      have hiq : i < q.length := by omega
      refine ⟨if i > 0 then Word.add S (Word.sub S w[i] (Word.mulConst S q[i] 2)) (q[i - 1]'(by omega))
        else Word.sub S w[i] (Word.mulConst S q[i] 2), 0, ?_, rfl, ?_, ?_⟩
      · refine (Returns.idx hiq).bind0 ?_
        by_cases h0 : i > 0
        · simp only [if_pos h0]
          exact (Returns.idx (show i - 1 < q.length by omega)).bind0 (Returns.pure _)
        · simp only [if_neg h0]
          exact Returns.pure _
      · split_ifs
        · rw [msgMod_add, msgMod_sub, (hwe i hi).1]
        · rw [msgMod_sub, (hwe i hi).1]
      · intro _ hf
        split_ifs <;> simp [isTriv_add, isTriv_sub, hf]
    · rintro w2 n ⟨c, h1, h2, h3⟩
      refine ⟨?_, by rw [h1, hlw], ?_⟩
      · rw [h3]
        have : (List.range w.length).map c = (List.range w.length).map (fun _ => 0) := by
          apply List.map_congr_left
          intro i hi
          have hi' : i < w.length := by simpa using hi
          exact (h2 i (by omega)).1
        rw [this]
        simp
      · intro i hi
        exact (h2 i hi).2
  rintro w2 n2 ⟨rfl, hlw2, hw2e⟩
  have hlz : (trivCt S.C pc wlen).length = wlen := by simp [trivCt]
  obtain ⟨ql, hqlast⟩ : ∃ ql, q.getLast? = some ql :=
    ⟨_, List.getLast?_eq_some_getLast (by intro h; rw [h] at hlenq; simp at hlenq; omega)⟩
  have hqlm : ql.msgMod = 32 := hqm ql (List.mem_of_getLast? hqlast)
  refine CYields.bind (P := fun zHi n => zHi.length = wlen - r ∧ Mod32 zHi ∧
      n ≤ (if refresh then 1 else 0) * (wlen - r) ∧
      ((∀ i, r ≤ i → i < wlen → ((∃ h : i < x.length, x[i].isTriv = false) ∨
        (∃ h : i < y.length, y[i].isTriv = false))) → n = (if refresh then 1 else 0) * (wlen - r))) ?_ ?_
  · cases refresh
    · simp only [Bool.false_eq_true, if_false]
      refine CYields.pure ⟨by rw [List.length_drop, hlw2], ?_, by simp, by simp⟩
      intro v hv
      obtain ⟨i, hi, rfl⟩ := List.getElem_of_mem (List.mem_of_mem_drop hv)
      exact (hw2e i hi).1
    · simp only [if_true]
      have hlen : ((trivCt S.C pc wlen).drop r).length = wlen - r := by rw [List.length_drop, hlz]
      refine (CYields.parFor (P := fun i a n => a.msgMod = 32 ∧ n ≤ 1 ∧
        (w2[i + r]?.map Word.isTriv = some false → n = 1)) ?_).mono ?_
      · intro i0 hi0
        rw [hlen] at hi0
        have hiw : i0 < (w2.drop r).length := by rw [List.length_drop]; omega
        have hir : i0 + r < w2.length := by omega
        have hget : (w2.drop r)[i0] = w2[i0 + r] := by
          rw [List.getElem_drop]; congr 1; omega
        obtain ⟨a, n, ha, h1, h2, h3⟩ := evalLut5Uint_any (S := S) hm hc (lut := lutId) rfl (hw2e (i0 + r) hir).1
        refine ⟨a, n, (Returns.idx hiw).bind0 (by rw [hget]; exact ha), h1, by rw [h3]; split_ifs <;> omega, ?_⟩
        rw [List.getElem?_eq_getElem hir]
        intro hf
        have hf' : w2[i0 + r].isTriv = false := by simpa using hf
        rw [h3, hf']
        simp
      · rintro zHi n ⟨c, h1, h2, h3⟩
        rw [hlen] at h1 h3
        refine ⟨h1, ?_, ?_, ?_⟩
        · intro v hv
          obtain ⟨i, hi, rfl⟩ := List.getElem_of_mem hv
          exact (h2 i hi).1
        · rw [h3, Nat.one_mul]; exact sum_range_le (fun i hi => (h2 i (by omega)).2.1)
        · intro hall
          rw [h3, Nat.one_mul]
          apply sum_range_eq
          intro i hi
          refine (h2 i (by omega)).2.2 ?_
          have hir : i + r < w.length := by omega
          have hir2 : i + r < w2.length := by omega
          rw [List.getElem?_eq_getElem hir2]
          have := (hwe (i + r) hir).2
          cases hh : w[i + r].isTriv
          · simp [(hw2e (i + r) hir2).2 hir hh]
          · exact absurd (hall (i + r) (by omega) (by omega)) (this hh)
  rintro zHi n3 ⟨hzl, hzm, hn3, hn3'⟩
  rw [hqlast]
  refine CYields.pure ⟨?_, ?_, ?_, ?_⟩
  · intro v hv
    simp only [List.mem_append, List.mem_singleton] at hv
    rcases hv with (hv | hv) | hv
    · obtain ⟨i, hi, rfl⟩ := List.getElem_of_mem (List.mem_of_mem_take hv)
      exact (hw2e i hi).1
    · exact hzm v hv
    · rw [hv]; exact hqlm
  · simp [hlw2, hzl]; omega
  · cases refresh <;> simp at hn3 ⊢ <;> omega
  · intro hall
    have e1 := hn1' hall
    have e3 := hn3' hall
    cases refresh <;> simp at e3 ⊢ <;> omega

end
end Parm
