import Verif.Proof.ScalarCost
import Verif.SpecCost

/-!
# Bounds on numbers of words and of bootstraps, for arbitrary operands

Interval analysis: a ciphertext is described by the range of positions outside of which its words are trivial zeros.
-/

namespace Parm
variable {S : Scheme} {pc : Cloud}

/-- words below `lo` and from `hi` on are trivial zeros -/
def Supp {C : Type} (x : Ctxt C) (lo hi : Nat) : Prop :=
  ∀ i (h : i < x.length), i < lo ∨ hi ≤ i → x[i].isTrivZero = true

theorem Supp.all {C : Type} (x : Ctxt C) : Supp x 0 x.length := fun i h h' => by omega

theorem Supp.mono {C : Type} {x : Ctxt C} {lo hi lo' hi' : Nat} (h : Supp x lo hi) (h1 : lo' ≤ lo) (h2 : hi ≤ hi') :
    Supp x lo' hi' := fun i hi h' => h i hi (by omega)

theorem Supp.nil {C : Type} (lo hi : Nat) : Supp ([] : Ctxt C) lo hi := fun i h => by simp at h

theorem Supp.strip {C : Type} {x : Ctxt C} {lo hi : Nat} (h : Supp x lo hi) (hr : rzero x < x.length) :
    x.length - lzero x ≤ hi := by
  by_contra hc
  have hl := lzero_lt_of_rzero x hr
  have h1 := lzero_at x hl
  rw [h _ (by omega) (by omega)] at h1
  cases h1

theorem Supp.low {C : Type} {x : Ctxt C} {lo hi : Nat} (h : Supp x lo hi) (hr : rzero x < x.length) :
    lo ≤ rzero x := by
  by_contra hc
  have h1 := rzero_at x hr
  rw [h _ hr (by omega)] at h1
  cases h1

theorem trivZero_iff {C : Type} {w : Word C} : w.isTrivZero = true ↔ w.ct = .triv 0 := by
  unfold Word.isTrivZero
  cases w.ct <;> simp

theorem trivZero_opp {w : Word S.C} (h : w.isTrivZero = true) : (Word.opp S w).isTrivZero = true := by
  rw [trivZero_iff] at *
  unfold Word.opp
  rw [h]
  simp

theorem trivZero_add {a b : Word S.C} (ha : a.isTrivZero = true) (hb : b.isTrivZero = true) :
    (Word.add S a b).isTrivZero = true := by
  rw [trivZero_iff] at *
  unfold Word.add
  rw [ha, hb]
  simp

theorem trivZero_sub {a b : Word S.C} (ha : a.isTrivZero = true) (hb : b.isTrivZero = true) :
    (Word.sub S a b).isTrivZero = true := trivZero_add ha (trivZero_opp hb)

theorem trivZero_mulConst {a : Word S.C} (ha : a.isTrivZero = true) (k : Int) :
    (Word.mulConst S a k).isTrivZero = true := by
  have h0 := trivZero_iff.1 ha
  unfold Word.mulConst
  rw [h0]
  simp only
  split
  · apply trivZero_opp
    rw [trivZero_iff]
    simp
  · rw [trivZero_iff]
    simp

theorem trivZero_zero {C : Type} : (encryptWordTriv C pc 0).isTrivZero = true := by
  rw [trivZero_iff]
  simp [encryptWordTriv, miToPt, miToMu]

theorem Supp.opp {x : Ctxt S.C} {lo hi : Nat} (h : Supp x lo hi) : Supp (oppositeImpl S x) lo hi := by
  intro i hi h'
  simp only [oppositeImpl, List.length_map, List.getElem_map] at hi ⊢
  exact trivZero_opp (h i hi h')

theorem Supp.triv_append {x : Ctxt S.C} {lo hi : Nat} (h : Supp x lo hi) (k : Nat) :
    Supp (trivCt S.C pc k ++ x) (k + lo) (k + hi) := by
  intro i hi h'
  have hl : (trivCt S.C pc k).length = k := by simp [trivCt]
  by_cases hik : i < k
  · rw [List.getElem_append_left (by omega)]
    simp only [trivCt, List.getElem_replicate]
    exact trivZero_zero
  · rw [List.getElem_append_right (by omega)]
    rw [List.length_append] at hi
    exact h _ _ (by omega)

theorem Supp.shift {x : Ctxt S.C} {lo hi : Nat} (h : Supp x lo hi) (k : Nat) : Supp (ctShift pc x k) (k + lo) (k + hi) := by
  unfold ctShift
  split
  · subst k; simpa using h
  · exact h.triv_append k

/-- additions and subtractions, with and without refresh -/
theorem Within.addSub_supp (isAdd : Bool) {x y : Ctxt S.C} (refresh : Bool) {a b a' b' : Nat} (hx : Supp x a a')
    (hy : Supp y b b') :
    Within (Parm.addSubImpl S isAdd pc x y refresh) (fun z => z.length ≤ max (max x.length y.length) (max a' b' + 1) ∧
        Supp z (min a b) (max a' b' + 1))
      ((if refresh then 2 else 1) * (max a' b' - max a b)) := by
  unfold Parm.addSubImpl
  by_cases hxr : rzero x = x.length
  · simp only [if_pos hxr]
    refine Within.pure ?_
    split_ifs
    · exact ⟨by omega, hy.mono (by omega) (by omega)⟩
    · refine ⟨?_, hy.opp.mono (by omega) (by omega)⟩
      simp only [oppositeImpl, List.length_map]; omega
  simp only [if_neg hxr]
  by_cases hyr : rzero y = y.length
  · simp only [if_pos hyr]
    exact Within.pure ⟨by omega, hx.mono (by omega) (by omega)⟩
  simp only [if_neg hyr]
  have hxr' : rzero x < x.length := by have := rzero_le x; omega
  have hyr' : rzero y < y.length := by have := rzero_le y; omega
  have k1 := hx.strip hxr'
  have k2 := hy.strip hyr'
  have k3 := hx.low hxr'
  have k4 := hy.low hyr'
  obtain ⟨wl, hwl⟩ : ∃ wl, wl = max (x.length - lzero x) (y.length - lzero y) := ⟨_, rfl⟩
  have hwl' : wl ≤ max a' b' := by omega
  obtain ⟨r, hr⟩ : ∃ r, r = max (rzero x) (rzero y) := ⟨_, rfl⟩
  have hr' : max a b ≤ r := by omega
  simp only [← hwl, ← hr]
  refine Within.ite (fun _ => Within.err _) fun hlt => ?_
  have hq : (trivCt S.C pc wl).length = wl := by simp [trivCt]
  rw [hq] at hlt
  have hdl : ((trivCt S.C pc wl).drop r).length = wl - r := by rw [List.length_drop, hq]
  obtain ⟨w0, hw0⟩ : ∃ w0, w0 = x.take wl ++ List.replicate (wl - x.length) (encryptWordTriv S.C pc 0) := ⟨_, rfl⟩
  have hw0l : w0.length = wl := by rw [hw0]; simp; omega
  have hw0z : ∀ i (h : i < w0.length), i < a → w0[i].isTrivZero = true := by
    intro i h hi
    subst hw0
    by_cases hix : i < (x.take wl).length
    · rw [List.getElem_append_left hix, List.getElem_take]
      exact hx i (by simp at hix; omega) (Or.inl hi)
    · rw [List.getElem_append_right (by omega), List.getElem_replicate]
      exact trivZero_zero
  rw [← hw0]
  obtain ⟨w, hw⟩ : ∃ w, w = (if isAdd then zipInplace (Word.add S) w0 y else zipInplace (Word.sub S) w0 y) := ⟨_, rfl⟩
  have hW : w.length = wl := by rw [hw]; split_ifs <;> rw [length_zipInplace, hw0l]
  have hWz : ∀ i (h : i < w.length), i < min a b → w[i].isTrivZero = true := by
    intro i h hi
    have h0 := hw0z i (by omega) (by omega)
    subst hw
    split_ifs
    · rw [getElem_zipInplace _ _ _ _ _ (by omega)]
      split_ifs with hb
      · exact trivZero_add h0 (hy i hb (by omega))
      · exact h0
    · rw [getElem_zipInplace _ _ _ _ _ (by omega)]
      split_ifs with hb
      · exact trivZero_sub h0 (hy i hb (by omega))
      · exact h0
  rw [← hw]
  have hmul : (if refresh then 2 else 1) * (max a' b' - max a b) =
      (max a' b' - max a b) + (if refresh then (max a' b' - max a b) else 0) := by split_ifs <;> omega
  rw [hmul]
  refine Within.bind (P := fun q : Ctxt S.C => q.length = wl - r) (n := max a' b' - max a b)
    (k := if refresh then max a' b' - max a b else 0) ?_ fun qHi hqHi => ?_
  · refine (Within.parFor (P := fun _ _ => True) (c := fun _ => 1) fun i hi => ?_).mono ?_ ?_
    · refine Within.idx.bind0 fun wi _ => Within.bind0 (P := fun _ => True) ?_ fun _ _ => Within.evalLut5Float _ _
      exact Within.ite (fun _ => Within.idx.bind0 fun _ _ => Within.pure trivial) fun _ => Within.pure trivial
    · rintro q ⟨h, _⟩; rw [h, hdl]
    · rw [sum_range_const, hdl]; omega
  · have hql : ∀ i (h : i < ((trivCt S.C pc wl).take r ++ qHi).length), i < r →
        ((trivCt S.C pc wl).take r ++ qHi)[i].isTrivZero = true := by
      intro i h hi
      rw [List.getElem_append_left (by rw [List.length_take, hq]; omega)]
      simp only [trivCt, List.getElem_take, List.getElem_replicate]
      exact trivZero_zero
    refine Within.bind0 (P := fun w' : Ctxt S.C => w'.length = wl ∧
      ∀ i (h : i < w'.length), i < min a b → w'[i].isTrivZero = true) ?_ fun w' hw' => ?_
    · refine (Within.seqFor (P := fun i z => i < min a b → z.isTrivZero = true) (c := fun _ => 0) fun i hi => ?_).mono ?_ ?_
      · refine Within.idx.bind0 fun qi ⟨hi1, e1⟩ => ?_
        refine Within.ite (fun _ => Within.idx.bind0 fun qp ⟨hi2, e2⟩ => Within.pure fun h => ?_) fun _ => Within.pure fun h => ?_
        · refine trivZero_add (trivZero_sub (hWz i hi h) (trivZero_mulConst ?_ 2)) ?_
          · rw [← e1]; exact hql _ _ (by omega)
          · rw [← e2]; exact hql _ _ (by omega)
        · refine trivZero_sub (hWz i hi h) (trivZero_mulConst ?_ 2)
          rw [← e1]; exact hql _ _ (by omega)
      · rintro q ⟨h, h'⟩; exact ⟨by rw [h, hW], h'⟩
      · rw [sum_range_const]; omega
    · refine Within.bind (P := fun z : Ctxt S.C => z.length = wl - r)
        (n := if refresh then max a' b' - max a b else 0) (k := 0) ?_ fun zHi hz => ?_
      · refine Within.ite (fun hr => ?_) fun hr => Within.pure (by rw [List.length_drop, hw'.1])
        rw [if_pos hr]
        refine (Within.parFor (P := fun _ _ => True) (c := fun _ => 1) fun i hi => ?_).mono ?_ ?_
        · exact Within.idx.bind0 fun wi _ => Within.evalLut5Float _ _
        · rintro q ⟨h, _⟩; rw [h, hdl]
        · rw [sum_range_const, hdl]; omega
      · split
        · rename_i ql _
          have hlen : (w'.take r ++ zHi ++ [ql]).length = wl + 1 := by
            simp only [List.length_append, List.length_take, List.length_singleton, hw'.1, hz]
            omega
          refine Within.pure ⟨by rw [hlen]; omega, fun i hi h => ?_⟩
          rw [hlen] at hi
          have hi' : i < min a b := by omega
          rw [List.getElem_append_left (by simp only [List.length_append, List.length_take, hw'.1, hz]; omega),
            List.getElem_append_left (by simp only [List.length_take, hw'.1]; omega), List.getElem_take]
          exact hw'.2 i _ hi'
        · exact Within.panic _

theorem Within.ctAdd_supp {x y : Ctxt S.C} {a b a' b' : Nat} (hx : Supp x a a') (hy : Supp y b b') :
    Within (Parm.ctAdd S pc x y) (fun z => z.length ≤ max (max x.length y.length) (max a' b' + 1) ∧
        Supp z (min a b) (max a' b' + 1)) (2 * (max a' b' - max a b)) :=
  (Within.addSub_supp true true hx hy).call

/-! ### Products and squares -/

theorem Within.par3 {α β γ : Type} {a : M α} {b : M β} {c : M γ} {P : α → Prop} {Q : β → Prop} {R : γ → Prop}
    {n k l : Nat} (ha : Within a P n) (hb : Within b Q k) (hc : Within c R l) :
    Within (Parm.par3 a b c) (fun r => P r.1 ∧ Q r.2.1 ∧ R r.2.2) (n + k + l) := by
  unfold Parm.par3
  apply Within.nextOrder_bind
  intro ord _
  refine Within.ite (fun _ => ?_) fun _ => Within.ite (fun _ => ?_) fun _ => ?_
  · refine (ha.bind (k := k + l) fun x hx => Within.ite (fun _ => ?_) fun _ => ?_).mono (fun _ h => h) (by omega)
    · exact (hb.bind (k := l) fun y hy => hc.bind (k := 0) fun z hz => Within.pure ⟨hx, hy, hz⟩).mono (fun _ h => h) (by omega)
    · exact (hc.bind (k := k) fun z hz => hb.bind (k := 0) fun y hy => Within.pure ⟨hx, hy, hz⟩).mono (fun _ h => h) (by omega)
  · refine (hb.bind (k := n + l) fun y hy => Within.ite (fun _ => ?_) fun _ => ?_).mono (fun _ h => h) (by omega)
    · exact (ha.bind (k := l) fun x hx => hc.bind (k := 0) fun z hz => Within.pure ⟨hx, hy, hz⟩).mono (fun _ h => h) (by omega)
    · exact (hc.bind (k := n) fun z hz => ha.bind (k := 0) fun x hx => Within.pure ⟨hx, hy, hz⟩).mono (fun _ h => h) (by omega)
  · refine (hc.bind (k := n + k) fun z hz => Within.ite (fun _ => ?_) fun _ => ?_).mono (fun _ h => h) (by omega)
    · exact (ha.bind (k := k) fun x hx => hb.bind (k := 0) fun y hy => Within.pure ⟨hx, hy, hz⟩).mono (fun _ h => h) (by omega)
    · exact (hb.bind (k := n) fun y hy => ha.bind (k := 0) fun x hx => Within.pure ⟨hx, hy, hz⟩).mono (fun _ h => h) (by omega)

theorem Within.decryptMi (ck : Option (ClientKey S)) (w : Word S.C) : Within (Parm.decryptMi ck w) (fun _ => True) 0 := by
  unfold Parm.decryptMi decryptMu
  refine Within.bind0 (P := fun _ => True) ?_ fun _ _ => Within.pure trivial
  split
  · split
    · exact Within.pure trivial
    · exact Within.err _
  · exact Within.pure trivial

theorem Within.mulLwe (x y : Word S.C) : Within (Parm.mulLwe S pc x y) (fun _ => True) 1 := by
  unfold Parm.mulLwe
  refine Within.ite (fun _ => ?_) fun _ => Within.ite (fun _ => ?_) fun _ => Within.evalLut5Float _ _
  · exact (Within.decryptMi _ _).bind0 fun _ _ => Within.pure trivial
  · exact (Within.decryptMi _ _).bind0 fun _ _ => Within.pure trivial

theorem Within.fillMulary {x y : Ctxt S.C} {n : Nat} (hx : x.length = n) :
    Within (Parm.fillMulary S pc x y) (fun rows => rows.length = n ∧ ∀ j (h : j < rows.length),
      rows[j].length = 2 * n ∧ Supp rows[j] j (j + n)) (n * n) := by
  unfold Parm.fillMulary
  refine Within.ite (fun _ => Within.panic _) fun _ => ?_
  simp only [hx]
  have hl : (trivCt S.C pc (2 * n)).length = 2 * n := by simp [trivCt]
  have hz : ∀ i (h : i < (trivCt S.C pc (2 * n)).length), (trivCt S.C pc (2 * n))[i].isTrivZero = true := by
    intro i h
    simp only [trivCt, List.getElem_replicate]
    exact trivZero_zero
  refine (Within.parFor (P := fun j (r : Ctxt S.C) => j < n → r.length = 2 * n ∧ Supp r j (j + n)) (c := fun _ => n)
    fun j hj => ?_).mono ?_ ?_
  · rw [List.length_replicate] at hj
    rw [List.getElem_replicate]
    refine Within.idx.bind0 fun yj _ => ?_
    have hm : (((trivCt S.C pc (2 * n)).drop j).take n).length = n := by
      rw [List.length_take, List.length_drop, hl]; omega
    refine Within.bind (P := fun mid : Ctxt S.C => mid.length = n) (n := n) (k := 0) ?_ fun mid hmid => Within.pure fun _ => ?_
    · refine (Within.parFor (P := fun _ _ => True) (c := fun _ => 1) fun i hi => ?_).mono ?_ ?_
      · exact Within.idx.bind0 fun _ _ => (Within.mulLwe _ _).expect
      · rintro q ⟨h, _⟩; rw [h, hm]
      · rw [sum_range_const, hm, Nat.mul_one]
    · have ht : ((trivCt S.C pc (2 * n)).take j).length = j := by rw [List.length_take, hl]; omega
      have hd : ((trivCt S.C pc (2 * n)).drop (j + n)).length = n - j := by rw [List.length_drop, hl]; omega
      refine ⟨by simp only [List.length_append, ht, hd, hmid]; omega, fun i hi h => ?_⟩
      rcases h with h | h
      · rw [List.getElem_append_left (by simp only [List.length_append, ht, hmid]; omega),
          List.getElem_append_left (by omega), List.getElem_take]
        exact hz _ _
      · rw [List.getElem_append_right (by simp only [List.length_append, ht, hmid]; omega), List.getElem_drop]
        exact hz _ _
  · rintro rows ⟨h, h'⟩
    rw [List.length_replicate] at h
    exact ⟨h, fun j hj => h' j hj (by omega)⟩
  · rw [sum_range_const, List.length_replicate]

theorem Within.reduceLoop_supp {n L : Nat} : ∀ (rows : List (Ctxt S.C)) (cur other : Ctxt S.C) {j : Nat},
    (∀ i (h : i < rows.length), rows[i].length ≤ L ∧ Supp rows[i] (j + i) (j + i + n)) → Supp cur 0 (n + j) → cur.length ≤ L →
    n + j + rows.length ≤ L →
    Within (Parm.reduceLoop S pc rows cur other) (fun z => z.length ≤ L) (rows.length * (2 * n))
  | [], cur, _, j, _, _, h, _ => Within.pure h
  | row :: rows, cur, _, j, hr, hc, h, hL => by
    unfold Parm.reduceLoop
    have h1 := hr 0 (by simp)
    simp only [List.getElem_cons_zero, Nat.add_zero] at h1
    rw [List.length_cons] at hL ⊢
    refine ((Within.ctAdd_supp (pc := pc) hc h1.2).bind (k := rows.length * (2 * n))
      fun new hn => ?_).mono (fun _ h => h) ?_
    · refine Within.reduceLoop_supp rows new cur (j := j + 1) (fun i hi => ?_) (hn.2.mono (by omega) (by omega))
        (by have := hn.1; omega) (by omega)
      have := hr (i + 1) (by simpa using hi)
      simpa only [List.getElem_cons_succ, Nat.add_assoc, Nat.add_comm 1 i] using this
    · have e : 2 * (max (n + j) (j + n) - max 0 j) = 2 * n := by omega
      rw [e, Nat.add_mul]
      omega

theorem Within.mulSchoolbook {x y : Ctxt S.C} {n : Nat} (hx : x.length = n) (hn : 2 ≤ n) :
    Within (Parm.mulSchoolbook S pc x y) (fun z => z.length ≤ 2 * n) (n * n + (n - 1) * (2 * n)) := by
  unfold Parm.mulSchoolbook
  refine (Within.fillMulary hx).bind fun rows ⟨hl, hr⟩ => ?_
  unfold Parm.reduceMulsquary
  refine Within.idx.bind0 fun m0 ⟨h0, e0⟩ => Within.idx.bind0 fun m1 ⟨h1, e1⟩ => ?_
  have r0 := hr 0 h0
  have r1 := hr 1 h1
  rw [e0] at r0
  rw [e1] at r1
  obtain ⟨k, rfl⟩ : ∃ k, n = k + 2 := ⟨n - 2, by omega⟩
  refine ((Within.ctAdd_supp (pc := pc) r0.2 r1.2).bind (k := k * (2 * (k + 2))) fun s hs => ?_).mono (fun _ h => h) ?_
  · refine (Within.reduceLoop_supp (n := k + 2) (L := 2 * (k + 2)) (j := 2) (rows.drop 2) s (emptyCt S.C) (fun i hi => ?_)
      (hs.2.mono (by omega) (by omega)) (by have := hs.1; omega) (by rw [List.length_drop, hl]; omega)).mono (fun _ h => h) ?_
    · rw [List.length_drop] at hi
      have := hr (2 + i) (by omega)
      rw [List.getElem_drop]
      exact ⟨this.1.le, this.2⟩
    · rw [List.length_drop, hl]
      exact le_rfl
  · have e : k + 2 - 1 = k + 1 := rfl
    rw [e, Nat.add_mul k 1]
    omega

def mulCostB (n : Nat) : Nat := (mulBound.getD n (0, 0)).1
def mulLenB (n : Nat) : Nat := (mulBound.getD n (0, 0)).2
def squCostB (n : Nat) : Nat := (squBound.getD n (0, 0)).1
def squLenB (n : Nat) : Nat := (squBound.getD n (0, 0)).2

theorem bound_mono_fin : ∀ a b : Fin 33, a.1 ≤ b.1 → mulCostB a ≤ mulCostB b ∧ mulLenB a ≤ mulLenB b ∧
    squCostB a ≤ squCostB b ∧ squLenB a ≤ squLenB b := by decide +kernel

theorem bound_mono {a b : Nat} (h : a ≤ b) (hb : b ≤ 32) : mulCostB a ≤ mulCostB b ∧ mulLenB a ≤ mulLenB b ∧
    squCostB a ≤ squCostB b ∧ squLenB a ≤ squLenB b :=
  bound_mono_fin ⟨a, by omega⟩ ⟨b, by omega⟩ h

/-- the schoolbook lengths -/
theorem mul_base_fin : ∀ n : Fin 33, 2 ≤ n.1 → (n.1 < 16 ∨ n.1 = 17) →
    mulCostB n = n.1 * n.1 + (n.1 - 1) * (2 * n.1) ∧ mulLenB n = 2 * n.1 := by decide +kernel

theorem kar_len1 {z l c u E B k : Nat} (h : z ≤ max (max l c) (max u (E + 1) + 1)) (hl : l ≤ u) (hc : c ≤ k) (hk : k ≤ E + 1) :
    z ≤ max u (max B (E + 1) + 1) + 1 := by omega

theorem kar_len2 {z s bc u b c E B k : Nat} (h : z ≤ max (max s bc) (max u (max B (E + 1) + 1) + 1)) (hs : s ≤ u)
    (hbc : bc ≤ max (max b c) (max B (E + 1) + 1)) (hb : b ≤ B) (hc : c ≤ k) (hk : k ≤ E + 1) :
    z ≤ max u (max B (E + 1) + 1) + 1 := by
  have : bc ≤ max B (E + 1) + 1 := by omega
  clear hbc hb hc hk
  omega

/-- bounds of the additions in Karatsuba's step, as the code performs them -/
def karCost (n : Nat) : Nat :=
  let l0 := (n + 1) / 2
  let A := mulLenB (n - l0)
  let B := mulLenB l0
  let C := mulLenB (l0 + 1)
  let h := max (l0 + C) (l0 + (max A B + 1)) + 1
  mulCostB (n - l0) + mulCostB l0 + 2 * max A B + (2 * l0 + 2 * l0 + mulCostB (l0 + 1)) +
    2 * (max (l0 + C) (l0 + (max A B + 1)) - l0) +
    max (2 * (max (2 * l0 + A) h - l0)) (2 * (max B h - l0) + 2 * (max (2 * l0 + A) (max B h + 1) - 2 * l0))

def karLen (n : Nat) : Nat :=
  let l0 := (n + 1) / 2
  let A := mulLenB (n - l0)
  let B := mulLenB l0
  let C := mulLenB (l0 + 1)
  let h := max (l0 + C) (l0 + (max A B + 1)) + 1
  max (2 * l0 + A) (max B h + 1) + 1

theorem kar_fin : ∀ n : Fin 33, 16 ≤ n.1 → n.1 ≠ 17 → karCost n ≤ mulCostB n ∧ karLen n ≤ mulLenB n := by decide +kernel

/-- bounds of the additions in the divide and conquer step of squares -/
def dnqCost (n : Nat) : Nat :=
  let l0 := (n + 1) / 2
  let A := squLenB (n - l0)
  let B := squLenB l0
  let h := l0 + 1 + mulLenB l0
  squCostB (n - l0) + squCostB l0 + mulCostB l0 +
    max (2 * (max (2 * l0 + A) h - (l0 + 1))) (2 * (max B h - (l0 + 1)) + 2 * (max (2 * l0 + A) (max B h + 1) - 2 * l0))

def dnqLen (n : Nat) : Nat :=
  let l0 := (n + 1) / 2
  let A := squLenB (n - l0)
  let B := squLenB l0
  let h := l0 + 1 + mulLenB l0
  max (2 * l0 + A) (max B h + 1) + 1

theorem dnq_fin : ∀ n : Fin 33, 4 ≤ n.1 → dnqCost n ≤ squCostB n ∧ dnqLen n ≤ squLenB n := by decide +kernel

theorem Supp.of_le {C : Type} {x : Ctxt C} {n : Nat} (h : x.length ≤ n) : Supp x 0 n := (Supp.all x).mono (by omega) h

theorem Within.mulKaratsuba {rec : Ctxt S.C → Ctxt S.C → M (Ctxt S.C)} {x y : Ctxt S.C} {n : Nat} (hx : x.length = n)
    (hn : 16 ≤ n) (hn' : n ≤ 32)
    (hr : ∀ a b m, a.length ≤ m → b.length ≤ m → m ≤ 17 → Within (rec a b) (fun z => z.length ≤ mulLenB m) (mulCostB m)) :
    Within (Parm.mulKaratsuba S pc rec x y) (fun z => z.length ≤ karLen n) (karCost n) := by
  unfold Parm.mulKaratsuba
  refine Within.ite (fun _ => Within.panic _) fun hxy => ?_
  have hy : y.length = n := by rw [not_not] at hxy; omega
  simp only [hx]
  unfold karCost karLen
  obtain ⟨l0, hl0⟩ : ∃ l0, l0 = (n + 1) / 2 := ⟨_, rfl⟩
  simp only [← hl0]
  have hx0 : (x.take l0).length = l0 := by rw [List.length_take]; omega
  have hx1 : (x.drop l0).length = n - l0 := by rw [List.length_drop]; omega
  have hy0 : (y.take l0).length = l0 := by rw [List.length_take]; omega
  have hy1 : (y.drop l0).length = n - l0 := by rw [List.length_drop]; omega
  obtain ⟨A, hA⟩ : ∃ A, A = mulLenB (n - l0) := ⟨_, rfl⟩
  obtain ⟨B, hB⟩ : ∃ B, B = mulLenB l0 := ⟨_, rfl⟩
  obtain ⟨C, hC⟩ : ∃ C, C = mulLenB (l0 + 1) := ⟨_, rfl⟩
  simp only [← hA, ← hB, ← hC]
  obtain ⟨D, hD⟩ : ∃ D, D = max A B := ⟨_, rfl⟩
  obtain ⟨E, hE⟩ : ∃ E, E = max (l0 + C) (l0 + (D + 1)) := ⟨_, rfl⟩
  simp only [← hD, ← hE]
  have htl : (trivCt S.C pc l0).length = l0 := by simp [trivCt]
  refine Within.bind (k := max (2 * (max (2 * l0 + A) (E + 1) - l0))
      (2 * (max B (E + 1) - l0) + 2 * (max (2 * l0 + A) (max B (E + 1) + 1) - 2 * l0)) + 2 * (E - l0))
    (n := (mulCostB (n - l0) + mulCostB l0 + 2 * D) + (2 * l0 + 2 * l0 + mulCostB (l0 + 1)))
    (P := fun (r : (Ctxt S.C × Ctxt S.C × Ctxt S.C) × Ctxt S.C) => (r.1.1.length ≤ A ∧ r.1.2.1.length ≤ B ∧
      (r.1.2.2.length ≤ l0 + (D + 1) ∧ Supp r.1.2.2 l0 (l0 + (D + 1)))) ∧ (r.2.length ≤ l0 + C ∧ Supp r.2 l0 (l0 + C)))
    ?_ ?_ |>.mono (fun _ h => h) (by omega)
  · refine Within.par2 (P := fun (r : Ctxt S.C × Ctxt S.C × Ctxt S.C) => r.1.length ≤ A ∧ r.2.1.length ≤ B ∧
      (r.2.2.length ≤ l0 + (D + 1) ∧ Supp r.2.2 l0 (l0 + (D + 1))))
      (Q := fun c : Ctxt S.C => c.length ≤ l0 + C ∧ Supp c l0 (l0 + C)) ?_ ?_
    · refine Within.bind (k := 2 * D) (Within.par2 (hr _ _ (n - l0) hx1.le hy1.le (by omega))
        (hr _ _ l0 hx0.le hy0.le (by omega))) ?_
      rintro ⟨a, b⟩ ⟨ha, hb⟩
      simp only [← hA, ← hB] at ha hb ⊢
      refine ((Within.ctAdd_supp (pc := pc) (Supp.of_le ha) (Supp.of_le hb)).bind (k := 0) fun p hp => Within.pure ?_).mono
        (fun _ h => h) (by omega)
      obtain ⟨hp1, hp2⟩ := hp
      have := (hp2.mono (lo' := 0) (hi' := D + 1) (by omega) (by omega)).opp.triv_append (pc := pc) l0
      refine ⟨ha, hb, ?_, this.mono (by omega) le_rfl⟩
      simp only [List.length_append, htl, List.length_map]
      omega
    · refine Within.bind (Within.par2 (n := 2 * l0) (k := 2 * l0) (P := fun z => z.length ≤ l0 + 1)
        (Q := fun z => z.length ≤ l0 + 1) ?_ ?_) ?_
      · exact (Within.ctAdd_supp (pc := pc) (Supp.of_le hx0.le) (Supp.of_le hx1.le)).mono (fun z h => by have := h.1; omega)
          (by omega)
      · exact (Within.ctAdd_supp (pc := pc) (Supp.of_le hy0.le) (Supp.of_le hy1.le)).mono (fun z h => by have := h.1; omega)
          (by omega)
      · rintro ⟨u, v⟩ ⟨hu, hv⟩
        refine ((hr u v (l0 + 1) hu hv (by omega)).bind (k := 0) fun c hc => Within.pure ?_).mono (fun _ h => h) (by omega)
        rw [← hC] at hc
        refine ⟨by rw [List.length_append, htl]; omega, ?_⟩
        exact ((Supp.of_le hc).triv_append (pc := pc) l0).mono (by omega) le_rfl
  · rintro ⟨⟨a, b, nn⟩, c⟩ ⟨⟨ha, hb, hn1, hn2⟩, hc1, hc2⟩
    dsimp only at ha hb hn1 hn2 hc1 hc2 ⊢
    refine ((Within.ctAdd_supp (pc := pc) hc2 hn2).bind
      (k := max (2 * (max (2 * l0 + A) (E + 1) - l0))
        (2 * (max B (E + 1) - l0) + 2 * (max (2 * l0 + A) (max B (E + 1) + 1) - 2 * l0))) fun cn hcn => ?_).mono
      (fun _ h => h) (by omega)
    obtain ⟨h1, h2⟩ := hcn
    rw [← hE] at h1 h2
    rw [Nat.min_self] at h2
    refine Within.ite (fun hb2 => ?_) fun _ => ?_
    · have hl : (b ++ a).length ≤ 2 * l0 + A := by rw [List.length_append]; omega
      exact (Within.ctAdd_supp (pc := pc) (Supp.of_le hl) h2).mono
        (fun z h => kar_len1 h.1 hl h1 (by omega)) (by rw [Nat.zero_max]; exact le_max_left _ _)
    · refine ((Within.ctAdd_supp (pc := pc) (Supp.of_le hb) h2).bind
        (k := 2 * (max (2 * l0 + A) (max B (E + 1) + 1) - 2 * l0)) fun bc hbc => ?_).mono (fun _ h => h)
        (by rw [Nat.zero_max]; exact le_max_right _ _)
      obtain ⟨h3, h4⟩ := hbc
      have h5 := (Supp.of_le ha).shift (pc := pc) (2 * l0)
      have h6 : (ctShift pc a (2 * l0)).length ≤ 2 * l0 + A := by
        unfold ctShift
        split
        · omega
        · rw [List.length_append]; simp only [trivCt, List.length_replicate]; omega
      exact (Within.ctAdd_supp (pc := pc) h5 h4).mono (fun z h => kar_len2 h.1 h6 h3 hb h1 (by omega))
        (by rw [Nat.add_zero]; exact Nat.mul_le_mul_left 2 (Nat.sub_le_sub_left (le_max_left _ _) _))

theorem Within.mulImpl : ∀ (fuel : Nat) (x y : Ctxt S.C) (m : Nat), x.length ≤ m → y.length ≤ m → m ≤ 32 →
    Within (Parm.mulImpl S pc fuel x y) (fun z => z.length ≤ mulLenB m) (mulCostB m) := by
  intro fuel
  induction fuel with
  | zero => ?_
  | succ fuel ih => ?_
  all_goals
    intro x y m hxm hym hm
    obtain ⟨n, hn⟩ : ∃ n, n = max x.length y.length := ⟨_, rfl⟩
    have hmono := bound_mono (a := n) (b := m) (by omega) hm
    have hx : (mulAlign S pc x y).1.length = n := by simp [mulAlign]; omega
    refine Within.mono (P := fun z => z.length ≤ mulLenB n) (n := mulCostB n) ?_ (fun z h => by omega) hmono.1
    unfold Parm.mulImpl
    simp only [hx]
    refine Within.ite (fun h => Within.pure (by simp [ctZero, emptyCt])) fun h0 => Within.ite (fun h1 => ?_) fun h1 =>
      Within.ite (fun h2 => ?_) fun h2 => ?_
    · rw [h1] at hx ⊢
      unfold mul1word
      refine (Within.fillMulary hx).bind (n := 1) (k := 0) fun rows hr => ?_
      exact Within.idx.mono (fun z ⟨h, e⟩ => by rw [← e, (hr.2 0 h).1]; decide) le_rfl
    · have hb := mul_base_fin ⟨n, by omega⟩ (by simp only; omega) h2
      simp only at hb
      rw [hb.1, hb.2]
      exact Within.mulSchoolbook hx (by omega)
  · exact Within.ite (fun _ => Within.panic _) fun _ => Within.err _
  · refine Within.ite (fun h3 => ?_) fun _ => Within.err _
    have hk := kar_fin ⟨n, by omega⟩ (by simp only; omega) (by simp only; omega)
    refine (Within.mulKaratsuba hx (by omega) h3 fun a b k ha hb hk => (ih a b k ha hb (by omega)).call).mono
      (fun z h => h.trans hk.2) hk.1


theorem Within.evalLut5Uint (c : Word S.C) (lut : List Nat) : Within (Parm.evalLut5Uint S pc c lut) (fun _ => True) 1 :=
  Within.evalLut5Float _ _

theorem Within.squ23word {x : Ctxt S.C} {n : Nat} (hx : x.length = n) :
    Within (Parm.squ23word S pc x) (fun z => z.length = 2 * n) (2 * n - 1) := by
  unfold Parm.squ23word
  refine Within.ite (fun _ => Within.panic _) fun h => ?_
  rw [not_not, hx] at h
  refine Within.bind0 (P := fun _ => True) ?_ fun xv _ => ?_
  · refine Within.ite (fun _ => ?_) fun _ => ?_
    · exact Within.idx.bind0 fun _ _ => Within.idx.bind0 fun _ _ => Within.pure trivial
    · exact Within.idx.bind0 fun _ _ => Within.idx.bind0 fun _ _ => Within.idx.bind0 fun _ _ => Within.pure trivial
  · have hl : (trivCt S.C pc (2 * x.length - 1)).length = 2 * n - 1 := by simp [trivCt, hx]
    refine ((Within.parFor (P := fun _ _ => True) (c := fun _ => 1) fun i hi => ?_).bind (k := 0) fun r hr => ?_).mono
      (fun _ h => h) (by rw [sum_range_const, hl]; omega)
    · unfold pbsSqu3
      split
      all_goals first
        | exact Within.evalLut5Uint _ _
        | exact Within.pure trivial
        | exact Within.panic _
    · refine Within.idx.bind0 fun r0 _ => Within.pure ?_
      rw [List.length_cons, List.length_cons, List.length_drop, hr.1, hl]
      omega

theorem Within.squDnq {rec : Ctxt S.C → M (Ctxt S.C)} {x : Ctxt S.C} {n : Nat} (hx : x.length = n)
    (hn : 4 ≤ n) (hn' : n ≤ 32)
    (hr : ∀ a m, a.length ≤ m → m ≤ 16 → Within (rec a) (fun z => z.length ≤ squLenB m) (squCostB m)) :
    Within (Parm.squDnq S pc rec x) (fun z => z.length ≤ dnqLen n) (dnqCost n) := by
  unfold Parm.squDnq
  simp only [hx]
  unfold dnqCost dnqLen
  obtain ⟨l0, hl0⟩ : ∃ l0, l0 = (n + 1) / 2 := ⟨_, rfl⟩
  simp only [← hl0]
  have hx0 : (x.take l0).length = l0 := by rw [List.length_take]; omega
  have hx1 : (x.drop l0).length = n - l0 := by rw [List.length_drop]; omega
  obtain ⟨A, hA⟩ : ∃ A, A = squLenB (n - l0) := ⟨_, rfl⟩
  obtain ⟨B, hB⟩ : ∃ B, B = squLenB l0 := ⟨_, rfl⟩
  obtain ⟨E, hE⟩ : ∃ E, E = l0 + mulLenB l0 := ⟨_, rfl⟩
  have hE' : l0 + 1 + mulLenB l0 = E + 1 := by omega
  simp only [← hA, ← hB, hE']
  refine Within.bind (n := squCostB (n - l0) + squCostB l0 + mulCostB l0)
    (P := fun (r : Ctxt S.C × Ctxt S.C × Ctxt S.C) => r.1.length ≤ A ∧ r.2.1.length ≤ B ∧
      (r.2.2.length ≤ E + 1 ∧ Supp r.2.2 (l0 + 1) (E + 1))) ?_ ?_
  · refine Within.par3 (P := fun z : Ctxt S.C => z.length ≤ A) (Q := fun z : Ctxt S.C => z.length ≤ B)
      (R := fun z : Ctxt S.C => z.length ≤ E + 1 ∧ Supp z (l0 + 1) (E + 1)) (hA ▸ hr _ (n - l0) hx1.le (by omega)) (hB ▸ hr _ l0 hx0.le (by omega)) ?_
    refine ((Within.mulImpl mulFuel (x.take l0) (x.drop l0) l0 hx0.le (by omega) (by omega)).call.bind (k := 0)
      fun c hc => Within.pure ?_).mono (fun _ h => h) (by omega)
    refine ⟨?_, ((Supp.of_le hc).shift (pc := pc) (l0 + 1)).mono (by omega) (by omega)⟩
    rw [length_ctShift (S := S)]
    omega
  · rintro ⟨a, b, c⟩ ⟨ha, hb, hc1, hc2⟩
    dsimp only at ha hb hc1 hc2 ⊢
    refine Within.ite (fun hb2 => ?_) fun _ => ?_
    · have hl : (b ++ a).length ≤ 2 * l0 + A := by rw [List.length_append]; omega
      exact (Within.ctAdd_supp (pc := pc) (Supp.of_le hl) hc2).mono
        (fun z h => kar_len1 h.1 hl hc1 (by omega)) (by rw [Nat.zero_max]; exact le_max_left _ _)
    · refine ((Within.ctAdd_supp (pc := pc) (Supp.of_le hb) hc2).bind
        (k := 2 * (max (2 * l0 + A) (max B (E + 1) + 1) - 2 * l0)) fun bc hbc => ?_).mono (fun _ h => h)
        (by rw [Nat.zero_max]; exact le_max_right _ _)
      obtain ⟨h3, h4⟩ := hbc
      have h5 := (Supp.of_le ha).shift (pc := pc) (2 * l0)
      have h6 : (ctShift pc a (2 * l0)).length ≤ 2 * l0 + A := by
        rw [length_ctShift (S := S)]; omega
      exact (Within.ctAdd_supp (pc := pc) h5 h4).mono (fun z h => kar_len2 h.1 h6 h3 hb hc1 (by omega))
        (by rw [Nat.add_zero]; exact Nat.mul_le_mul_left 2 (Nat.sub_le_sub_left (le_max_left _ _) _))

theorem squ_base_fin : ∀ n : Fin 33, (n.1 = 1 → squCostB n = 1 ∧ squLenB n = 1) ∧
    (2 ≤ n.1 → n.1 ≤ 3 → squCostB n = 2 * n.1 - 1 ∧ squLenB n = 2 * n.1) := by decide +kernel

theorem Within.squImpl : ∀ (fuel : Nat) (x : Ctxt S.C) (m : Nat), x.length ≤ m → m ≤ 32 →
    Within (Parm.squImpl S pc fuel x) (fun z => z.length ≤ squLenB m) (squCostB m) := by
  intro fuel
  induction fuel with
  | zero => ?_
  | succ fuel ih => ?_
  all_goals
    intro x m hxm hm
    obtain ⟨n, hn⟩ : ∃ n, n = x.length := ⟨_, rfl⟩
    have hmono := bound_mono (a := n) (b := m) (by omega) hm
    refine Within.mono (P := fun z => z.length ≤ squLenB n) (n := squCostB n) ?_ (fun z h => by omega) hmono.2.2.1
    unfold Parm.squImpl
    simp only [← hn]
    refine Within.ite (fun h => Within.pure (by simp [ctZero, emptyCt])) fun h0 => Within.ite (fun h1 => ?_) fun h1 =>
      Within.ite (fun h2 => ?_) fun h2 => ?_
    · have hb := (squ_base_fin ⟨n, by omega⟩).1 h1
      simp only at hb
      rw [hb.1, hb.2]
      unfold squ1word
      exact Within.idx.bind0 fun _ _ => (Within.evalLut5Uint _ _).bind (k := 0) fun _ _ => Within.pure (by simp [singleCt])
    · have hb := (squ_base_fin ⟨n, by omega⟩).2 (by simp only; omega) h2
      simp only at hb
      rw [hb.1, hb.2]
      exact (Within.squ23word hn.symm).mono (fun z h => h.le) le_rfl
  · exact Within.ite (fun _ => Within.panic _) fun _ => Within.err _
  · refine Within.ite (fun h3 => ?_) fun _ => Within.err _
    have hk := dnq_fin ⟨n, by omega⟩ (by simp only; omega)
    refine (Within.squDnq hn.symm (by omega) h3 fun a k ha hk => (ih a k ha (by omega)).call).mono
      (fun z h => h.trans hk.2) hk.1

/-! ### Additions, by numbers of words -/

theorem Within.addSub_len (isAdd refresh : Bool) {x y : Ctxt S.C} {n m : Nat} (hx : x.length ≤ n) (hy : y.length ≤ m) :
    Within (Parm.addSubImpl S isAdd pc x y refresh) (fun z => z.length ≤ lenAdd n m)
      (costAdd (if refresh then 2 else 1) n m) := by
  by_cases h0 : x.length = 0
  · have : x = [] := List.eq_nil_of_length_eq_zero h0
    subst this
    unfold Parm.addSubImpl
    refine Within.ite (fun _ => Within.pure ?_) fun h => absurd rfl h
    have : m ≤ lenAdd n m := by unfold lenAdd; split_ifs <;> omega
    split_ifs
    · omega
    · simp only [oppositeImpl, List.length_map]; omega
  by_cases h1 : y.length = 0
  · have : y = [] := List.eq_nil_of_length_eq_zero h1
    subst this
    have : n ≤ lenAdd n m := by unfold lenAdd; split_ifs <;> omega
    unfold Parm.addSubImpl
    refine Within.ite (fun h => Within.pure ?_) fun h => ?_
    · split_ifs <;> simp [oppositeImpl]
    · exact Within.ite (fun _ => Within.pure (by omega)) fun h => absurd rfl h
  unfold lenAdd costAdd
  rw [if_neg (by omega), if_neg (by omega), if_neg (by omega)]
  refine (Within.addSub_supp (pc := pc) isAdd refresh (Supp.of_le hx) (Supp.of_le hy)).mono
    (fun z h => by have := h.1; omega) (by simp)

theorem le_lenAdd (n m : Nat) : max n m ≤ lenAdd n m ∧ lenAdd n m ≤ max n m + 1 := by
  unfold lenAdd; split_ifs <;> omega

theorem bits_lt (k : Nat) : k < 2 ^ bits k := by
  unfold bits
  split
  · subst k; simp
  · exact Nat.lt_log2_self

theorem le_bits_of_le {k j : Nat} (h : 2 ^ j ≤ k) : j < bits k := by
  by_contra hc
  have := bits_lt k
  have : 2 ^ bits k ≤ 2 ^ j := Nat.pow_le_pow_right (by norm_num) (by omega)
  omega

theorem addConstLen_le (b : BitVec 64) : addConstLen b ≤ 63 := by
  unfold addConstLen
  have : ∀ n, (List.range n).foldl (fun l i => if b &&& (1#64 <<< i) ≠ 0 then i + 1 else l) 0 ≤ n := by
    intro n
    induction n with
    | zero => simp
    | succ n ih =>
      rw [List.range_succ, List.foldl_append, List.foldl_cons, List.foldl_nil]
      split <;> omega
  exact this 63

theorem Within.addConst {x : Ctxt S.C} {n : Nat} (hx : x.length ≤ n) (k : Int) :
    Within (Parm.addConstImpl S pc x k) (fun z => z.length ≤ lenAdd n (bits k.natAbs)) (costAdd 2 n (bits k.natAbs)) := by
  unfold Parm.addConstImpl
  refine Within.ite (fun _ => Within.pure (by have := le_lenAdd n (bits k.natAbs); omega)) fun _ => ?_
  by_cases h63 : k.natAbs < 2 ^ 63
  · refine (Within.of_returns (P := fun a => a = (k.natAbs : Int)) (Returns.i64Op (by omega) (by omega)) rfl).bind0 ?_
    rintro _ rfl
    have := (addConstLen_spec h63).2.2 _ (bits_lt _)
    exact (Within.addSub_len true true hx (by simpa using this)).call
  · have h2 : 63 < bits k.natAbs := le_bits_of_le (by omega)
    refine Within.bind0 (P := fun _ => True) ?_ fun a _ => ?_
    · unfold i64Op
      refine Within.ite (fun _ => Within.pure trivial) fun _ => ?_
      split
      · exact Within.panic _
      · exact Within.pure trivial
    · have := addConstLen_le (BitVec.ofInt 64 a)
      exact (Within.addSub_len true true hx (by simpa using this.trans h2.le)).call

/-! ### Signum -/

theorem within_sgnFirst (x : Ctxt S.C) (j : Nat) (b : Word S.C) :
    Within (Parm.sgnFirst S pc x j b) (fun _ => True)
      (if 4 * j + 3 < x.length ∧ ¬ pc.params.quadWeight ≥ 85 then 1 else 0) := by
  obtain ⟨c, hc⟩ : ∃ c, c = if 4 * j + 3 < x.length ∧ ¬ pc.params.quadWeight ≥ 85 then 1 else 0 := ⟨_, rfl⟩
  rw [← hc]
  unfold Parm.sgnFirst
  have hs : ∀ (i : Nat) (f : Word S.C → Word S.C) (b : Word S.C), Within (if sgnGamma * j + i < x.length then do
      let xi ← idx x (sgnGamma * j + i)
      let xi := f xi
      pure (Word.add S b xi)
    else pure b : M (Word S.C)) (fun _ => True) 0 := fun i f b =>
    Within.ite (fun _ => Within.idx.bind0 fun _ _ => Within.pure trivial) fun _ => Within.pure trivial
  refine Within.bind (P := fun _ => True) (k := 0) ?_ fun b _ => (hs 0 (fun w => w) b).bind0 fun b _ =>
    (hs 1 (fun w => Word.mulConst S w (2 ^ 1 : Nat)) b).bind0 fun b _ => hs 2 (fun w => Word.mulConst S w (2 ^ 2 : Nat)) b
  refine Within.ite (fun h => ?_) fun _ => Within.pure trivial
  have h' : 4 * j + 3 < x.length := h
  refine Within.idx.bind0 fun x3 _ => Within.bind (P := fun _ => True) (k := 0) ?_ fun _ _ => Within.pure trivial
  refine Within.ite (fun _ => Within.pure trivial) fun hq => ?_
  rw [hc, if_pos ⟨h', hq⟩]
  exact Within.evalLut5Uint _ _

theorem Within.sgnNext (x : Ctxt S.C) (j : Nat) (b : Word S.C) :
    Within (Parm.sgnNext S pc x j b) (fun _ => True) (min 4 (x.length - 4 * j)) := by
  unfold Parm.sgnNext
  refine ((Within.parFor (P := fun _ _ => True) (c := fun i => if 4 * j + i < x.length then 1 else 0)
    fun i hi => ?_).bind (k := 0) fun _ _ => Within.pure trivial).mono (fun _ h => h) ?_
  · refine Within.ite (fun h => ?_) fun _ => Within.pure trivial
    rw [if_pos (show 4 * j + i < x.length from h)]
    exact Within.idx.bind0 fun _ _ => Within.evalLut5Uint _ _
  · have : (trivCt S.C pc sgnGamma).length = 4 := by simp [trivCt, sgnGamma]
    rw [this]
    simp only [List.range_succ, List.range_zero, List.nil_append, List.cons_append, List.map_cons, List.map_nil,
      List.sum_cons, List.sum_nil]
    split_ifs <;> omega

theorem sum_chunks (n : Nat) : ∀ k, 4 * k ≤ n + 3 →
    ((List.range k).map fun j => min 4 (n - 4 * j)).sum = min n (4 * k)
  | 0, _ => by simp
  | k + 1, h => by
    rw [List.range_succ, List.map_append, List.sum_append, sum_chunks n k (by omega)]
    simp only [List.map_cons, List.map_nil, List.sum_cons, List.sum_nil]
    omega

theorem sum_fourths (n : Nat) (q : Prop) [Decidable q] : ∀ k,
    ((List.range k).map fun j => if 4 * j + 3 < n ∧ q then 1 else 0).sum ≤ if q then n / 4 else 0
  | 0 => by simp
  | k + 1 => by
    by_cases hq : q
    · have : ∀ k, ((List.range k).map fun j => if 4 * j + 3 < n ∧ q then 1 else 0).sum = min k (n / 4) := by
        intro k
        induction k with
        | zero => simp
        | succ k ih =>
          rw [List.range_succ, List.map_append, List.sum_append, ih]
          simp only [List.map_cons, List.map_nil, List.sum_cons, List.sum_nil, hq, and_true]
          split_ifs <;> omega
      rw [this, if_pos hq]
      omega
    · simp [hq]

/-- the later rounds -/
theorem Within.sgnRec : ∀ (fuel : Nat) (x : Ctxt S.C),
    Within (sgnRecursionRaw S pc fuel x false) (fun z => z.length = 1) (2 * (x.length - 1)) := by
  intro fuel
  induction fuel with
  | zero => ?_
  | succ fuel ih => ?_
  all_goals
    intro x
    unfold sgnRecursionRaw
    refine Within.ite (fun _ => Within.pure (by simp [trivCt])) fun h0 => Within.ite (fun h => Within.pure h) fun h1 => ?_
  · exact Within.panic _
  · have hl : (trivCt S.C pc ((x.length - 1) / sgnGamma + 1)).length = (x.length - 1) / 4 + 1 := by simp [trivCt, sgnGamma]
    refine ((Within.parFor (P := fun _ _ => True) (c := fun j => min 4 (x.length - 4 * j)) fun j hj => ?_).bind
      (k := 2 * ((x.length - 1) / 4)) fun b hb => ?_).mono (fun _ h => h) ?_
    · exact Within.ite (fun h => by cases h) fun _ => Within.sgnNext x j _
    · refine (ih b).mono (fun _ h => h) ?_
      rw [hb.1, hl]
      omega
    · rw [hl, sum_chunks _ _ (by omega)]
      omega

/-- all rounds -/
theorem Within.sgnRaw (fuel : Nat) (x : Ctxt S.C) :
    Within (sgnRecursionRaw S pc fuel x true) (fun z => z.length = 1)
      (2 * ((x.length - 1) / 4) + if pc.params.quadWeight ≥ 85 then 0 else x.length / 4) := by
  unfold sgnRecursionRaw
  refine Within.ite (fun _ => Within.pure (by simp [trivCt])) fun h0 => Within.ite (fun h => Within.pure h) fun h1 => ?_
  cases fuel with
  | zero => exact Within.panic _
  | succ fuel =>
    have hl : (trivCt S.C pc ((x.length - 1) / sgnGamma + 1)).length = (x.length - 1) / 4 + 1 := by simp [trivCt, sgnGamma]
    refine ((Within.parFor (P := fun _ _ => True)
      (c := fun j => if 4 * j + 3 < x.length ∧ ¬ pc.params.quadWeight ≥ 85 then 1 else 0) fun j hj => ?_).bind
      (k := 2 * ((x.length - 1) / 4)) fun b hb => ?_).mono (fun _ h => h) ?_
    · exact Within.ite (fun h => within_sgnFirst x j _) fun h => absurd rfl h
    · refine (Within.sgnRec fuel b).mono (fun _ h => h) ?_
      rw [hb.1, hl]
      omega
    · have := sum_fourths x.length (¬ pc.params.quadWeight ≥ 85) ((x.length - 1) / 4 + 1)
      rw [hl]
      by_cases hq : pc.params.quadWeight ≥ 85
      · simp only [hq, not_true, if_false, if_true] at this ⊢
        omega
      · simp only [hq, not_false_iff, if_true, if_false] at this ⊢
        omega

theorem costSgn_mono {a b : Nat} (h : a ≤ b) : costSgn pc a ≤ costSgn pc b := by
  unfold costSgn; split_ifs <;> omega

theorem Within.sgn {x : Ctxt S.C} {n : Nat} (hx : x.length ≤ n) :
    Within (Parm.sgnImpl S pc x) (fun z => z.length ≤ min n 1) (costSgn pc n) := by
  refine Within.mono (P := fun z => z.length ≤ min x.length 1) (n := costSgn pc x.length) ?_
    (fun z h => by omega) (costSgn_mono hx)
  unfold Parm.sgnImpl
  refine Within.ite (fun h => Within.pure (by simp [ctZero, emptyCt])) fun h0 =>
    Within.ite (fun h => Within.pure (by omega)) fun h1 => ?_
  refine ((Within.sgnRaw _ x).bind (k := 1) fun r _ => Within.idx.bind0 fun s0 _ =>
    (Within.evalLut5Uint _ _).bind (k := 0) fun z _ => Within.pure ?_).mono (fun _ h => h) ?_
  · simp [singleCt]; omega
  · unfold costSgn
    rw [if_neg (show ¬ x.length ≤ 1 by omega)]
    split_ifs <;> omega

theorem within_select {x y r : Ctxt S.C} {d n : Nat} (hx : x.length ≤ n) (hy : y.length ≤ n) (hr : r.length ≤ d) :
    Within (do
      let sRaw ← sgnRecursionRaw S pc r.length r true
      let s0 ← idx sRaw 0
      let s ← pbsNonneg S pc s0
      let xa := x ++ List.replicate (y.length - x.length) (encryptWordTriv S.C pc 0)
      let ya := y ++ List.replicate (x.length - y.length) (encryptWordTriv S.C pc 0)
      parFor (trivCt S.C pc xa.length) (fun i _ => do
        let xi ← idx xa i
        let yi ← idx ya i
        let t ← (if pc.params.quadWeight ≥ 41 then pure (Word.mulConst S yi 6)
          else pbsF1 S pc yi 6 : M (Word S.C))
        let t := Word.add S t (Word.mulConst S xi 2)
        let t := Word.add S t s
        pbsMax S pc t)) (fun z => z.length ≤ n) (costSelect pc d n) := by
  have hl : (trivCt S.C pc (x ++ List.replicate (y.length - x.length) (encryptWordTriv S.C pc 0)).length).length ≤ n := by
    simp [trivCt]; omega
  refine Within.mono (P := fun z => z.length ≤ n) (n := max 1 (costSgn pc r.length) +
    n * if pc.params.quadWeight ≥ 41 then 1 else 2) ?_ (fun _ h => h) ?_
  · refine ((Within.sgnRaw _ r).bind (k := 1 + n * if pc.params.quadWeight ≥ 41 then 1 else 2) fun sr _ => Within.idx.bind0
      fun s0 _ => ?_).mono (fun _ h => h) ?_
    · refine Within.bind (P := fun _ => True) (n := 1) ?_ fun s _ => ?_
      · exact (Within.evalLut5Float _ _).bind (k := 0) fun _ _ => Within.pure trivial
      · refine (Within.parFor (P := fun _ _ => True) (c := fun _ => if pc.params.quadWeight ≥ 41 then 1 else 2)
          fun i hi => ?_).mono (fun z h => h.1.le.trans hl) ?_
        · refine Within.idx.bind0 fun _ _ => Within.idx.bind0 fun _ _ => ?_
          by_cases hq : pc.params.quadWeight ≥ 41
          · simp only [if_pos hq]
            exact Within.bind0 (P := fun _ => True) (Within.pure trivial) fun _ _ => Within.evalLut5Uint _ _
          · simp only [if_neg hq]
            exact (Within.evalLut5Uint _ _).bind (n := 1) (k := 1) fun _ _ => Within.evalLut5Uint _ _
        · rw [sum_range_const]
          exact Nat.mul_le_mul_right _ hl
    · unfold costSgn
      split_ifs <;> omega
  · unfold costSelect
    have := costSgn_mono (pc := pc) hr
    omega

theorem Within.max {x y : Ctxt S.C} {n m : Nat} (hx : x.length ≤ n) (hy : y.length ≤ m) :
    Within (Parm.maxImpl S pc x y) (fun z => z.length ≤ Max.max n m)
      (costAdd 2 n m + costSelect pc (lenAdd n m) (Max.max n m)) := by
  unfold Parm.maxImpl
  exact (Within.addSub_len false true hx hy).call.bind fun r hr => within_select (by omega) (by omega) hr

theorem Within.relu {x : Ctxt S.C} {n : Nat} (hx : x.length ≤ n) :
    Within (Parm.maxImpl S pc (ctZero S.C) x) (fun z => z.length ≤ n) (costSelect pc n n) := by
  unfold Parm.maxImpl
  have h0 : (ctZero S.C).length ≤ 0 := by simp [ctZero, emptyCt]
  refine (Within.bind (P := fun r => r.length ≤ n) (n := 0)
    ((Within.addSub_len false true h0 hx).call.mono (fun r hr => by simpa [lenAdd] using hr) (by simp [costAdd]))
    fun r hr => within_select (by omega) hx hr).mono (fun _ h => h) (by omega)

theorem Within.roundAt {x : Ctxt S.C} {n p : Nat} (hx : x.length ≤ n) :
    Within (Parm.roundAtImpl S pc x p)
      (fun z => z.length ≤ if p = 0 then n else if p > n then 0 else Max.max n (p + 1) + 1)
      (if p = 0 ∨ p > n then 0 else costSgn pc (p - 1) + 1 + 2 * (Max.max n (p + 1) - p)) := by
  unfold Parm.roundAtImpl
  refine Within.ite (fun h => Within.pure (by rw [if_pos h]; exact hx)) fun h0 =>
    Within.ite (fun h => Within.pure (by simp [ctZero, emptyCt])) fun h1 => ?_
  rw [if_neg h0, if_neg (by omega), if_neg (by omega)]
  refine Within.bind (n := costSgn pc (p - 1)) (k := 1 + 2 * (Max.max n (p + 1) - p))
    (Within.sgn (pc := pc) (x := x.take (p - 1)) (n := p - 1) (by rw [List.length_take]; omega)).call
    (fun s _ => Within.idx.bind0 fun xp _ => ?_) |>.mono (fun _ h => h) (by omega)
  refine Within.bind0 (P := fun _ => True) ?_ fun yys _ => (Within.evalLut5Uint _ _).bind fun rw _ => ?_
  · exact Within.ite (fun _ => Within.idx.bind0 fun _ _ => Within.pure trivial) fun _ => Within.pure trivial
  · have h1 := (Supp.of_le (x := x.drop p) (n := n - p) (by rw [List.length_drop]; omega)).shift (pc := pc) p
    have h2 := (Supp.of_le (x := [rw]) (n := 1) (by simp)).triv_append (S := S) (pc := pc) p
    refine (Within.ctAdd_supp (pc := pc) h1 h2).mono (fun z h => ?_) (by omega)
    have := h.1
    rw [length_ctShift (S := S)] at this
    simp only [List.length_drop, List.length_append, trivCt, List.length_replicate, List.length_singleton] at this
    omega

end Parm
