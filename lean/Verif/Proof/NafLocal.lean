import Verif.Proof.Naf

/-! The digits of `naf_vec`, one by one: digit `l` is a function of six neighbouring bits
(`naf.rs:35-90`).  Needed for the exact set of numbers whose `naf_vec` is non-adjacent. -/

namespace Parm

/-- Digit `l` of `naf_vec` from bits `l-3 .. l+2`; the bits are given with three zeros put
below them, so bit `l` of the number is `β (l + 3)`. -/
def nafDigit (β : Nat → Int) (l : Nat) : Int :=
  if β (l + 3) = 1 then
    if β (l + 2) = 1 then 0
    else if β (l + 4) = 0 then 1
    else if β (l + 1) = 1 ∧ β l = 1 then 0 else -1
  else if β (l + 2) = 1 ∧ β (l + 1) = 1 then
    if β (l + 4) = 1 ∧ β (l + 5) = 1 then -1 else 1
  else 0

/-- the digit a run of ones ending just below `l` leaves at `l`, before the next run is seen -/
def nafCarry (β : Nat → Int) (l : Nat) : Int := if β (l + 2) = 1 ∧ β (l + 1) = 1 then 1 else 0

/-- invariant of the loop of `naf_vec` on `(k_vec, low_1)` before iteration `i` -/
structure NafLoc (β : Nat → Int) (vec : List Int) (i low1 : Nat) : Prop where
  len : vec.length = i
  le : low1 ≤ i
  done : ∀ l, l + 1 < low1 → vec.getD l 0 = nafDigit β l
  last : ∀ l, l + 1 = low1 → vec.getD l 0 = nafCarry β l ∧ β (l + 3) = 0
  run : ∀ l, low1 ≤ l → l < i → vec.getD l 0 = 1 ∧ β (l + 3) = 1

/-- zeros are written exactly to `j .. j + n` -/
theorem fillWhile_zero : ∀ (n j : Nat) (vec : List Int), j + n ≤ vec.length →
    ∃ vec', Returns (fillWhile (fun _ => pure 0) n j vec) vec' 0 ∧ vec'.length = vec.length ∧
      ∀ l, vec'.getD l 0 = if j ≤ l ∧ l < j + n then 0 else vec.getD l 0
  | 0, j, vec, _ => ⟨vec, Returns.pure _, rfl, fun l => by rw [if_neg (by omega)]⟩
  | n + 1, j, vec, h => by
    obtain ⟨v, h1, h2, h3⟩ := fillWhile_zero n (j + 1) (vec.set j 0) (by rw [List.length_set]; omega)
    refine ⟨v, ?_, by rw [h2, List.length_set], fun l => ?_⟩
    · unfold fillWhile
      exact (Returns.pure _).bind0 ((Returns.setIdx (by omega)).bind0 h1)
    · rw [h3 l]
      by_cases e : l = j
      · subst e
        rw [if_neg (by omega), if_pos (by omega)]
        simp [List.getD_eq_getElem?_getD, show l < vec.length by omega]
      · have : (vec.set j 0).getD l 0 = vec.getD l 0 := by
          simp [List.getD_eq_getElem?_getD, Ne.symm e]
        rw [this]
        by_cases h : j + 1 ≤ l ∧ l < j + 1 + n
        · rw [if_pos h, if_pos (by omega)]
        · rw [if_neg h, if_neg (by omega)]

theorem getD_set {vec : List Int} {j l : Nat} {a : Int} (h : j < vec.length) :
    (vec.set j a).getD l 0 = if l = j then a else vec.getD l 0 := by
  by_cases e : l = j
  · subst e; simp [List.getD_eq_getElem?_getD, h]
  · simp [List.getD_eq_getElem?_getD, Ne.symm e, e]

theorem nafStep_loc (b : Build) {k i : Nat} {β : Nat → Int} (hβ : ∀ l, β l = 0 ∨ β l = 1)
    (h0 : β 0 = 0 ∧ β 1 = 0 ∧ β 2 = 0) {vec : List Int} {low1 : Nat} (h : NafLoc β vec i low1)
    (hbit : Returns (u32Bit b k i) (β (i + 3)) 0) :
    ∃ vec' low1', Returns (nafStep b k i vec low1) (vec', low1') 0 ∧ NafLoc β vec' (i + 1) low1' := by
  obtain ⟨hlen, hle, hdone, hlst, hrun⟩ := h
  obtain ⟨vv, hvv⟩ : ∃ vv, vec ++ [β (i + 3)] = vv := ⟨_, rfl⟩
  have hlast : vv.getD i 0 = β (i + 3) := by
    subst hlen; subst hvv; simp [List.getD_eq_getElem?_getD]
  have hpre : ∀ l, l < i → vv.getD l 0 = vec.getD l 0 := fun l hl => by
    rw [← hvv]; exact getD_append_lt (by omega)
  have hl1 : vv.length = i + 1 := by rw [← hvv]; simp [hlen]
  have begin_ : ∀ {r : List Int × Nat}, Returns (if β (i + 3) = 0 then do
        let vec ← (if i - low1 > 1 then do
            let prev ← (if low1 > 0 then do
                let p ← idx vv (low1 - 1)
                pure (some p) else pure none : M (Option Int))
            let vec ← (if prev = some 1 then do
                let vec ← setIdx vv (low1 - 1) (-1)
                setIdx vec low1 0
              else setIdx vv low1 (-1) : M (List Int))
            let vec ← fillWhile (fun _ => pure 0) (i - (low1 + 1)) (low1 + 1) vec
            setIdx vec i 1
          else pure vv : M (List Int))
        pure (vec, i + 1)
      else pure (vv, low1)) r 0 → Returns (nafStep b k i vec low1) r 0 := by
    intro r hr
    unfold nafStep
    refine hbit.bind0 ?_
    simp only [hvv]
    exact hr
  -- the bit just below the run is zero
  have hgap : β (low1 + 2) = 0 := by
    rcases Nat.eq_zero_or_pos low1 with e | e
    · subst e; exact h0.2.2
    · have := (hlst (low1 - 1) (by omega)).2
      rwa [show low1 - 1 + 3 = low1 + 2 by omega] at this
  rcases hβ (i + 3) with hb | hb
  · by_cases hlong : i - low1 > 1
    · have r0 := (hrun low1 (le_refl _) (by omega)).2
      have r1 := (hrun (low1 + 1) (by omega) (by omega)).2
      have rt1 := (hrun (i - 1) (by omega) (by omega)).2
      have rt2 := (hrun (i - 2) (by omega) (by omega)).2
      rw [show i - 1 + 3 = i + 2 by omega] at rt1
      rw [show i - 2 + 3 = i + 1 by omega] at rt2
      rw [show low1 + 1 + 3 = low1 + 4 by omega] at r1
      by_cases hprev : 0 < low1 ∧ vv.getD (low1 - 1) 0 = 1
      · obtain ⟨hp0, hp1⟩ := hprev
        obtain ⟨q, rfl⟩ : ∃ q, low1 = q + 1 := ⟨low1 - 1, by omega⟩
        simp only [Nat.add_sub_cancel] at *
        have hc : β (q + 2) = 1 ∧ β (q + 1) = 1 := by
          have := (hlst q rfl).1
          rw [← hpre q (by omega), hp1] at this
          unfold nafCarry at this
          by_contra hn
          rw [if_neg hn] at this
          omega
        obtain ⟨v2, f1, f2, f3⟩ := fillWhile_zero (i - (q + 1 + 1)) (q + 1 + 1)
          ((vv.set q (-1)).set (q + 1) 0) (by simp only [List.length_set]; omega)
        simp only [List.length_set] at f2
        refine ⟨v2.set i 1, i + 1, begin_ ?_, ?_⟩
        · rw [if_pos hb, if_pos hlong, if_pos (by omega)]
          refine Returns.bind0 ?_ (Returns.pure _)
          refine Returns.bind0 (a := some (vv.getD q 0)) ?_ ?_
          · refine (Returns.idx (show q < vv.length by omega)).bind0 ((Returns.pure _).congr ?_ rfl)
            rw [List.getD_eq_getElem]
          · rw [hp1, if_pos rfl]
            refine Returns.bind0 ((Returns.setIdx (by omega)).bind0 (Returns.setIdx (by rw [List.length_set]; omega))) ?_
            exact f1.bind0 (Returns.setIdx (by omega))
        · have val : ∀ l, (v2.set i 1).getD l 0 = if l = i then 1 else
              if q + 1 + 1 ≤ l ∧ l < q + 1 + 1 + (i - (q + 1 + 1)) then 0 else
              if l = q + 1 then 0 else if l = q then -1 else vv.getD l 0 := fun l => by
            rw [getD_set (by omega), f3, getD_set (by rw [List.length_set]; omega), getD_set (by omega)]
          refine ⟨by rw [List.length_set]; omega, le_refl _, fun l hl => ?_, fun l hl => ?_, fun l a c => by omega⟩
          · rw [val l, if_neg (by omega)]
            by_cases c1 : q + 1 + 1 ≤ l
            · rw [if_pos (by omega)]
              have a1 := (hrun l (by omega) (by omega)).2
              have a2 := (hrun (l - 1) (by omega) (by omega)).2
              rw [show l - 1 + 3 = l + 2 by omega] at a2
              unfold nafDigit
              rw [if_pos a1, if_pos a2]
            · rw [if_neg (by omega)]
              by_cases c2 : l = q + 1
              · subst c2
                rw [if_pos rfl]
                unfold nafDigit
                rw [if_pos r0, if_neg (by omega), if_neg (by omega), if_pos hc]
              · rw [if_neg c2]
                by_cases c3 : l = q
                · subst c3
                  rw [if_pos rfl]
                  unfold nafDigit
                  rw [if_neg (by rw [show l + 3 = l + 1 + 2 by omega]; omega), if_pos hc, if_pos ⟨r0, r1⟩]
                · rw [if_neg c3, hpre l (by omega), hdone l (by omega)]
          · obtain rfl : l = i := by omega
            rw [val l, if_pos rfl]
            exact ⟨by unfold nafCarry; rw [if_pos ⟨rt1, rt2⟩], hb⟩
      · have hc : 0 < low1 → ¬ (β (low1 + 1) = 1 ∧ β low1 = 1) := by
          intro hp hn
          refine hprev ⟨hp, ?_⟩
          have := (hlst (low1 - 1) (by omega)).1
          rw [hpre _ (by omega), this]
          unfold nafCarry
          rw [show low1 - 1 + 2 = low1 + 1 by omega, show low1 - 1 + 1 = low1 by omega, if_pos hn]
        have hc' : ¬ (β (low1 + 1) = 1 ∧ β low1 = 1) := by
          rcases Nat.eq_zero_or_pos low1 with e | e
          · subst e; rw [h0.1]; simp
          · exact hc e
        obtain ⟨v2, f1, f2, f3⟩ := fillWhile_zero (i - (low1 + 1)) (low1 + 1)
          (vv.set low1 (-1)) (by simp only [List.length_set]; omega)
        simp only [List.length_set] at f2
        refine ⟨v2.set i 1, i + 1, begin_ ?_, ?_⟩
        · rw [if_pos hb, if_pos hlong]
          refine Returns.bind0 ?_ (Returns.pure _)
          refine Returns.bind0 (a := if low1 > 0 then some (vv.getD (low1 - 1) 0) else none) ?_ ?_
          · split_ifs with hp
            · refine (Returns.idx (show low1 - 1 < vv.length by omega)).bind0 ((Returns.pure _).congr ?_ rfl)
              rw [List.getD_eq_getElem]
            · exact Returns.pure _
          · rw [if_neg (by
              split_ifs with hp
              · intro hc; exact hprev ⟨hp, by simpa using hc⟩
              · simp)]
            exact (Returns.setIdx (by omega)).bind0 (f1.bind0 (Returns.setIdx (by omega)))
        · have val : ∀ l, (v2.set i 1).getD l 0 = if l = i then 1 else
              if low1 + 1 ≤ l ∧ l < low1 + 1 + (i - (low1 + 1)) then 0 else
              if l = low1 then -1 else vv.getD l 0 := fun l => by
            rw [getD_set (by omega), f3, getD_set (by omega)]
          refine ⟨by rw [List.length_set]; omega, le_refl _, fun l hl => ?_, fun l hl => ?_, fun l a c => by omega⟩
          · rw [val l, if_neg (by omega)]
            by_cases c1 : low1 + 1 ≤ l
            · rw [if_pos (by omega)]
              have a1 := (hrun l (by omega) (by omega)).2
              have a2 := (hrun (l - 1) (by omega) (by omega)).2
              rw [show l - 1 + 3 = l + 2 by omega] at a2
              unfold nafDigit
              rw [if_pos a1, if_pos a2]
            · rw [if_neg (by omega)]
              by_cases c2 : l = low1
              · subst c2
                rw [if_pos rfl]
                unfold nafDigit
                rw [if_pos r0, if_neg (by omega), if_neg (by omega), if_neg hc']
              · rw [if_neg c2, hpre l (by omega)]
                by_cases c3 : l + 1 = low1
                · obtain ⟨u1, u2⟩ := hlst l c3
                  subst c3
                  rw [u1]
                  unfold nafDigit nafCarry
                  simp [u2, hc']
                · rw [hdone l (by omega)]
          · obtain rfl : l = i := by omega
            rw [val l, if_pos rfl]
            exact ⟨by unfold nafCarry; rw [if_pos ⟨rt1, rt2⟩], hb⟩
    · refine ⟨vv, i + 1, begin_ ?_, ?_⟩
      · rw [if_pos hb, if_neg hlong]
        exact (Returns.pure _).bind0 (Returns.pure _)
      · have hnc : ¬ (β (i + 2) = 1 ∧ β (i + 1) = 1) := by
          rcases Nat.lt_or_ge low1 i with e | e
          · obtain rfl : i = low1 + 1 := by omega
            rw [show low1 + 1 + 1 = low1 + 2 by omega, hgap]; simp
          · obtain rfl : i = low1 := by omega
            rw [hgap]; simp
        refine ⟨hl1, le_refl _, fun l hl => ?_, fun l hl => ?_, fun l a c => by omega⟩
        · rw [hpre l (by omega)]
          rcases Nat.lt_or_ge l low1 with e | e
          · by_cases c3 : l + 1 = low1
            · obtain ⟨u1, u2⟩ := hlst l c3
              rw [u1]
              have : ¬ (β (l + 4) = 1 ∧ β (l + 5) = 1) := by
                rcases Nat.lt_or_ge low1 i with e | e
                · rw [show l + 5 = i + 3 by omega, hb]; simp
                · rw [show l + 4 = i + 3 by omega, hb]; simp
              unfold nafDigit nafCarry
              simp [u2, this]
            · rw [hdone l (by omega)]
          · obtain rfl : l = low1 := by omega
            obtain ⟨u1, u2⟩ := hrun l e (by omega)
            rw [u1]
            unfold nafDigit
            rw [if_pos u2, if_neg (by omega), if_pos (by rw [show l + 4 = i + 3 by omega, hb])]
        · obtain rfl : l = i := by omega
          rw [hlast, hb]
          exact ⟨by unfold nafCarry; rw [if_neg hnc], rfl⟩
  · refine ⟨vv, low1, begin_ ?_, ?_⟩
    · rw [if_neg (by omega)]; exact Returns.pure _
    · refine ⟨hl1, by omega, fun l hl => by rw [hpre l (by omega)]; exact hdone l hl,
        fun l hl => by rw [hpre l (by omega)]; exact hlst l hl, fun l h1 h2 => ?_⟩
      by_cases hl : l = i
      · subst hl; exact ⟨by rw [hlast, hb], hb⟩
      · rw [hpre l (by omega)]; exact hrun l h1 (by omega)

theorem nafLoop_loc (b : Build) {k : Nat} {β : Nat → Int} (hβ : ∀ l, β l = 0 ∨ β l = 1)
    (h0 : β 0 = 0 ∧ β 1 = 0 ∧ β 2 = 0) : ∀ (n i : Nat) {vec : List Int} {low1 : Nat},
    NafLoc β vec i low1 → (∀ l, i ≤ l → l < i + n → Returns (u32Bit b k l) (β (l + 3)) 0) →
    ∃ vec' low1', Returns (nafLoop b k n i vec low1) vec' 0 ∧ NafLoc β vec' (i + n) low1'
  | 0, i, vec, low1, h, _ => ⟨vec, low1, Returns.pure _, h⟩
  | n + 1, i, vec, low1, h, hb => by
    obtain ⟨v1, l1, h1, h2⟩ := nafStep_loc b hβ h0 h (hb i (le_refl _) (by omega))
    obtain ⟨v2, l2, g1, g2⟩ := nafLoop_loc b hβ h0 n (i + 1) h2 (fun l hl hl' => hb l (by omega) (by omega))
    rw [show i + 1 + n = i + (n + 1) by omega] at g2
    exact ⟨v2, l2, h1.bind0 g1, g2⟩

/-- when the bits end with a zero, every digit is the local one -/
theorem NafLoc.all {β : Nat → Int} {vec : List Int} {i low1 : Nat} (h : NafLoc β vec i low1)
    (hi : 0 < i) (hz : ∀ l, i + 2 ≤ l → β l = 0) (l : Nat) (hl : l < i) :
    vec.getD l 0 = nafDigit β l := by
  obtain ⟨hlen, hle, hdone, hlst, hrun⟩ := h
  have e : low1 = i := by
    by_contra hc
    have := (hrun (i - 1) (by omega) (by omega)).2
    rw [hz (i - 1 + 3) (by omega)] at this
    omega
  subst e
  by_cases hl' : l + 1 = low1
  · rw [(hlst l hl').1]
    unfold nafDigit nafCarry
    simp [(hlst l hl').2, hz (l + 4) (by omega)]
  · exact hdone l (by omega)

/-- two adjacent local digits: exactly the pattern `0 1 0 1 1` -/
theorem nafDigit_adjacent {β : Nat → Int} (hβ : ∀ l, β l = 0 ∨ β l = 1) (l : Nat) :
    (nafDigit β l ≠ 0 ∧ nafDigit β (l + 1) ≠ 0) ↔
      β (l + 1) = 1 ∧ β (l + 2) = 1 ∧ β (l + 3) = 0 ∧ β (l + 4) = 1 ∧ β (l + 5) = 0 := by
  unfold nafDigit
  rw [show l + 1 + 3 = l + 4 by omega, show l + 1 + 2 = l + 3 by omega, show l + 1 + 4 = l + 5 by omega,
    show l + 1 + 1 = l + 2 by omega, show l + 1 + 5 = l + 6 by omega]
  rcases hβ l with a0 | a0 <;> rcases hβ (l + 1) with a1 | a1 <;> rcases hβ (l + 2) with a2 | a2 <;>
    rcases hβ (l + 3) with a3 | a3 <;> rcases hβ (l + 4) with a4 | a4 <;>
    rcases hβ (l + 5) with a5 | a5 <;> rcases hβ (l + 6) with a6 | a6 <;>
    simp [a0, a1, a2, a3, a4, a5, a6]

end Parm
