import Verif.Proof.ScalarMul
import Verif.Proof.Relation
import Verif.Model.AscStatic

/-!
# Scalar multiplication with an arbitrary chain table
-/

namespace Parm

variable {S : Scheme} {ck : ClientKey S} {pc : Cloud} {B D : Nat}

theorem ascLoop_ill (st : Setting S ck pc B D) {A : Arith (Ctxt S.C)}
    (hopp : ∀ x, A.opp x = pure (ctOpp S x)) (hshift : ∀ x k, A.shift x k = pure (ctShift pc x k))
    (hadd : ∀ x y, A.add x y = ctAdd S pc x y) {v : Int} :
    ∀ (chain : Asc) (vals : List (Ctxt S.C)) (zs : List Int),
    zs.length = vals.length → zs ≠ [] →
    (∀ i (h : i < vals.length) (hz : i < zs.length), Valid ck B vals[i] (zs[i] * v)) →
    chainGo chain zs = none → Fails (ascLoop A chain vals) (.panic .index)
  | [], vals, zs, hz, hne, h, hc => by
    unfold chainGo at hc
    simp only [List.getLast?_eq_none_iff] at hc
    exact absurd hc hne
  | e :: es, vals, zs, hz, hne, h, hc => by
    unfold chainGo at hc
    unfold ascLoop
    by_cases h1 : e.lIdx < vals.length
    · by_cases h2 : e.rIdx < vals.length
      · rw [List.getElem?_eq_getElem (show e.lIdx < zs.length by omega),
          List.getElem?_eq_getElem (show e.rIdx < zs.length by omega)] at hc
        simp only at hc
        have l1 := h e.lIdx h1 (by omega)
        have r1 := h e.rIdx h2 (by omega)
        have hL : Valid ck B (if e.lPos then vals[e.lIdx] else ctOpp S vals[e.lIdx])
            ((if e.lPos then zs[e.lIdx] else -zs[e.lIdx]) * v) := by
          split_ifs
          · exact l1
          · exact (l1.oppositeImpl st).congr (by ring)
        have hsh := ctShift_valid st r1 e.rShift
        have hR : Valid ck B (if e.rPos then ctShift pc vals[e.rIdx] e.rShift
              else ctOpp S (ctShift pc vals[e.rIdx] e.rShift))
            ((if e.rPos then zs[e.rIdx] * 2 ^ e.rShift else -(zs[e.rIdx] * 2 ^ e.rShift)) * v) := by
          split_ifs
          · exact hsh.congr (by ring)
          · exact (hsh.oppositeImpl st).congr (by ring)
        obtain ⟨z, n, hz', z1, _⟩ := ctAdd_valid st hL hR
        have hstep : Returns (ascStep A vals e) (vals ++ [z]) n := by
          unfold ascStep
          rw [show n = 0 + (0 + (0 + (0 + (0 + (n + 0))))) by omega]
          refine (Returns.idx h1).bind ?_
          rw [hopp]
          refine (Returns.pure _).bind ?_
          refine (Returns.idx h2).bind ?_
          rw [hshift]
          refine (Returns.pure _).bind ?_
          rw [hopp]
          refine (Returns.pure _).bind ?_
          rw [hadd]
          exact hz'.bind (Returns.pure _)
        refine hstep.bind_fails ?_
        refine ascLoop_ill st hopp hshift hadd (v := v) es (vals ++ [z]) _ (by simp [hz]) (by simp) ?_ hc
        intro i hi hi'
        by_cases hiv : i < vals.length
        · rw [List.getElem_append_left hiv, List.getElem_append_left (show i < zs.length by omega)]
          exact h i hiv _
        · have : i = vals.length := by simp at hi; omega
          subst this
          rw [List.getElem_append_right (by omega), List.getElem_append_right (by omega)]
          simp only [List.getElem_singleton]
          exact z1.congr (by ring)
      · refine Fails.bind ?_
        unfold ascStep
        refine (Returns.idx h1).bind_fails ?_
        rw [hopp]
        refine (Returns.pure _).bind_fails ?_
        refine Fails.bind ?_
        unfold idx
        rw [List.getElem?_eq_none (by omega)]
        exact Fails.panic _
    · refine Fails.bind ?_
      unfold ascStep
      refine Fails.bind ?_
      unfold idx
      rw [List.getElem?_eq_none (by omega)]
      exact Fails.panic _

/-- what the table makes of one window: `sign(w) · value(chain of |w|) · 2^shift`, if there is such a chain -/
def tableTerm (asc : List (Nat × Asc)) (w : Int × Nat) : Option Int :=
  (mapGet? asc w.1.natAbs).bind fun ch => (chainValue ch).map fun c => (if w.1 < 0 then -c else c) * 2 ^ w.2

/-- what the table makes of a list of windows -/
def tableSum (asc : List (Nat × Asc)) : List (Int × Nat) → Option Int
  | [] => some 0
  | w :: ws => (tableTerm asc w).bind fun a => (tableSum asc ws).map fun b => a + b

theorem tableSum_some {asc : List (Nat × Asc)} : ∀ {ws : List (Int × Nat)},
    (∀ w ∈ ws, (tableTerm asc w).isSome) → tableSum asc ws = some ((ws.map fun w => (tableTerm asc w).getD 0).sum)
  | [], _ => rfl
  | w :: ws, h => by
    obtain ⟨a, ha⟩ := Option.isSome_iff_exists.1 (h w (by simp))
    rw [tableSum, tableSum_some fun w hw => h w (by simp [hw]), ha]
    simp [ha]

theorem tableSum_none {asc : List (Nat × Asc)} : ∀ {ws : List (Int × Nat)},
    (∃ w ∈ ws, tableTerm asc w = none) → tableSum asc ws = none
  | [], ⟨_, h, _⟩ => by simp at h
  | w :: ws, ⟨u, h, hu⟩ => by
    rw [tableSum]
    rcases List.mem_cons.1 h with rfl | h
    · rw [hu]; rfl
    · rw [tableSum_none ⟨u, h, hu⟩]
      cases tableTerm asc w <;> rfl

theorem le_sum_of_mem {a : Nat} : ∀ {l : List Nat}, a ∈ l → a ≤ l.sum
  | b :: l, h => by
    rcases List.mem_cons.1 h with rfl | h
    · simp
    · have := le_sum_of_mem h; simp; omega

theorem scalarMulImpl_table (st : Setting S ck pc B D) {k : Int} (hk1 : -2 ^ 31 ≤ k) (hk2 : k < 2 ^ 31)
    (h2 : 2 ≤ k.natAbs) (habs' : Returns (i32Op pc.build (k.natAbs : Int)) (wrapI32 (k.natAbs : Int)) 0)
    {ws : List (Int × Nat)} (hws : Returns (windShifts pc.build k.natAbs ascBitlen) ws 0) (hne : ws ≠ [])
    {x : Ctxt S.C} {v : Int} (hx : Valid ck B x v) :
    match tableSum pc.asc ws with
    | some s => Yields (scalarMulImpl S pc k x) (fun z => Valid ck B z ((if k ≥ 0 then 1 else -1) * s * v))
    | none => AllFail (scalarMulImpl S pc k x) := by
  unfold scalarMulImpl
  -- the signed operand
  obtain ⟨xp, hxp⟩ : ∃ xp, xp = (if k ≥ 0 then x else x.map (Word.opp S)) := ⟨_, rfl⟩
  have hxpv : Valid ck B xp ((if k ≥ 0 then 1 else -1) * v) := by
    rw [hxp]
    split_ifs
    · exact hx.congr (by ring)
    · exact (hx.oppositeImpl st).congr (by ring)
  simp only [← hxp]
  clear hxp
  -- |k|
  obtain ⟨ka, hka⟩ : ∃ ka : Nat, ka = k.natAbs := ⟨_, rfl⟩
  have hka31 : ka ≤ 2 ^ 31 := by omega
  have habs : Returns (i32Op pc.build (k.natAbs : Int)) (wrapI32 (ka : Int)) 0 := by
    rw [hka]; exact habs'
  have hwrap : (wrapU32 (wrapI32 (ka : Int))).toNat = ka := by
    have : wrapU32 (wrapI32 (ka : Int)) = ka := by
      unfold wrapU32 wrapI32
      rw [show ((2 : Nat) ^ 32 : Nat) = 4294967296 by norm_num]
      have := Int.bmod_emod (x := (ka : Int)) (m := 4294967296)
      norm_num at this ⊢
      rw [this]
      omega
    rw [this]; rfl
  obtain ⟨vp, hvp⟩ : ∃ vp, vp = (if k ≥ 0 then 1 else -1) * v := ⟨_, rfl⟩
  have hsv : ∀ s : Int, (if k ≥ 0 then 1 else -1) * s * v = s * vp := by intro s; rw [hvp]; ring
  simp only [hsv]
  rw [← hvp] at hxpv
  rw [← hka] at hws h2
  clear hvp habs'
  have h0 : ka ≠ 0 := by omega
  have h1 : ka ≠ 1 := by omega
  -- the tasks
  have htask : ∀ i (hi : i < (initKeys (emptyCt S.C) ws []).length),
      (∃ w ∈ ws, w.1.natAbs = ((initKeys (emptyCt S.C) ws [])[i]).1) := by
    intro i hi
    have hkey : ((initKeys (emptyCt S.C) ws [])[i]).1 ∈ (initKeys (emptyCt S.C) ws []).map (·.1) :=
      List.mem_map.2 ⟨_, List.getElem_mem hi, rfl⟩
    rw [mem_keys_initKeys] at hkey
    rcases hkey with h | ⟨w, hw, e⟩
    · simp at h
    · exact ⟨w, hw, e⟩
  let task : Nat → Nat × Ctxt S.C → M (Nat × Ctxt S.C) := fun _ kv => do
    let chain ← mapIdx pc.asc kv.1
    let v ← (ascEval (ascArith S pc) chain xp).expect
    pure (kv.1, v)
  have hgood : ∀ (i : Nat) (kv : Nat × Ctxt S.C) (ch : Asc) (c : Int), mapGet? pc.asc kv.1 = some ch → chainValue ch = some c →
      Yields (task i kv) (fun e => e.1 = kv.1 ∧ Valid ck B e.2 (c * vp)) := by
    intro i kv ch c c1 c2
    refine Yields.bind ((Returns.mapIdx c1).yields rfl) ?_
    rintro _ rfl
    refine Yields.bind ((ascEval_spec (A := ascArith S pc) st (fun _ => rfl) (fun _ _ => rfl)
      (fun _ _ => rfl) c2 hxpv).expect) ?_
    rintro z ⟨z1, _⟩
    exact Yields.pure ⟨rfl, z1⟩
  have hbad : ∀ (i : Nat) (kv : Nat × Ctxt S.C), ((mapGet? pc.asc kv.1).bind fun ch => chainValue ch) = none →
      AllFail (task i kv) := by
    intro i kv h
    cases hg : mapGet? pc.asc kv.1 with
    | none =>
      refine AllFail.bind (Fails.allFail (f := .panic .index) ?_)
      unfold Parm.mapIdx
      rw [hg]
      exact Fails.panic _
    | some ch =>
      rw [hg] at h
      refine (Returns.mapIdx hg).bind_allFail (AllFail.bind (AllFail.expect ?_))
      refine (Fails.allFail (f := .panic .index) ?_)
      unfold ascEval
      refine Fails.bind ?_
      refine ascLoop_ill st (A := ascArith S pc) (fun _ => rfl) (fun _ _ => rfl) (fun _ _ => rfl) (v := vp) ch [xp] [1]
        rfl (by simp) ?_ h
      intro i h1 h2
      have : i = 0 := by simpa using h1
      subst this
      exact hxpv.congr (by simp)
  by_cases hall : ∀ w ∈ ws, (tableTerm pc.asc w).isSome
  · rw [tableSum_some hall]
    show Yields _ _
    have hterm : ∀ w ∈ ws, ∃ ch c, mapGet? pc.asc w.1.natAbs = some ch ∧ chainValue ch = some c ∧
        (tableTerm pc.asc w).getD 0 = (if w.1 < 0 then -c else c) * 2 ^ w.2 := by
      intro w hw
      have := hall w hw
      unfold tableTerm at this ⊢
      cases hg : mapGet? pc.asc w.1.natAbs with
      | none => rw [hg] at this; simp at this
      | some ch =>
        rw [hg] at this
        cases hc : chainValue ch with
        | none => simp [hc] at this
        | some c => exact ⟨ch, c, rfl, hc, by simp [hc]⟩
    refine Yields.bind (habs.yields rfl) ?_
    rintro _ rfl
    simp only [hwrap]
    rw [if_neg h0, if_neg h1]
    refine Yields.bind (hws.yields rfl) ?_
    rintro _ rfl
    -- the products with the windows
    refine Yields.bind (P := fun map => map.map (·.1) = (initKeys (emptyCt S.C) ws []).map (·.1) ∧
      ∀ e ∈ map, ∀ ch c, mapGet? pc.asc e.1 = some ch → chainValue ch = some c → Valid ck B e.2 (c * vp)) ?_ ?_
    · refine (Yields.parFor (P := fun i e => e.1 = ((initKeys (emptyCt S.C) ws []).map (·.1)).getD i 0 ∧
        ∀ ch c, mapGet? pc.asc e.1 = some ch → chainValue ch = some c → Valid ck B e.2 (c * vp)) ?_).mono ?_
      · intro i hi
        obtain ⟨w, hw, e⟩ := htask i hi
        obtain ⟨ch, c, c1, c2, _⟩ := hterm w hw
        rw [e] at c1
        refine (hgood i _ ch c c1 c2).mono ?_
        rintro ⟨a, b⟩ ⟨e1, e2⟩
        simp only at e1 e2
        refine ⟨?_, ?_⟩
        · rw [List.getD_eq_getElem _ _ (by simpa using hi)]
          simpa using e1
        · intro ch' c' g1 g2
          simp only at g1 ⊢
          rw [e1, c1] at g1
          cases g1
          rw [c2] at g2
          cases g2
          exact e2
      · rintro map ⟨m1, m2⟩
        refine ⟨?_, ?_⟩
        · apply List.ext_getElem
          · simp [m1]
          · intro i hi hi'
            have := (m2 i (by simpa using hi)).1
            rw [List.getD_eq_getElem _ _ hi'] at this
            simpa using this
        · intro e he
          obtain ⟨i, hi, rfl⟩ := List.getElem_of_mem he
          exact (m2 i hi).2
    rintro map ⟨m1, m2⟩
    -- the rows
    refine Yields.bind (P := fun rows => rows.length = ws.length ∧ ∃ m, ∀ i (hi : i < rows.length),
      Valid ck B rows[i] ((tableTerm pc.asc (ws.getD i (0, 0))).getD 0 * vp) ∧ rows[i].length ≤ m) ?_ ?_
    · refine (Yields.seqFor (P := fun i row =>
        Valid ck B row ((tableTerm pc.asc (ws.getD i (0, 0))).getD 0 * vp)) ?_).mono ?_
      · intro i hi
        have hiw : i < ws.length := by simpa using hi
        rw [List.getD_eq_getElem _ _ hiw]
        have hmem := List.getElem_mem hiw
        obtain ⟨u, u1, u2⟩ := mapGet?_some (m := map) (k := absU32 ws[i].1) (by
          rw [m1, mem_keys_initKeys]
          exact Or.inr ⟨_, hmem, rfl⟩)
        obtain ⟨ch, c, c1, c2, c3⟩ := hterm _ hmem
        have u3 := m2 _ u2 ch c c1 c2
        simp only at u3
        refine Yields.bind ((Returns.idx hiw).yields rfl) ?_
        rintro _ rfl
        refine Yields.bind ((Returns.mapIdx u1).yields rfl) ?_
        rintro _ rfl
        rw [c3]
        split_ifs with hneg
        · exact Yields.pure ((ctShift_valid st (u3.oppositeImpl st) _).congr (by ring))
        · exact Yields.pure ((ctShift_valid st u3 _).congr (by ring))
      · rintro rows ⟨r1, r2⟩
        refine ⟨by simpa using r1, (rows.map List.length).sum, fun i hi => ⟨r2 i hi, ?_⟩⟩
        exact le_sum_of_mem (List.mem_map.2 ⟨_, List.getElem_mem hi, rfl⟩)
    · rintro rows ⟨r1, m, r2⟩
      have hsum : ((List.range rows.length).map fun i =>
          (tableTerm pc.asc (ws.getD i (0, 0))).getD 0 * vp).sum = (ws.map fun w => (tableTerm pc.asc w).getD 0).sum * vp := by
        rw [r1, range_map_getD (f := fun w => (tableTerm pc.asc w).getD 0 * vp)]
        clear * -
        induction ws with
        | nil => simp
        | cons w ws ih => simp only [List.map_cons, List.sum_cons, ih]; ring
      by_cases hone : rows.length = 1
      · rw [if_pos hone]
        refine (Returns.idx (show 0 < rows.length by omega)).yields ?_
        refine (r2 0 (by omega)).1.congr ?_
        rw [← hsum, hone]; simp
      · rw [if_neg hone]
        have hpos : 0 < ws.length := List.length_pos_iff.2 hne
        refine (reduceMulsquary_sum st _ (by omega) r2).mono ?_
        rintro z ⟨z1, _⟩
        exact z1.congr hsum
  · push Not at hall
    obtain ⟨w, hw, hnone⟩ := hall
    have hnone' : tableTerm pc.asc w = none := by simpa using hnone
    rw [tableSum_none ⟨w, hw, hnone'⟩]
    show AllFail _
    refine habs.bind_allFail ?_
    simp only [hwrap]
    rw [if_neg h0, if_neg h1]
    refine hws.bind_allFail (AllFail.bind ?_)
    refine AllFail.parFor ?_ ?_
    · intro i hi
      cases hb : ((mapGet? pc.asc ((initKeys (emptyCt S.C) ws [])[i]).1).bind fun ch => chainValue ch) with
      | none => exact Or.inr (hbad i _ hb)
      | some c =>
        obtain ⟨ch, c1, c2⟩ := Option.bind_eq_some_iff.1 hb
        obtain ⟨z, n, hz, _⟩ := hgood i _ ch c c1 c2
        exact Or.inl ⟨z, n, hz⟩
    · have : absU32 w.1 ∈ (initKeys (emptyCt S.C) ws []).map (·.1) := by
        rw [mem_keys_initKeys]; exact Or.inr ⟨w, hw, rfl⟩
      obtain ⟨e, he, hew⟩ := List.mem_map.1 this
      obtain ⟨i, hi, hie⟩ := List.getElem_of_mem he
      refine ⟨i, hi, hbad i _ ?_⟩
      rw [hie, hew]
      unfold tableTerm at hnone'
      unfold absU32
      cases hg : mapGet? pc.asc w.1.natAbs with
      | none => rfl
      | some ch =>
        rw [hg] at hnone'
        simpa using hnone'

end Parm
