import Verif.Proof.Naf
import Verif.Proof.Multiplication
import Verif.Data.Asc12

/-!
# Chains and scalar multiplication
-/

namespace Parm
variable {S : Scheme} {ck : ClientKey S} {pc : Cloud} {B D : Nat}

/-! ### Chains -/

/-- how many words a chain adds to its argument -/
def chainLenGo : Asc → List Nat → Nat
  | [], ls => ls.getLastD 0
  | e :: es, ls => chainLenGo es (ls ++ [max (ls.getD e.lIdx 0) (ls.getD e.rIdx 0 + e.rShift) + 1])

def chainLen (chain : Asc) : Nat := chainLenGo chain [0]

theorem ascLoop_spec (st : Setting S ck pc B D) {A : Arith (Ctxt S.C)}
    (hopp : ∀ x, A.opp x = pure (ctOpp S x)) (hshift : ∀ x k, A.shift x k = pure (ctShift pc x k))
    (hadd : ∀ x y, A.add x y = ctAdd S pc x y) {v : Int} {n : Nat} :
    ∀ (chain : Asc) (vals : List (Ctxt S.C)) (zs : List Int) (ls : List Nat) (c : Int),
    zs.length = vals.length → ls.length = vals.length →
    (∀ i (h : i < vals.length) (hz : i < zs.length) (hl : i < ls.length),
      Valid ck B vals[i] (zs[i] * v) ∧ vals[i].length ≤ n + ls[i]) →
    chainGo chain zs = some c →
    Yields (ascLoop A chain vals) (fun out => ∃ z, out.getLast? = some z ∧ Valid ck B z (c * v) ∧
      z.length ≤ n + chainLenGo chain ls)
  | [], vals, zs, ls, c, hz, hl, h, hc => by
    unfold ascLoop
    refine Yields.pure ?_
    unfold chainGo at hc
    rw [List.getLast?_eq_getElem?] at hc
    obtain ⟨hlt, hc⟩ := List.getElem?_eq_some_iff.1 hc
    have := h (zs.length - 1) (by omega) hlt (by omega)
    refine ⟨vals[zs.length - 1], ?_, by rw [← hc]; exact this.1, ?_⟩
    · have e : vals.length - 1 = zs.length - 1 := by omega
      rw [List.getLast?_eq_getElem?, e, List.getElem?_eq_getElem (by omega)]
    · refine this.2.trans ?_
      unfold chainLenGo
      have hne : ls ≠ [] := by
        intro h0; subst h0; simp at hl; omega
      rw [List.getLastD_eq_getLast?, List.getLast?_eq_getElem?,
        List.getElem?_eq_getElem (show ls.length - 1 < ls.length by omega)]
      have : zs.length = ls.length := by omega
      simp [this]
  | e :: es, vals, zs, ls, c, hz, hl, h, hc => by
    unfold chainGo at hc
    by_cases h1 : e.lIdx < vals.length
    · by_cases h2 : e.rIdx < vals.length
      · rw [List.getElem?_eq_getElem (show e.lIdx < zs.length by omega),
          List.getElem?_eq_getElem (show e.rIdx < zs.length by omega)] at hc
        simp only at hc
        obtain ⟨l1, l2⟩ := h e.lIdx h1 (by omega) (by omega)
        obtain ⟨r1, r2⟩ := h e.rIdx h2 (by omega) (by omega)
        unfold ascLoop ascStep
        have hL : Valid ck B (if e.lPos then vals[e.lIdx] else ctOpp S vals[e.lIdx])
            ((if e.lPos then zs[e.lIdx] else -zs[e.lIdx]) * v) := by
          split_ifs
          · exact l1
          · exact (l1.oppositeImpl st).congr (by ring)
        have hLl : (if e.lPos then vals[e.lIdx] else ctOpp S vals[e.lIdx]).length ≤ n + ls[e.lIdx] := by
          split_ifs
          · exact l2
          · simpa [ctOpp, oppositeImpl] using l2
        have hsh := ctShift_valid st r1 e.rShift
        have hR : Valid ck B (if e.rPos then ctShift pc vals[e.rIdx] e.rShift
              else ctOpp S (ctShift pc vals[e.rIdx] e.rShift))
            ((if e.rPos then zs[e.rIdx] * 2 ^ e.rShift else -(zs[e.rIdx] * 2 ^ e.rShift)) * v) := by
          split_ifs
          · exact hsh.congr (by ring)
          · exact (hsh.oppositeImpl st).congr (by ring)
        have hRl : (if e.rPos then ctShift pc vals[e.rIdx] e.rShift
              else ctOpp S (ctShift pc vals[e.rIdx] e.rShift)).length ≤ n + ls[e.rIdx] + e.rShift := by
          have : (ctShift pc vals[e.rIdx] e.rShift).length ≤ n + ls[e.rIdx] + e.rShift := by
            rw [length_ctShift]; omega
          split_ifs
          · exact this
          · simpa [ctOpp, oppositeImpl] using this
        refine Yields.bind (P := fun out => ∃ z, out = vals ++ [z] ∧
          Valid ck B z (((if e.lPos then zs[e.lIdx] else -zs[e.lIdx]) +
            (if e.rPos then zs[e.rIdx] * 2 ^ e.rShift else -(zs[e.rIdx] * 2 ^ e.rShift))) * v) ∧
          z.length ≤ n + (max ls[e.lIdx] (ls[e.rIdx] + e.rShift) + 1)) ?_ ?_
        · refine Yields.bind ((Returns.idx h1).yields rfl) ?_
          rintro _ rfl
          rw [hopp]
          refine Yields.bind ((Returns.pure _).yields rfl) ?_
          rintro _ rfl
          refine Yields.bind ((Returns.idx h2).yields rfl) ?_
          rintro _ rfl
          rw [hshift]
          refine Yields.bind ((Returns.pure _).yields rfl) ?_
          rintro _ rfl
          rw [hopp]
          refine Yields.bind ((Returns.pure _).yields rfl) ?_
          rintro _ rfl
          rw [hadd]
          refine Yields.bind (ctAdd_valid st hL hR) ?_
          rintro z ⟨z1, z2⟩
          refine Yields.pure ⟨z, rfl, z1.congr (by ring), ?_⟩
          omega
        · rintro _ ⟨z, rfl, z1, z2⟩
          have := ascLoop_spec st hopp hshift hadd (v := v) (n := n) es (vals ++ [z]) _
            (ls ++ [max (ls.getD e.lIdx 0) (ls.getD e.rIdx 0 + e.rShift) + 1]) c
            (by simp [hz]) (by simp [hl]) (by
              intro i hi hi' hi''
              by_cases hiv : i < vals.length
              · rw [List.getElem_append_left hiv, List.getElem_append_left (show i < zs.length by omega),
                  List.getElem_append_left (show i < ls.length by omega)]
                exact h i hiv _ _
              · have : i = vals.length := by simp at hi; omega
                subst this
                rw [List.getElem_append_right (by omega), List.getElem_append_right (by omega),
                  List.getElem_append_right (by omega)]
                simp only [List.getElem_singleton]
                refine ⟨z1, ?_⟩
                rw [List.getD_eq_getElem _ _ (show e.lIdx < ls.length by omega),
                  List.getD_eq_getElem _ _ (show e.rIdx < ls.length by omega)]
                exact z2) hc
          exact this
      · rw [List.getElem?_eq_none (show zs.length ≤ e.rIdx by omega)] at hc
        split at hc <;> simp_all
    · rw [List.getElem?_eq_none (show zs.length ≤ e.lIdx by omega)] at hc
      split at hc <;> simp_all

theorem ascEval_spec (st : Setting S ck pc B D) {A : Arith (Ctxt S.C)}
    (hopp : ∀ x, A.opp x = pure (ctOpp S x)) (hshift : ∀ x k, A.shift x k = pure (ctShift pc x k))
    (hadd : ∀ x y, A.add x y = ctAdd S pc x y) {chain : Asc} {c : Int} (hc : chainValue chain = some c)
    {x : Ctxt S.C} {v : Int} (hx : Valid ck B x v) :
    Yields (ascEval A chain x) (fun z => Valid ck B z (c * v) ∧ z.length ≤ x.length + chainLen chain) := by
  unfold ascEval
  refine Yields.bind (ascLoop_spec st hopp hshift hadd (v := v) (n := x.length) chain [x] [1] [0] c
    rfl rfl (by
      intro i h1 h2 h3
      have : i = 0 := by simpa using h1
      subst this
      exact ⟨hx.congr (by simp), by simp⟩) hc) ?_
  rintro out ⟨z, hz, z1, z2⟩
  rw [hz]
  exact Yields.pure ⟨z1, z2⟩

/-! ### The shipped table -/

/-- complete check of the table: keys, values, lengths -/
def ascTableOk (m : List (Nat × Asc)) : Bool :=
  m.map (·.1) == (List.range 2048).map (fun i => 2 * i + 1) &&
  m.all fun e => chainValue e.2 == some (e.1 : Int) && chainLen e.2 ≤ Nat.log2 e.1 + 5

theorem asc12_ok : ascTableOk asc12 = true := by decide +kernel

theorem asc12_keys : asc12.map (·.1) = (List.range 2048).map (fun i => 2 * i + 1) := by
  have := asc12_ok
  unfold ascTableOk at this
  rw [Bool.and_eq_true] at this
  exact eq_of_beq this.1

theorem asc12_entry {k : Nat} {ch : Asc} (h : (k, ch) ∈ asc12) :
    chainValue ch = some (k : Int) ∧ chainLen ch ≤ Nat.log2 k + 5 := by
  have := asc12_ok
  unfold ascTableOk at this
  rw [Bool.and_eq_true, List.all_eq_true] at this
  have := this.2 _ h
  rw [Bool.and_eq_true] at this
  exact ⟨eq_of_beq this.1, by simpa using this.2⟩

theorem mapGet?_some {V : Type} {m : List (Nat × V)} {k : Nat} (h : k ∈ m.map (·.1)) :
    ∃ v, mapGet? m k = some v ∧ (k, v) ∈ m := by
  unfold mapGet?
  obtain ⟨e, he⟩ : ∃ e, m.find? (fun e => e.1 == k) = some e := by
    rw [← Option.isSome_iff_exists, List.find?_isSome]
    obtain ⟨e, he, rfl⟩ := List.mem_map.1 h
    exact ⟨e, he, by simp⟩
  have h1 := List.find?_some he
  have h2 := List.mem_of_find?_eq_some he
  have h3 : e.1 = k := by simpa using h1
  refine ⟨e.2, by rw [he]; rfl, ?_⟩
  rw [← h3]; exact h2

theorem Returns.mapIdx {V : Type} {m : List (Nat × V)} {k : Nat} {v : V} (h : mapGet? m k = some v) :
    Returns (mapIdx m k) v 0 := by
  unfold Parm.mapIdx
  rw [h]
  exact Returns.pure _

/-- what scalar multiplication needs of the chain table -/
def TableOk (m : List (Nat × Asc)) : Prop :=
  ∀ k, k % 2 = 1 → k < 2 ^ 12 → ∃ ch, mapGet? m k = some ch ∧ chainValue ch = some (k : Int) ∧
    chainLen ch ≤ Nat.log2 k + 5

theorem asc12_tableOk : TableOk asc12 := by
  intro k h1 h2
  obtain ⟨ch, c1, c2⟩ := mapGet?_some (m := asc12) (k := k) (by
    rw [asc12_keys, List.mem_map]
    exact ⟨k / 2, by rw [List.mem_range]; omega, by omega⟩)
  exact ⟨ch, c1, asc12_entry c2⟩

/-! ### Scalar multiplication -/

theorem mem_keys_mapInsert {V : Type} (k : Nat) (v : V) : ∀ (m : List (Nat × V)) (k' : Nat),
    k' ∈ (mapInsert k v m).map (·.1) ↔ k' = k ∨ k' ∈ m.map (·.1)
  | [], k' => by simp [mapInsert]
  | (a, b) :: m, k' => by
    unfold mapInsert
    split_ifs
    · simp
    · simp only [List.map_cons, List.mem_cons]
      rw [mem_keys_mapInsert k v m k']
      tauto

theorem mem_keys_initKeys {V : Type} (empty : V) : ∀ (ws : List (Int × Nat)) (m : List (Nat × V)) (k : Nat),
    k ∈ (initKeys empty ws m).map (·.1) ↔ k ∈ m.map (·.1) ∨ ∃ w ∈ ws, absU32 w.1 = k
  | [], m, k => by simp [initKeys]
  | (wi, sh) :: ws, m, k => by
    unfold initKeys
    rw [mem_keys_initKeys empty ws _ k]
    split_ifs with h
    · constructor
      · rintro (h1 | ⟨w, hw, e⟩)
        · exact Or.inl h1
        · exact Or.inr ⟨w, by simp [hw], e⟩
      · rintro (h1 | ⟨w, hw, e⟩)
        · exact Or.inl h1
        · rcases List.mem_cons.1 hw with rfl | hw
          · left
            simp only at e
            rw [e] at h
            unfold mapGet? at h
            rw [Option.isSome_map, List.find?_isSome] at h
            obtain ⟨a, ha, hk⟩ := h
            exact List.mem_map.2 ⟨a, ha, by simpa using hk⟩
          · exact Or.inr ⟨w, hw, e⟩
    · rw [mem_keys_mapInsert]
      constructor
      · rintro ((rfl | h1) | ⟨w, hw, e⟩)
        · exact Or.inr ⟨(wi, sh), by simp, rfl⟩
        · exact Or.inl h1
        · exact Or.inr ⟨w, by simp [hw], e⟩
      · rintro (h1 | ⟨w, hw, e⟩)
        · exact Or.inl (Or.inr h1)
        · rcases List.mem_cons.1 hw with rfl | hw
          · exact Or.inl (Or.inl e.symm)
          · exact Or.inr ⟨w, hw, e⟩

theorem reduceLoop_sum (st : Setting S ck pc B D) (e : Nat → Int) {m : Nat} :
    ∀ (rows : List (Ctxt S.C)) (j : Nat) (cur other : Ctxt S.C),
    (∀ i (hi : i < rows.length), Valid ck B rows[i] (e (j + i)) ∧ rows[i].length ≤ m) →
    ∀ {v : Int} {t : Nat}, Valid ck B cur v → cur.length ≤ m + t →
    Yields (reduceLoop S pc rows cur other) (fun z =>
      Valid ck B z (v + ((List.range rows.length).map fun i => e (j + i)).sum) ∧
      z.length ≤ m + t + rows.length)
  | [], j, cur, other, _, v, t, hv, hl => by
    unfold reduceLoop
    exact Yields.pure ⟨by simpa using hv, by simpa using hl⟩
  | row :: rows, j, cur, other, hrows, v, t, hv, hl => by
    unfold reduceLoop
    obtain ⟨h1, h2⟩ := hrows 0 (by simp)
    simp only [List.getElem_cons_zero, Nat.add_zero] at h1 h2
    refine Yields.bind (ctAdd_valid st hv h1) ?_
    rintro new ⟨n1, n2⟩
    refine (reduceLoop_sum st e (m := m) rows (j + 1) new cur (fun i hi => ?_) (t := t + 1) n1 (by omega)).mono ?_
    · have := hrows (i + 1) (by simpa using hi)
      rw [List.getElem_cons_succ] at this
      rw [show j + 1 + i = j + (i + 1) by omega]
      exact this
    · rintro z ⟨z1, z2⟩
      refine ⟨z1.congr ?_, by rw [List.length_cons]; omega⟩
      rw [List.length_cons, List.range_succ_eq_map, List.map_cons, List.map_map, List.sum_cons]
      have : (fun i => e (j + 1 + i)) = (fun i => e (j + i)) ∘ Nat.succ := by
        funext i; simp only [Function.comp]; congr 1; omega
      rw [this, Nat.add_zero]; ring

theorem reduceMulsquary_sum (st : Setting S ck pc B D) (e : Nat → Int) {m : Nat} {rows : List (Ctxt S.C)}
    (h2 : 2 ≤ rows.length)
    (h : ∀ i (hi : i < rows.length), Valid ck B rows[i] (e i) ∧ rows[i].length ≤ m) :
    Yields (reduceMulsquary S pc rows) (fun z =>
      Valid ck B z ((List.range rows.length).map e).sum ∧ z.length + 1 ≤ m + rows.length) := by
  unfold reduceMulsquary
  refine Yields.bind ((Returns.idx (show 0 < rows.length by omega)).yields rfl) ?_
  rintro _ rfl
  refine Yields.bind ((Returns.idx (show 1 < rows.length by omega)).yields rfl) ?_
  rintro _ rfl
  obtain ⟨a1, a2⟩ := h 0 (by omega)
  obtain ⟨b1, b2⟩ := h 1 (by omega)
  refine Yields.bind (ctAdd_valid st a1 b1) ?_
  rintro s ⟨s1, s2⟩
  refine (reduceLoop_sum st e (m := m) (rows.drop 2) 2 s (emptyCt S.C) (fun i hi => ?_) (t := 1) s1
    (by omega)).mono ?_
  · rw [List.getElem_drop]
    exact h (2 + i) _
  · rintro z ⟨z1, z2⟩
    rw [List.length_drop] at z1 z2
    refine ⟨z1.congr ?_, by omega⟩
    obtain ⟨n, hn⟩ : ∃ n, rows.length = n + 1 + 1 := ⟨rows.length - 2, by omega⟩
    rw [hn, show n + 1 + 1 - 2 = n by omega, List.range_succ_eq_map, List.map_cons, List.map_map,
      List.sum_cons, List.range_succ_eq_map, List.map_cons, List.map_map, List.sum_cons]
    have : ((e ∘ Nat.succ) ∘ Nat.succ) = fun i => e (2 + i) := by
      funext i; simp only [Function.comp]; congr 1; omega
    rw [this]
    simp only [Function.comp]
    ring

theorem range_map_getD {f : Int × Nat → Int} : ∀ (ws : List (Int × Nat)),
    ((List.range ws.length).map fun i => f (ws.getD i (0, 0))) = ws.map f := by
  intro ws
  apply List.ext_getElem
  · simp
  · intro i h1 h2
    have : i < ws.length := by simpa using h1
    simp [List.getD_eq_getElem?_getD, this]

/-- bit length of a nonnegative integer, as a bound -/
theorem log2_lt_of {a b : Nat} (ha : a ≠ 0) (h : a < 2 ^ b) : Nat.log2 a < b :=
  (Nat.log2_lt ha).2 h

theorem scalarMulImpl_gen (st : Setting S ck pc B D) (ht : TableOk pc.asc)
    {k : Int} (hk1 : -2 ^ 31 ≤ k) (hk2 : k < 2 ^ 31)
    (habs' : Returns (i32Op pc.build (k.natAbs : Int)) (wrapI32 (k.natAbs : Int)) 0)
    (hws : ∀ ws, 2 ≤ k.natAbs → Returns (windShifts .release k.natAbs ascBitlen) ws 0 →
      Returns (windShifts pc.build k.natAbs ascBitlen) ws 0)
    {x : Ctxt S.C} {v : Int} (hx : Valid ck B x v) :
    Yields (scalarMulImpl S pc k x) (fun z => Valid ck B z (k * v) ∧
      ∀ l, k.natAbs < 2 ^ l → z.length ≤ x.length + l + 7) := by
  unfold scalarMulImpl
  -- the signed operand
  obtain ⟨xp, hxp⟩ : ∃ xp, xp = (if k ≥ 0 then x else x.map (Word.opp S)) := ⟨_, rfl⟩
  have hxpv : Valid ck B xp ((if k ≥ 0 then 1 else -1) * v) := by
    rw [hxp]
    split_ifs
    · exact hx.congr (by ring)
    · exact (hx.oppositeImpl st).congr (by ring)
  have hxpl : xp.length = x.length := by
    rw [hxp]; split_ifs <;> simp
  simp only [← hxp]
  clear hxp
  -- |k|
  obtain ⟨ka, hka⟩ : ∃ ka : Nat, ka = k.natAbs := ⟨_, rfl⟩
  have hka31 : ka ≤ 2 ^ 31 := by omega
  have habs : Returns (i32Op pc.build (k.natAbs : Int)) (wrapI32 (ka : Int)) 0 := by
    rw [hka]; exact habs'
  have hwrap : (wrapU32 (wrapI32 (ka : Int))).toNat = ka := by
    have : wrapU32 (wrapI32 (ka : Int)) = ka := by
      unfold wrapU32 wrapI32
      rw [show ((2 : Nat) ^ 32 : Nat) = 4294967296 by norm_num]
      have := Int.bmod_emod (x := (ka : Int)) (m := 4294967296)
      norm_num at this ⊢
      rw [this]
      omega
    rw [this]; rfl
  refine Yields.bind (habs.yields rfl) ?_
  rintro _ rfl
  simp only [hwrap]
  have hkk : k * v = (ka : Int) * ((if k ≥ 0 then 1 else -1) * v) := by
    have : k = (ka : Int) * (if k ≥ 0 then 1 else -1) := by
      split_ifs <;> omega
    rw [← mul_assoc, ← this]
  obtain ⟨vp, hvp⟩ : ∃ vp, vp = (if k ≥ 0 then 1 else -1) * v := ⟨_, rfl⟩
  rw [← hvp] at hxpv hkk
  rw [hkk]
  rw [← hka]
  rw [← hka] at hws
  clear hkk hvp habs hwrap habs'
  by_cases h0 : ka = 0
  · rw [if_pos h0]
    exact Yields.pure ⟨Valid.nil.congr (by rw [h0]; simp), fun l _ => by simp [emptyCt]⟩
  rw [if_neg h0]
  by_cases h1 : ka = 1
  · rw [if_pos h1]
    exact Yields.pure ⟨hxpv.congr (by rw [h1]; simp), fun l _ => by omega⟩
  rw [if_neg h1]
  -- the windows
  obtain ⟨ws, w1, w2, w3, w4, w5⟩ := windShifts_spec h0 (show ka < 2 ^ 32 by omega)
    (bitlen := ascBitlen) (by decide) (by decide)
  refine Yields.bind ((hws ws (by omega) w1).yields rfl) ?_
  rintro _ rfl
  have hwne : ∀ w ∈ ws, absU32 w.1 % 2 = 1 ∧ absU32 w.1 < 2 ^ 12 := by
    intro w hw
    have := w3 w hw
    unfold absU32
    refine ⟨by omega, this.2.1⟩
  -- the products with the windows
  refine Yields.bind (P := fun map => map.map (·.1) = (initKeys (emptyCt S.C) ws []).map (·.1) ∧
    ∀ e ∈ map, Valid ck B e.2 ((e.1 : Int) * vp) ∧ e.2.length ≤ x.length + (Nat.log2 e.1 + 5)) ?_ ?_
  · refine (Yields.parFor (P := fun i e => e.1 = ((initKeys (emptyCt S.C) ws []).map (·.1)).getD i 0 ∧
      Valid ck B e.2 ((e.1 : Int) * vp) ∧ e.2.length ≤ x.length + (Nat.log2 e.1 + 5)) ?_).mono ?_
    · intro i hi
      have hkey : ((initKeys (emptyCt S.C) ws [])[i]).1 ∈ (initKeys (emptyCt S.C) ws []).map (·.1) :=
        List.mem_map.2 ⟨_, List.getElem_mem hi, rfl⟩
      rw [mem_keys_initKeys] at hkey
      have hkey' : ((initKeys (emptyCt S.C) ws [])[i]).1 % 2 = 1 ∧
          ((initKeys (emptyCt S.C) ws [])[i]).1 < 2 ^ 12 := by
        rcases hkey with h | ⟨w, hw, e⟩
        · simp at h
        · rw [← e]; exact hwne w hw
      obtain ⟨ch, c1, c2, c3⟩ := ht _ hkey'.1 hkey'.2
      refine Yields.bind ((Returns.mapIdx c1).yields rfl) ?_
      rintro _ rfl
      refine Yields.bind ((ascEval_spec (A := ascArith S pc) st (fun _ => rfl) (fun _ _ => rfl)
        (fun _ _ => rfl) c2 hxpv).expect) ?_
      rintro z ⟨z1, z2⟩
      refine Yields.pure ⟨?_, z1, by simp only; omega⟩
      rw [List.getD_eq_getElem _ _ (by simpa using hi)]
      simp
    · rintro map ⟨m1, m2⟩
      refine ⟨?_, ?_⟩
      · apply List.ext_getElem
        · simp [m1]
        · intro i hi hi'
          have := (m2 i (by simpa using hi)).1
          rw [List.getD_eq_getElem _ _ hi'] at this
          simpa using this
      · intro e he
        obtain ⟨i, hi, rfl⟩ := List.getElem_of_mem he
        exact (m2 i hi).2
  · rintro map ⟨m1, m2⟩
    obtain ⟨L, hL⟩ : ∃ L, bitLen32 (BitVec.ofNat 32 ka) = L := ⟨_, rfl⟩
    obtain ⟨b1, b2, b3, b4⟩ := bitLen32_spec h0 (show ka < 2 ^ 32 by omega)
    rw [hL] at w3 b1 b2 b3 b4
    -- the rows
    refine Yields.bind (P := fun rows => rows.length = ws.length ∧ ∀ i (hi : i < rows.length),
      Valid ck B rows[i] ((ws.getD i (0, 0)).1 * 2 ^ (ws.getD i (0, 0)).2 * vp) ∧
      rows[i].length ≤ x.length + L + 5) ?_ ?_
    · refine (Yields.seqFor (P := fun i row =>
        Valid ck B row ((ws.getD i (0, 0)).1 * 2 ^ (ws.getD i (0, 0)).2 * vp) ∧
        row.length ≤ x.length + L + 5) ?_).mono ?_
      · intro i hi
        have hiw : i < ws.length := by simpa using hi
        rw [List.getD_eq_getElem _ _ hiw]
        have hmem := List.getElem_mem hiw
        obtain ⟨u, u1, u2⟩ := mapGet?_some (m := map) (k := absU32 ws[i].1) (by
          rw [m1, mem_keys_initKeys]
          exact Or.inr ⟨_, hmem, rfl⟩)
        obtain ⟨u3, u4⟩ := m2 _ u2
        simp only at u3 u4
        have hw := w3 _ hmem
        have hlog : Nat.log2 (absU32 ws[i].1) + ws[i].2 ≤ L := by
          have := log2_lt_of (a := absU32 ws[i].1) (b := L + 1 - ws[i].2) (by unfold absU32; omega)
            hw.2.2.2
          omega
        refine Yields.bind ((Returns.idx hiw).yields rfl) ?_
        rintro _ rfl
        refine Yields.bind ((Returns.mapIdx u1).yields rfl) ?_
        rintro _ rfl
        split_ifs with hneg
        · refine Yields.pure ⟨(ctShift_valid st (u3.oppositeImpl st) _).congr ?_, ?_⟩
          · have : (absU32 ws[i].1 : Int) = - ws[i].1 := by unfold absU32; omega
            rw [this]; ring
          · rw [length_ctShift]
            have : (ctOpp S u).length = u.length := by simp [ctOpp, oppositeImpl]
            omega
        · refine Yields.pure ⟨(ctShift_valid st u3 _).congr ?_, ?_⟩
          · have : (absU32 ws[i].1 : Int) = ws[i].1 := by unfold absU32; omega
            rw [this]; ring
          · rw [length_ctShift]; omega
      · rintro rows ⟨r1, r2⟩
        exact ⟨by simpa using r1, r2⟩
    · rintro rows ⟨r1, r2⟩
      have hlen3 : ws.length ≤ 3 := by
        by_contra hc
        have g : ∀ i (h : i < ws.length) (h' : i + 1 < ws.length), ws[i].2 + 12 ≤ ws[i+1].2 :=
          fun i h h' => (List.pairwise_iff_getElem.1 w4) i (i + 1) h h' (by omega)
        have g0 : ws[0].2 + 12 ≤ ws[1].2 := g 0 (by omega) (by omega)
        have g1 : ws[1].2 + 12 ≤ ws[2].2 := g 1 (by omega) (by omega)
        have g2 : ws[2].2 + 12 ≤ ws[3].2 := g 2 (by omega) (by omega)
        have := (w3 _ (List.getElem_mem (show 3 < ws.length by omega))).2.2.1
        omega
      have hsum : ((List.range rows.length).map fun i =>
          (ws.getD i (0, 0)).1 * 2 ^ (ws.getD i (0, 0)).2 * vp).sum = (ka : Int) * vp := by
        rw [r1, range_map_getD (f := fun w => w.1 * 2 ^ w.2 * vp), ← w2]
        clear * -
        induction ws with
        | nil => simp
        | cons w ws ih => simp only [List.map_cons, List.sum_cons, ih]; ring
      have hLl : ∀ l, ka < 2 ^ l → L ≤ l := by
        intro l hl
        by_contra hc
        have : 2 ^ l ≤ 2 ^ (L - 1) := Nat.pow_le_pow_right (by norm_num) (by omega)
        omega
      by_cases hone : rows.length = 1
      · rw [if_pos hone]
        refine (Returns.idx (show 0 < rows.length by omega)).yields ?_
        obtain ⟨q1, q2⟩ := r2 0 (by omega)
        refine ⟨q1.congr ?_, fun l hl => ?_⟩
        · rw [← hsum, hone]; simp
        · have := hLl l hl; omega
      · rw [if_neg hone]
        have hpos : 0 < ws.length := List.length_pos_iff.2 w5
        refine (reduceMulsquary_sum st _ (by omega) r2).mono ?_
        rintro z ⟨z1, z2⟩
        refine ⟨z1.congr hsum, fun l hl => ?_⟩
        have := hLl l hl; omega

theorem i32Op_release_abs {k : Int} (hk1 : -2 ^ 31 ≤ k) (hk2 : k < 2 ^ 31) :
    Returns (i32Op .release (k.natAbs : Int)) (wrapI32 (k.natAbs : Int)) 0 := by
  unfold i32Op
  split_ifs with h
  · refine (Returns.pure _).congr ?_ rfl
    unfold inI32 at h
    simp only [Bool.and_eq_true, decide_eq_true_eq] at h
    unfold wrapI32
    rw [Int.bmod_eq_of_le] <;> omega
  · exact Returns.pure _

theorem scalarMulImpl_spec (st : Setting S ck pc B D) (hb : pc.build = .release) (ht : TableOk pc.asc)
    {k : Int} (hk1 : -2 ^ 31 ≤ k) (hk2 : k < 2 ^ 31) {x : Ctxt S.C} {v : Int} (hx : Valid ck B x v) :
    Yields (scalarMulImpl S pc k x) (fun z => Valid ck B z (k * v) ∧
      ∀ l, k.natAbs < 2 ^ l → z.length ≤ x.length + l + 7) :=
  scalarMulImpl_gen st ht hk1 hk2 (by rw [hb]; exact i32Op_release_abs hk1 hk2)
    (by rw [hb]; exact fun _ _ h => h) hx

theorem ctScalarMul_valid (st : Setting S ck pc B D) (hb : pc.build = .release) (ht : TableOk pc.asc)
    {k : Int} (hk1 : -2 ^ 31 ≤ k) (hk2 : k < 2 ^ 31) {x : Ctxt S.C} {v : Int} (hx : Valid ck B x v) :
    Yields (ctScalarMul S pc k x) (fun z => Valid ck B z (k * v) ∧
      ∀ l, k.natAbs < 2 ^ l → z.length ≤ x.length + l + 7) :=
  (scalarMulImpl_spec st hb ht hk1 hk2 hx).call

/-! ### Debug and release builds of the recoding -/

/-- the debug computation returns the same as the release computation, or overflows, or both
fail alike -/
def DebugLike {α : Type} (m m' : M α) : Prop :=
  (∃ a, Returns m a 0 ∧ Returns m' a 0) ∨ Fails m (.panic .overflow) ∨ ∃ f, Fails m f ∧ Fails m' f

theorem DebugLike.pure {α : Type} (a : α) : DebugLike (Pure.pure a) (Pure.pure a) :=
  Or.inl ⟨a, Returns.pure a, Returns.pure a⟩

theorem DebugLike.bind {α β : Type} {m m' : M α} {f f' : α → M β} (h : DebugLike m m')
    (hf : ∀ a, DebugLike (f a) (f' a)) : DebugLike (m >>= f) (m' >>= f') := by
  rcases h with ⟨a, h1, h2⟩ | h | ⟨e, h1, h2⟩
  · rcases hf a with ⟨b, g1, g2⟩ | g | ⟨e, g1, g2⟩
    · exact Or.inl ⟨b, h1.bind0 g1, h2.bind0 g2⟩
    · exact Or.inr (Or.inl (h1.bind_fails g))
    · exact Or.inr (Or.inr ⟨e, h1.bind_fails g1, h2.bind_fails g2⟩)
  · exact Or.inr (Or.inl h.bind)
  · exact Or.inr (Or.inr ⟨e, h1.bind, h2.bind⟩)

theorem DebugLike.setIdx (l : List Int) (i : Nat) (a : Int) : DebugLike (setIdx l i a) (setIdx l i a) := by
  by_cases h : i < l.length
  · exact Or.inl ⟨_, Returns.setIdx h, Returns.setIdx h⟩
  · refine Or.inr (Or.inr ⟨.panic .index, ?_, ?_⟩) <;>
    · unfold Parm.setIdx; rw [if_neg h]; exact Fails.panic _

theorem DebugLike.idx {α : Type} (l : List α) (i : Nat) : DebugLike (idx l i) (idx l i) := by
  by_cases h : i < l.length
  · exact Or.inl ⟨_, Returns.idx h, Returns.idx h⟩
  · refine Or.inr (Or.inr ⟨.panic .index, ?_, ?_⟩) <;>
    · unfold Parm.idx; rw [List.getElem?_eq_none (by omega)]; exact Fails.panic _

theorem DebugLike.fail {α : Type} (p : PanicKind) : DebugLike (M.panic p : M α) (M.panic p) :=
  Or.inr (Or.inr ⟨_, Fails.panic _, Fails.panic _⟩)

theorem DebugLike.ite {α : Type} {c : Prop} [Decidable c] {m1 m2 m1' m2' : M α} (h1 : DebugLike m1 m1')
    (h2 : DebugLike m2 m2') : DebugLike (if c then m1 else m2) (if c then m1' else m2') := by
  split_ifs <;> assumption

theorem DebugLike.u32Bit (k i : Nat) : DebugLike (u32Bit .debug k i) (u32Bit .release k i) := by
  unfold Parm.u32Bit
  split_ifs
  · exact DebugLike.pure _
  · exact Or.inr (Or.inl (Fails.panic _))

theorem DebugLike.u32BitPred (k i : Nat) : DebugLike (u32BitPred .debug k i) (u32BitPred .release k i) := by
  unfold Parm.u32BitPred
  refine (DebugLike.u32Bit k i).bind fun t => DebugLike.bind ?_ fun u => DebugLike.pure _
  unfold u32Op
  split_ifs
  · exact DebugLike.pure _
  · exact Or.inr (Or.inl (Fails.panic _))

theorem DebugLike.fillWhile {f f' : Nat → M Int} (hf : ∀ i, DebugLike (f i) (f' i)) :
    ∀ (n j : Nat) (v : List Int), DebugLike (fillWhile f n j v) (fillWhile f' n j v)
  | 0, _, _ => DebugLike.pure _
  | n + 1, j, v => by
    unfold Parm.fillWhile
    exact (hf j).bind fun t => (DebugLike.setIdx v j t).bind fun v => DebugLike.fillWhile hf n (j + 1) v

theorem DebugLike.ktStep (k : Nat) (s : KtSt) : DebugLike (ktStep .debug k s) (ktStep .release k s) := by
  unfold Parm.ktStep
  refine (DebugLike.u32Bit k s.x).bind fun bit => ?_
  refine DebugLike.ite (DebugLike.ite ?_ (DebugLike.ite (DebugLike.pure _) (DebugLike.pure _)))
    (DebugLike.ite ?_ (DebugLike.ite (DebugLike.pure _) (DebugLike.pure _)))
  · exact (DebugLike.fillWhile (fun i => DebugLike.u32Bit k i) _ _ _).bind fun v =>
      (DebugLike.setIdx _ _ _).bind fun v => DebugLike.pure _
  · exact (DebugLike.fillWhile (fun i => DebugLike.u32BitPred k i) _ _ _).bind fun v =>
      (DebugLike.setIdx _ _ _).bind fun v => DebugLike.pure _

theorem DebugLike.ktLoop (k : Nat) : ∀ (n : Nat) (s : KtSt),
    DebugLike (ktLoop .debug k n s) (ktLoop .release k n s)
  | 0, _ => DebugLike.pure _
  | n + 1, s => by
    unfold Parm.ktLoop
    exact (DebugLike.ktStep k s).bind fun s => DebugLike.ktLoop k n s

theorem DebugLike.ktFinish (k : Nat) (s : KtSt) : DebugLike (ktFinish .debug k s) (ktFinish .release k s) := by
  unfold Parm.ktFinish
  refine DebugLike.ite ?_ ?_
  · exact (DebugLike.fillWhile (fun i => (DebugLike.u32Bit k i).bind fun t => DebugLike.pure _) _ _ _).bind
      fun v => (DebugLike.setIdx _ _ _).bind fun v => DebugLike.setIdx _ _ _
  · exact (DebugLike.fillWhile (fun i => DebugLike.u32BitPred k i) _ _ _).bind fun v =>
      (DebugLike.setIdx _ _ _).bind fun v =>
      (DebugLike.fillWhile (fun i => DebugLike.u32Bit k i) _ _ _).bind fun v =>
      (DebugLike.setIdx _ _ _).bind fun v => DebugLike.setIdx _ _ _

theorem DebugLike.koyamaTsuruokaVec (k : Nat) :
    DebugLike (koyamaTsuruokaVec .debug k) (koyamaTsuruokaVec .release k) := by
  unfold Parm.koyamaTsuruokaVec
  exact DebugLike.ite (DebugLike.pure _) (DebugLike.ite (DebugLike.pure _)
    ((DebugLike.ktLoop k _ _).bind fun s => (DebugLike.ktFinish k s).bind fun v => DebugLike.pure _))

/-- `wind_shifts` in a debug build: the same windows, or an overflow panic -/
theorem windShifts_debug {k : Nat} (h0 : k ≠ 0) (hk : k < 2 ^ 32) {bitlen : Nat} (hb : 1 ≤ bitlen)
    (hb31 : bitlen ≤ 31) :
    (∃ ws, Returns (windShifts .debug k bitlen) ws 0 ∧ Returns (windShifts .release k bitlen) ws 0) ∨
    Fails (windShifts .debug k bitlen) (.panic .overflow) := by
  obtain ⟨ds, d1, d2, d3, d4, d5, _, _⟩ := koyamaTsuruoka_spec h0 hk
  rcases DebugLike.koyamaTsuruokaVec k with ⟨ds', e1, e2⟩ | h | ⟨f, _, h2⟩
  · have := (d1.unique e2).1
    subst this
    left
    have hpos : 0 < ds.length := by
      cases ds with
      | nil => simp at d4
      | cons => simp
    obtain ⟨ws, w1, w2, w3, w4, w5⟩ := windShiftsLoop_spec .debug hb hb31 d2 d4 (ds.length + 1) 0 hpos (by omega)
    obtain ⟨ws', w1', -⟩ := windShiftsLoop_spec .release hb hb31 d2 d4 (ds.length + 1) 0 hpos (by omega)
    -- the loop does not depend on the profile
    have key : ∀ (fuel sh : Nat), sh < ds.length → ds.length < sh + fuel → ∀ a a',
        Returns (windShiftsLoop .debug ds bitlen fuel sh) a 0 →
        Returns (windShiftsLoop .release ds bitlen fuel sh) a' 0 → a = a' := by
      intro fuel
      induction fuel with
      | zero => intro sh h1 h2; omega
      | succ fuel ih =>
        intro sh h1 h2 a a' ha ha'
        obtain ⟨z1, z2, z3, z4⟩ := skipZeros_spec h1 d4
        unfold windShiftsLoop at ha ha'
        simp only at ha ha'
        obtain ⟨s, hs⟩ : ∃ s, skipZeros ds sh = s := ⟨_, rfl⟩
        rw [hs] at z1 z2 ha ha'
        obtain ⟨hi, hhi⟩ : ∃ hi, hi = (if s + bitlen - 1 ≥ ds.length then ds.length - 1
          else s + bitlen - 1) := ⟨_, rfl⟩
        have hhi1 : s ≤ hi ∧ hi < ds.length ∧ hi + 1 - s ≤ bitlen := by
          rw [hhi]; split_ifs <;> omega
        rw [← hhi, if_neg (by omega)] at ha ha'
        have hwd : ∀ d ∈ (ds.drop s).take (hi + 1 - s), IsDigit d :=
          fun d h => d2 d (List.mem_of_mem_drop (List.mem_of_mem_take h))
        have hwl : ((ds.drop s).take (hi + 1 - s)).length ≤ 63 := by
          rw [List.length_take]; omega
        have c1 := (convertFromVec_ok .debug hwl hwd).expect
        have c2 := (convertFromVec_ok .release hwl hwd).expect
        by_cases hend : s + bitlen ≥ ds.length
        · have r1 : Returns _ _ 0 := c1.bind0 (f := fun wi => (if s + bitlen ≥ ds.length then
            pure [(wrapI32 wi, s)] else do
              let rest ← windShiftsLoop .debug ds bitlen fuel (s + bitlen)
              pure ((wrapI32 wi, s) :: rest))) (by rw [if_pos hend]; exact Returns.pure _)
          have r2 : Returns _ _ 0 := c2.bind0 (f := fun wi => (if s + bitlen ≥ ds.length then
            pure [(wrapI32 wi, s)] else do
              let rest ← windShiftsLoop .release ds bitlen fuel (s + bitlen)
              pure ((wrapI32 wi, s) :: rest))) (by rw [if_pos hend]; exact Returns.pure _)
          rw [(ha.unique r1).1, (ha'.unique r2).1]
        · obtain ⟨q, q1, -⟩ := windShiftsLoop_spec .debug hb hb31 d2 d4 fuel (s + bitlen) (by omega) (by omega)
          obtain ⟨q', q1', -⟩ := windShiftsLoop_spec .release hb hb31 d2 d4 fuel (s + bitlen) (by omega) (by omega)
          have hqq := ih (s + bitlen) (by omega) (by omega) q q' q1 q1'
          subst hqq
          have r1 : Returns _ _ 0 := c1.bind0 (f := fun wi => (if s + bitlen ≥ ds.length then
            pure [(wrapI32 wi, s)] else do
              let rest ← windShiftsLoop .debug ds bitlen fuel (s + bitlen)
              pure ((wrapI32 wi, s) :: rest))) (by
                rw [if_neg hend]; exact q1.bind0 (Returns.pure _))
          have r2 : Returns _ _ 0 := c2.bind0 (f := fun wi => (if s + bitlen ≥ ds.length then
            pure [(wrapI32 wi, s)] else do
              let rest ← windShiftsLoop .release ds bitlen fuel (s + bitlen)
              pure ((wrapI32 wi, s) :: rest))) (by
                rw [if_neg hend]; exact q1'.bind0 (Returns.pure _))
          rw [(ha.unique r1).1, (ha'.unique r2).1]
    have := key _ _ hpos (by omega) _ _ w1 w1'
    subst this
    exact ⟨ws, e1.bind0 w1, e2.bind0 w1'⟩
  · right; exact h.bind
  · exact absurd h2 (fun h => d1.not_fails h)

theorem scalarMulImpl_debug (st : Setting S ck pc B D) (hb : pc.build = .debug) (ht : TableOk pc.asc)
    {k : Int} (hk1 : -2 ^ 31 < k) (hk2 : k < 2 ^ 31) {x : Ctxt S.C} {v : Int} (hx : Valid ck B x v) :
    Yields (scalarMulImpl S pc k x) (fun z => Valid ck B z (k * v) ∧
      ∀ l, k.natAbs < 2 ^ l → z.length ≤ x.length + l + 7) ∨
    (2 ≤ k.natAbs ∧ Fails (windShifts .debug k.natAbs ascBitlen) (.panic .overflow) ∧
      Fails (scalarMulImpl S pc k x) (.panic .overflow)) := by
  have hw : wrapI32 (k.natAbs : Int) = k.natAbs := by
    unfold wrapI32
    rw [Int.bmod_eq_of_le] <;> omega
  have habs : Returns (i32Op pc.build (k.natAbs : Int)) (wrapI32 (k.natAbs : Int)) 0 := by
    rw [hw]
    unfold i32Op
    rw [if_pos (by unfold inI32; simp only [Bool.and_eq_true, decide_eq_true_eq]; omega)]
    exact Returns.pure _
  by_cases h2 : 2 ≤ k.natAbs
  · rcases windShifts_debug (k := k.natAbs) (by omega) (by omega) (bitlen := ascBitlen) (by decide)
      (by decide) with ⟨ws, w1, w2⟩ | h
    · left
      refine scalarMulImpl_gen st ht (by omega) hk2 habs ?_ hx
      intro ws' _ hws'
      rw [(hws'.unique w2).1, hb]
      exact w1
    · right
      refine ⟨h2, h, ?_⟩
      unfold scalarMulImpl
      refine habs.bind_fails ?_
      have hu : (wrapU32 (wrapI32 (k.natAbs : Int))).toNat = k.natAbs := by
        rw [hw]; unfold wrapU32; omega
      simp only [hu]
      rw [if_neg (by omega), if_neg (by omega), hb]
      exact h.bind
  · left
    exact scalarMulImpl_gen st ht (by omega) hk2 habs (fun ws h => absurd h h2) hx

end Parm
