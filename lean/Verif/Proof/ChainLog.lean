import Verif.Proof.ChainFile
import Mathlib.Data.Finset.Card
import Mathlib.Data.Finset.Image

/-!
# Bounds on the numbers of the chains, and the order of the lines of the log
-/

namespace Parm.ChainScript

/-- length and shifts of a chain are bounded -/
def Bounded (limit n : Nat) (c : AsChain) : Prop :=
  c.length ≤ n ∧ ∀ o ∈ c, ∀ pp p qp q r, o.src = some (pp, p, qp, q, r) → r ≤ limit

/-- all chains of a state of the search are bounded -/
def AllBounded (limit n : Nat) (rows : List AsChain) (db : Db) : Prop :=
  (∀ c ∈ rows, Bounded limit n c) ∧ ∀ e ∈ db, ∀ c ∈ e.2, Bounded limit n c

theorem addCand_bounded {limit n : Nat} {c : AsChain} (hc : Bounded limit n c) (v : Int) {st : List AsChain × Db}
    (h : AllBounded limit n st.1 st.2) : AllBounded limit n (addCand c v st).1 (addCand c v st).2 := by
  have hrow : ∀ x ∈ st.1 ++ [c], Bounded limit n x := by
    intro x hx
    rcases List.mem_append.1 hx with hx | hx
    · exact h.1 x hx
    · rw [List.mem_singleton] at hx
      subst hx
      exact hc
  unfold addCand
  split
  · refine ⟨hrow, fun e he => ?_⟩
    rcases List.mem_append.1 he with he | he
    · exact h.2 e he
    · rw [List.mem_singleton] at he
      subst he
      intro x hx
      rw [List.mem_singleton] at hx
      subst hx
      exact hc
  · split_ifs
    · refine ⟨hrow, fun e he => ?_⟩
      obtain ⟨x, hx, rfl⟩ := List.mem_map.1 he
      intro y hy
      split_ifs at hy
      · rcases List.mem_append.1 hy with hy | hy
        · exact h.2 x hx y hy
        · rw [List.mem_singleton] at hy
          subst hy
          exact hc
      · exact h.2 x hx y hy
    · exact h

theorem tries_le {limit : Nat} {q : Odd} {t : Nat × Bool × Bool} (h : t ∈ tries limit q) : t.1 ≤ limit := by
  unfold tries at h
  rw [List.mem_flatMap] at h
  obtain ⟨r, hr, ht⟩ := h
  rw [List.mem_range'_1] at hr
  have : t.1 = r := by fin_cases ht <;> rfl
  omega

theorem tries_bounded {limit n : Nat} {cpq : AsChain} {p q : Odd} (hc : Bounded limit n cpq) :
    ∀ (ts : List (Nat × Bool × Bool)) (st : List AsChain × Db), (∀ t ∈ ts, t.1 ≤ limit) →
      AllBounded limit (n + 1) st.1 st.2 →
      AllBounded limit (n + 1) (ts.foldl (tryOne cpq p q) st).1 (ts.foldl (tryOne cpq p q) st).2
  | [], _, _, h => h
  | t :: ts, st, ht, h => by
    refine tries_bounded hc ts _ (fun x hx => ht x (by simp [hx])) ?_
    unfold tryOne
    dsimp only
    split_ifs
    · refine addCand_bounded ⟨by simp [hc.1], fun o ho => ?_⟩ _ h
      rcases List.mem_append.1 ho with ho | ho
      · exact hc.2 o ho
      · rw [List.mem_singleton] at ho
        subst ho
        intro pp p' qp q' r hr
        simp only [Odd.make, Option.some.injEq, Prod.mk.injEq] at hr
        have := ht t (by simp)
        omega
    · exact h

theorem tryPair_bounded {limit n : Nat} {cp cq : AsChain} {st st' : List AsChain × Db} (h : AllBounded limit (n + 1) st.1 st.2)
    (hp : Bounded limit n cp) (hq : Bounded limit n cq) {lvl : Nat} (hl : lvl ≤ n)
    (he : tryPair limit lvl cp cq st = some st') : AllBounded limit (n + 1) st'.1 st'.2 := by
  unfold tryPair at he
  simp only [Option.bind_eq_bind, Option.bind_eq_some_iff] at he
  obtain ⟨cpq, hm, he⟩ := he
  split_ifs at he with h0
  · cases he
    exact h
  · simp only [Option.bind_eq_some_iff, Option.some.injEq] at he
    obtain ⟨p, -, q, -, rfl⟩ := he
    have h0 : cpq.length = lvl := by simpa using h0
    refine tries_bounded ⟨by omega, fun o ho => ?_⟩ _ _ (fun t ht => tries_le ht) h
    unfold merge at hm
    split_ifs at hm
    cases hm
    rcases List.mem_append.1 ho with ho | ho
    · exact hp.2 o ho
    · exact hq.2 o (List.mem_of_mem_drop ho)

theorem pairs_bounded {limit n lvl : Nat} (hl : lvl ≤ n) : ∀ (ps : List (AsChain × AsChain)) {st st' : List AsChain × Db},
    (∀ x ∈ ps, Bounded limit n x.1 ∧ Bounded limit n x.2) → AllBounded limit (n + 1) st.1 st.2 →
    ps.foldlM (fun st pq => tryPair limit lvl pq.1 pq.2 st) st = some st' → AllBounded limit (n + 1) st'.1 st'.2
  | [], st, st', _, h, he => by
    cases he
    exact h
  | x :: ps, st, st', hp, h, he => by
    rw [List.foldlM_cons] at he
    simp only [Option.bind_eq_bind, Option.bind_eq_some_iff] at he
    obtain ⟨s1, h1, he⟩ := he
    have hx := hp x (by simp)
    exact pairs_bounded hl ps (fun y hy => hp y (by simp [hy])) (tryPair_bounded h hx.1 hx.2 hl h1) he

theorem Bounded.mono {limit n : Nat} {c : AsChain} (h : Bounded limit n c) : Bounded limit (n + 1) c :=
  ⟨by have := h.1; omega, h.2⟩

theorem run_bounded {limit : Nat} : ∀ (n : Nat) {s : List (List AsChain) × Db}, run limit n = some s →
    AllBounded limit (n + 1) s.1.flatten s.2
  | 0, s, h => by
    cases h
    have hu : Bounded limit 1 [Odd.unit] := ⟨by simp, by simp [Odd.unit]⟩
    refine ⟨fun c hc => ?_, fun e he c hc => ?_⟩
    · simp at hc
      subst hc
      exact hu
    · simp at he
      subst he
      simp at hc
      subst hc
      exact hu
  | n + 1, s, h => by
    unfold run at h
    simp only [Option.bind_eq_bind, Option.bind_eq_some_iff] at h
    obtain ⟨t, ht, e, he, h⟩ := h
    cases h
    have ih := run_bounded n ht
    unfold ChainScript.extend at he
    split_ifs at he
    simp only [Option.bind_eq_bind, Option.bind_eq_some_iff] at he
    obtain ⟨row, hrow, c, hc, he⟩ := he
    have hcb : Bounded limit (n + 1) c :=
      ih.1 c (List.mem_flatten.2 ⟨row, List.mem_of_getLast? hrow, List.mem_of_getLast? hc⟩)
    have hb := pairs_bounded hcb.1 (pairs t.1) (st := ([], t.2)) (fun x hx =>
      ⟨ih.1 _ (mem_pairs.1 hx).1, ih.1 _ (mem_pairs.1 hx).2⟩) ⟨by simp, fun x hx y hy => (ih.2 x hx y hy).mono⟩ he
    refine ⟨fun x hx => ?_, hb.2⟩
    rw [List.flatten_append] at hx
    rcases List.mem_append.1 hx with hx | hx
    · exact (ih.1 x hx).mono
    · exact hb.1 x (by simpa using hx)

/-- the values found by a round stay, and every candidate of a round is found -/
theorem run_power {limit : Nat} (hlim : 2 ≤ limit) : ∀ (n : Nat) {s : List (List AsChain) × Db}, run limit (n + 1) = some s →
    (2 : Int) ^ (limit - 1) + 1 ∈ s.2.map (·.1)
  | 0, s, h => by
    obtain ⟨st, h1, -, -, h4⟩ := pairs_ok (limit := limit) (lvl := 1) (pairs [[[Odd.unit]]]) ([], [(1, [[Odd.unit]])])
      (fun x hx => ⟨runOk_init.good (mem_pairs.1 hx).1, runOk_init.good (mem_pairs.1 hx).2⟩) (runOk_init.start _)
    have hs : s.2 = st.2 := by
      unfold run run at h
      simp only [Option.bind_eq_bind, Option.bind_some, Option.bind_eq_some_iff] at h
      obtain ⟨e, he, h⟩ := h
      cases h
      have : ChainScript.extend limit [[[Odd.unit]]] [(1, [[Odd.unit]])] = some st := h1
      rw [this] at he
      cases he
      rfl
    have hu : [Odd.unit] ∈ ([[[Odd.unit]]] : List (List AsChain)).flatten := by simp
    have := h4 ([Odd.unit], [Odd.unit]) (mem_pairs.2 ⟨hu, hu⟩) Odd.unit Odd.unit [Odd.unit]
      (merge_unit ⟨[], rfl, trivial⟩) rfl rfl rfl (limit - 1, true, true) (by
        unfold tries
        refine List.mem_flatMap.2 ⟨limit - 1, List.mem_range'_1.2 ⟨by omega, ?_⟩, by simp⟩
        show limit - 1 < 1 + (limit - 1)
        omega)
    have e : (Odd.make true Odd.unit true Odd.unit (limit - 1)).val = 2 ^ (limit - 1) + 1 := by
      simp [Odd.make, sgn, Odd.unit]
      ring
    rw [e] at this
    rw [hs]
    exact this (by positivity)
  | n + 1, s, h => by
    unfold run at h
    simp only [Option.bind_eq_bind, Option.bind_eq_some_iff] at h
    obtain ⟨t, ht, e, he, h⟩ := h
    cases h
    have ih := run_power hlim n ht
    have hr := run_ok (n + 1) ht
    unfold ChainScript.extend at he
    split_ifs at he
    simp only [Option.bind_eq_bind, Option.bind_eq_some_iff] at he
    obtain ⟨row, hrow, c, hc, he⟩ := he
    obtain ⟨st, h1, -, h3, -⟩ := pairs_ok (limit := limit) (lvl := c.length) (pairs t.1) ([], t.2)
      (fun x hx => ⟨hr.good (mem_pairs.1 hx).1, hr.good (mem_pairs.1 hx).2⟩) (hr.start _)
    have h1' : some st = some e := h1.symm.trans he
    cases h1'
    exact h3 _ ih

end Parm.ChainScript

namespace Parm.ChainText
open Parm.ChainScript

theorem parseElems_small : ∀ {os : List ChainScript.Odd} {known : List Int} {a : Asc} {limit : Nat},
    (∀ o ∈ os, ∀ pp p qp q r, o.src = some (pp, p, qp, q, r) → r ≤ limit) → parseElems known os = some a →
    ∀ x ∈ a, x.lIdx < known.length + os.length ∧ x.rIdx < known.length + os.length ∧ x.rShift ≤ limit
  | [], known, a, _, _, h => by
    cases h
    simp
  | o :: os, known, a, limit, hb, h => by
    unfold parseElems at h
    simp only [Option.bind_eq_bind, Option.bind_eq_some_iff] at h
    obtain ⟨⟨pp, p, qp, q, r⟩, h1, i, h2, j, h3, b, h4, h5⟩ := h
    cases h5
    have hl : ∀ {k : Nat} {f : Int → Bool}, (known ++ [o.val]).findIdx? f = some k → k < known.length + 1 := by
      intro k f hk
      have := (List.findIdx?_eq_some_iff_getElem.1 hk).1
      simpa using this
    intro x hx
    rcases List.mem_cons.1 hx with rfl | hx
    · have := hl h2
      have := hl h3
      exact ⟨by simp; omega, by simp; omega, hb o (by simp) _ _ _ _ _ h1⟩
    · have := parseElems_small (fun y hy => hb y (by simp [hy])) h4 x hx
      simp only [List.length_append, List.length_cons, List.length_nil] at this ⊢
      exact ⟨by omega, by omega, this.2.2⟩

/-! ### The lines of the log -/

/-- the entries below the limit, sorted -/
def guaranteed (limit : Nat) (db : Db) : Db := (sorted db).filter fun e => decide (e.1 ≤ 2 ^ (limit - 1))

theorem logLoop_nl {limit : Nat} : ∀ {i : Int} {wpr : Bool} {db : Db}, ∀ l ∈ logLoop limit i wpr db, '\n' ∉ l ∧ l ≠ []
  | _, _, [] => by simp [logLoop]
  | i, wpr, e :: db => by
    intro l hl
    unfold logLoop at hl
    dsimp only at hl
    simp only [List.mem_append] at hl
    rcases hl with ((hl | hl) | hl) | hl
    · split_ifs at hl
      · rw [List.mem_singleton] at hl
        subst hl
        decide
      · simp at hl
    · split_ifs at hl
      · rw [List.mem_singleton] at hl
        subst hl
        decide
      · simp at hl
    · rw [List.mem_singleton] at hl
      subst hl
      exact logLine_nl _ e
    · exact logLoop_nl l hl

theorem warn_mem {limit : Nat} : ∀ {i : Int} {db : Db}, (∃ e ∈ db, e.1 > 2 ^ (limit - 1)) →
    warnLine ∈ logLoop limit i false db
  | _, [], h => by simp at h
  | i, e :: db, h => by
    unfold logLoop
    dsimp only
    by_cases he : e.1 > 2 ^ (limit - 1)
    · simp [he]
    · obtain ⟨x, hx, hxe⟩ := h
      rcases List.mem_cons.1 hx with rfl | hx
      · exact absurd hxe he
      · have := warn_mem (limit := limit) (i := (if decide (e.1 > i) = true then e.1 else i) + 2) ⟨x, hx, hxe⟩
        simp only [he, decide_false, Bool.false_and, Bool.or_false, Bool.false_eq_true, if_false, List.mem_append]
        exact Or.inr this

/-- ascending odd keys -/
def OddKeys (i : Int) (db : Db) : Prop := (db.map (·.1)).Pairwise (· < ·) ∧ ∀ e ∈ db, i ≤ e.1 ∧ e.1 % 2 = 1

theorem OddKeys.tail {i : Int} {e : Int × List AsChain} {db : Db} (h : OddKeys i (e :: db)) : OddKeys (e.1 + 2) db := by
  obtain ⟨h1, h2⟩ := h
  rw [List.map_cons, List.pairwise_cons] at h1
  refine ⟨h1.2, fun x hx => ⟨?_, (h2 x (by simp [hx])).2⟩⟩
  have a := h1.1 x.1 (List.mem_map_of_mem hx)
  have b := (h2 x (by simp [hx])).2
  have c := (h2 e (by simp)).2
  omega

theorem gap_mem {limit : Nat} : ∀ {i : Int} {wpr : Bool} {db : Db}, OddKeys i db → i % 2 = 1 →
    ∀ {u : Int}, u % 2 = 1 → i ≤ u → u ∉ db.map (·.1) → (∃ e ∈ db, u < e.1) → gapLine ∈ logLoop limit i wpr db
  | _, _, [], _, _, _, _, _, _, h => by simp at h
  | i, wpr, e :: db, hk, hi, u, hu, hiu, hn, h => by
    have he := hk.2 e (by simp)
    unfold logLoop
    dsimp only
    by_cases hg : e.1 > i
    · simp [hg]
    · have hei : e.1 = i := by omega
      have hne : u ≠ i := by
        rintro rfl
        exact hn (by simp [hei])
      obtain ⟨x, hx, hux⟩ := h
      rcases List.mem_cons.1 hx with rfl | hx
      · omega
      · have := gap_mem (limit := limit) (i := i + 2) (wpr := wpr || (decide (e.1 > 2 ^ (limit - 1)) && !wpr)) (db := db)
          (hei ▸ hk.tail) (by omega) hu (by omega) (fun hm => hn (by simp only [List.map_cons, List.mem_cons]; exact Or.inr hm))
          ⟨x, hx, hux⟩
        simp only [hg, decide_false, Bool.false_eq_true, if_false, List.mem_append]
        exact Or.inr this

theorem log_prefix {limit : Nat} : ∀ {i : Int} {db : Db}, OddKeys i db → i % 2 = 1 →
    (∀ u : Int, u % 2 = 1 → i ≤ u → u ≤ 2 ^ (limit - 1) → u ∈ db.map (·.1)) →
    ∃ rest, logLoop limit i false db = (db.filter fun e => decide (e.1 ≤ 2 ^ (limit - 1))).map (logLine false) ++ rest ∧
      ∀ l, rest.head? = some l → l = gapLine ∨ l = warnLine
  | _, [], _, _, _ => ⟨[], rfl, by simp⟩
  | i, e :: db, hk, hi, ha => by
    have he := hk.2 e (by simp)
    by_cases hB : e.1 ≤ 2 ^ (limit - 1)
    · have hei : e.1 = i := by
        have := ha i hi (le_refl i) (by omega)
        rw [List.map_cons, List.mem_cons] at this
        rcases this with h | h
        · exact h.symm
        · obtain ⟨x, hx, hxi⟩ := List.mem_map.1 h
          have := (hk.tail.2 x hx).1
          omega
      obtain ⟨rest, h1, h2⟩ := log_prefix (limit := limit) (i := i + 2) (db := db) (hei ▸ hk.tail) (by omega) (by
        intro u hu h1 h2
        have := ha u hu (by omega) h2
        rw [List.map_cons, List.mem_cons] at this
        rcases this with h | h
        · omega
        · exact h)
      refine ⟨rest, ?_, h2⟩
      unfold logLoop
      dsimp only
      have hg : ¬e.1 > i := by omega
      have hw : ¬e.1 > 2 ^ (limit - 1) := by omega
      simp only [hg, hw, decide_false, Bool.false_eq_true, if_false, Bool.false_and, Bool.or_false, List.nil_append, h1]
      rw [List.filter_cons, if_pos (by simpa using hB)]
      rfl
    · have hf : (e :: db).filter (fun e => decide (e.1 ≤ 2 ^ (limit - 1))) = [] := by
        rw [List.filter_eq_nil_iff]
        intro x hx
        simp only [decide_eq_true_eq]
        rcases List.mem_cons.1 hx with rfl | hx
        · exact hB
        · have := (hk.tail.2 x hx).1
          omega
      rw [hf]
      refine ⟨logLoop limit i false (e :: db), rfl, fun l hl => ?_⟩
      rw [logLoop] at hl
      have hw : e.1 > 2 ^ (limit - 1) := by omega
      by_cases hg : e.1 > i
      · simp [hg] at hl
        exact Or.inl hl.symm
      · simp [hg, hw] at hl
        exact Or.inr hl.symm

theorem sorted_mem {db : Db} {e : Int × List AsChain} : e ∈ sorted db ↔ e ∈ db := List.mem_mergeSort

theorem sorted_keys {db : Db} (h : (db.map (·.1)).Nodup) : ((sorted db).map (·.1)).Pairwise (· < ·) := by
  have h1 : (sorted db).Pairwise fun a b => decide (a.1 ≤ b.1) = true :=
    List.pairwise_mergeSort (fun a b c h1 h2 => by simp only [decide_eq_true_eq] at *; omega)
      (fun a b => by simp only [Bool.or_eq_true, decide_eq_true_eq]; omega) db
  have h2 : ((sorted db).map (·.1)).Nodup := ((List.mergeSort_perm db _).map _).nodup_iff.2 h
  rw [List.pairwise_map]
  rw [List.Nodup, List.pairwise_map] at h2
  exact (h1.and h2).imp fun {a b} hab => by
    have := hab.1
    simp only [decide_eq_true_eq] at this
    have := hab.2
    omega

/-- a set of odd numbers below `2 ^ b` has `2 ^ b / 2` elements only if it has all of them -/
theorem odds_card {b : Nat} {K : Finset Nat} (h : ∀ k ∈ K, k % 2 = 1 ∧ k < 2 ^ b) (hb : 1 ≤ b) :
    K.card = 2 ^ b / 2 ↔ ∀ k, k % 2 = 1 → k < 2 ^ b → k ∈ K := by
  obtain ⟨c, rfl⟩ : ∃ c, b = c + 1 := ⟨b - 1, by omega⟩
  have hp : 2 ^ (c + 1) / 2 = 2 ^ c := by omega
  rw [hp]
  set O : Finset Nat := (Finset.range (2 ^ c)).image fun j => 2 * j + 1 with hO
  have hcard : O.card = 2 ^ c := by
    rw [hO, Finset.card_image_of_injective _ (fun x y hxy => by omega), Finset.card_range]
  have hmem : ∀ k, k ∈ O ↔ k % 2 = 1 ∧ k < 2 ^ (c + 1) := by
    intro k
    rw [hO, Finset.mem_image]
    constructor
    · rintro ⟨j, hj, rfl⟩
      rw [Finset.mem_range] at hj
      exact ⟨by omega, by rw [pow_succ]; omega⟩
    · rintro ⟨h1, h2⟩
      rw [pow_succ] at h2
      exact ⟨k / 2, by rw [Finset.mem_range]; omega, by omega⟩
  have hsub : K ⊆ O := fun k hk => (hmem k).2 (h k hk)
  constructor
  · intro hc k h1 h2
    rw [Finset.eq_of_subset_of_card_le hsub (by omega)]
    exact (hmem k).2 ⟨h1, h2⟩
  · intro ha
    have : K = O := Finset.Subset.antisymm hsub fun k hk => ha k ((hmem k).1 hk).1 ((hmem k).1 hk).2
    rw [this, hcard]

end Parm.ChainText
