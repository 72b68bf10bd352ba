import Verif.Props.ChainText

/-!
# Numbers that occur twice on the way from the log to the table: property C82

Whoever joins parts of several logs gets lines for the same number.  The script and the library both keep the last one.
-/

namespace Parm
open ChainScript ChainText

/-- `e` is the last entry with its key -/
def LastOf {κ α : Type} (t : List (κ × α)) (e : κ × α) : Prop := ∃ t1 t2, t = t1 ++ e :: t2 ∧ ∀ x ∈ t2, x.1 ≠ e.1

theorem LastOf.snoc {κ α : Type} {t : List (κ × α)} {x e : κ × α} :
    LastOf (t ++ [x]) e ↔ e = x ∨ (LastOf t e ∧ e.1 ≠ x.1) := by
  constructor
  · rintro ⟨t1, t2, h, hn⟩
    rcases List.eq_nil_or_concat t2 with rfl | ⟨t3, y, rfl⟩
    · rw [List.append_inj_right' h rfl |> List.cons.inj |>.1]
      exact .inl rfl
    · right
      rw [List.concat_eq_append] at h hn
      rw [← List.cons_append, ← List.append_assoc] at h
      obtain ⟨h1, h2⟩ := List.append_inj' h rfl
      cases h2
      exact ⟨⟨t1, t3, h1, fun z hz => hn z (by simp [hz])⟩, fun he => hn x (by simp) he.symm⟩
  · rintro (rfl | ⟨⟨t1, t2, rfl, hn⟩, hne⟩)
    · exact ⟨t, [], rfl, by simp⟩
    · refine ⟨t1, t2 ++ [x], by simp, fun y hy => ?_⟩
      rcases List.mem_append.1 hy with hy | hy
      · exact hn y hy
      · rw [List.mem_singleton] at hy
        subst hy
        exact fun he => hne he.symm

theorem lastOf_nil {κ α : Type} {e : κ × α} : ¬LastOf ([] : List (κ × α)) e := by
  rintro ⟨t1, t2, h, -⟩
  simp at h

theorem binsert_spec {k : Nat} {a : Asc} : ∀ {m : List (Nat × Asc)}, Ascending m →
    Ascending (binsert k a m) ∧ ∀ e, e ∈ binsert k a m ↔ e = (k, a) ∨ (e ∈ m ∧ e.1 ≠ k)
  | [], _ => by simp [binsert, Ascending]
  | x :: m, hm => by
    have hm' := hm
    unfold Ascending at hm
    rw [List.map_cons, List.pairwise_cons] at hm
    have hlt : ∀ e ∈ m, x.1 < e.1 := fun e he => hm.1 _ (List.mem_map.2 ⟨e, he, rfl⟩)
    unfold binsert
    by_cases h1 : k < x.1
    · rw [if_pos h1]
      refine ⟨?_, fun e => ?_⟩
      · unfold Ascending
        rw [List.map_cons, List.pairwise_cons]
        refine ⟨fun y hy => ?_, hm'⟩
        obtain ⟨e, he, rfl⟩ := List.mem_map.1 hy
        rcases List.mem_cons.1 he with rfl | he
        · exact h1
        · exact lt_trans h1 (hlt e he)
      · rw [List.mem_cons]
        refine or_congr_right ⟨fun he => ⟨he, ?_⟩, fun he => he.1⟩
        rcases List.mem_cons.1 he with rfl | he
        · omega
        · have := hlt e he
          omega
    · rw [if_neg h1]
      by_cases h2 : k = x.1
      · rw [if_pos h2]
        refine ⟨?_, fun e => ?_⟩
        · unfold Ascending
          rw [List.map_cons, List.pairwise_cons, h2]
          exact hm
        · rw [List.mem_cons, List.mem_cons]
          refine or_congr_right ⟨fun he => ⟨.inr he, ?_⟩, ?_⟩
          · have := hlt e he
            omega
          · rintro ⟨rfl | he, hne⟩
            · exact absurd h2.symm hne
            · exact he
      · rw [if_neg h2]
        obtain ⟨p1, p2⟩ := binsert_spec (k := k) (a := a) (m := m) hm.2
        refine ⟨?_, fun e => ?_⟩
        · unfold Ascending
          rw [List.map_cons, List.pairwise_cons]
          refine ⟨fun y hy => ?_, p1⟩
          obtain ⟨e, he, rfl⟩ := List.mem_map.1 hy
          rcases (p2 e).1 he with rfl | he
          · show x.1 < k
            omega
          · exact hlt e he.1
        · rw [List.mem_cons, List.mem_cons, p2]
          constructor
          · rintro (rfl | rfl | ⟨he, hne⟩)
            · exact .inr ⟨.inl rfl, fun h => h2 h.symm⟩
            · exact .inl rfl
            · exact .inr ⟨.inr he, hne⟩
          · rintro (rfl | ⟨rfl | he, hne⟩)
            · exact .inr (.inl rfl)
            · exact .inl rfl
            · exact .inr (.inr ⟨he, hne⟩)

/-- **C82**, a file in which numbers occur twice: the library keeps, in ascending order, the last entry of each. -/
theorem C82_duplicates {t : List (Nat × Asc)} (hs : ∀ x ∈ t, x.1 < 2 ^ 64 ∧ Small x.2) :
    ∃ m, readFile (dump false (t.map fun x => ((x.1 : Int), x.2.map adsOf))) = some (.parsed m) ∧ Ascending m ∧
      ∀ e, e ∈ m ↔ LastOf t e := by
  refine ⟨_, readFile_plain hs, ?_⟩
  clear hs
  induction t using List.reverseRecOn with
  | nil => exact ⟨by simp [Ascending], fun e => ⟨fun h => absurd h (by simp), fun h => absurd h lastOf_nil⟩⟩
  | append_singleton t x ih =>
    rw [List.foldl_append]
    obtain ⟨p1, p2⟩ := binsert_spec (k := x.1) (a := x.2) ih.1
    refine ⟨p1, fun e => ?_⟩
    rw [LastOf.snoc, ← ih.2 e]
    exact p2 e

theorem hset_spec {m : List (Int × List Ads)} {e : Int × List Ads} (hm : (m.map (·.1)).Nodup) :
    ((hset m e).map (·.1)).Nodup ∧ ∀ x, x ∈ hset m e ↔ x = e ∨ (x ∈ m ∧ x.1 ≠ e.1) := by
  unfold hset
  by_cases h : e.1 ∈ m.map (·.1)
  · rw [if_pos h]
    have hk : (m.map fun x => if x.1 = e.1 then e else x).map (·.1) = m.map (·.1) := by
      rw [List.map_map]
      refine List.map_congr_left fun x _ => ?_
      simp only [Function.comp_apply]
      split_ifs with hx
      · exact hx.symm
      · rfl
    rw [hk]
    refine ⟨hm, fun x => ?_⟩
    rw [List.mem_map]
    constructor
    · rintro ⟨y, hy, rfl⟩
      split_ifs with hx
      · exact .inl rfl
      · exact .inr ⟨hy, hx⟩
    · rintro (rfl | ⟨hx, hne⟩)
      · obtain ⟨y, hy, hye⟩ := List.mem_map.1 h
        exact ⟨y, hy, if_pos hye⟩
      · exact ⟨x, hx, if_neg hne⟩
  · rw [if_neg h]
    refine ⟨?_, fun x => ?_⟩
    · rw [List.map_append, List.nodup_append]
      refine ⟨hm, by simp, fun a ha b hb hab => ?_⟩
      simp only [List.map_cons, List.map_nil, List.mem_singleton] at hb
      exact h (by rw [← hb, ← hab]; exact ha)
    · rw [List.mem_append, List.mem_singleton]
      constructor
      · rintro (hx | rfl)
        · exact .inr ⟨hx, fun he => h (List.mem_map.2 ⟨x, hx, he⟩)⟩
        · exact .inl rfl
      · rintro (rfl | hx)
        · exact .inr rfl
        · exact .inl hx.1

/-- **C82**, lines in which numbers occur twice: the script keeps the last one of each, and no number twice. -/
theorem C82_duplicate_lines {es : List (ChainText.Text × Int × List Ads)} (h : ∀ x ∈ es, '\n' ∉ x.1 ∧ x.1 ≠ [])
    (hp : ∀ x ∈ es, parseLine x.1 = some x.2) :
    ∃ m, parseLog (unlines (es.map (·.1))) = some m ∧ (m.map (·.1)).Nodup ∧ ∀ e, e ∈ m ↔ LastOf (es.map (·.2)) e := by
  unfold parseLog
  rw [split_lines (by simpa using fun a b c hx => (h (a, b, c) hx).1) (by simpa using fun a b c hx => (h (a, b, c) hx).2)]
  clear h
  induction es using List.reverseRecOn with
  | nil => exact ⟨[], rfl, by simp, fun e => ⟨fun h => absurd h (by simp), fun h => absurd h lastOf_nil⟩⟩
  | append_singleton es x ih =>
    obtain ⟨m, h1, h2, h3⟩ := ih fun y hy => hp y (by simp [hy])
    obtain ⟨p1, p2⟩ := hset_spec (e := x.2) h2
    refine ⟨hset m x.2, ?_, p1, fun e => ?_⟩
    · rw [List.map_append, List.foldlM_append, h1]
      simp [hp x (by simp)]
    · rw [List.map_append, List.map_singleton, LastOf.snoc, ← h3 e]
      exact p2 e

/-- the chain of 5 is given twice, by 4 + 1 and by 8 - 3; the second one is loaded -/
example : ∃ m, readFile (dump false (([(5, [⟨true, 0, true, 0, 2⟩]), (3, [⟨true, 0, true, 0, 1⟩]),
      (5, [⟨true, 0, true, 0, 1⟩, ⟨false, 1, true, 0, 3⟩])] : List (Nat × Asc)).map
        fun x => ((x.1 : Int), x.2.map adsOf))) = some (.parsed m) ∧
      (5, [⟨true, 0, true, 0, 1⟩, ⟨false, 1, true, 0, 3⟩]) ∈ m ∧ (5, [⟨true, 0, true, 0, 2⟩]) ∉ m := by
  obtain ⟨m, h1, -, h3⟩ := C82_duplicates (t := [(5, [⟨true, 0, true, 0, 2⟩]), (3, [⟨true, 0, true, 0, 1⟩]),
      (5, [⟨true, 0, true, 0, 1⟩, ⟨false, 1, true, 0, 3⟩])]) (by simp [Small])
  refine ⟨m, h1, (h3 _).2 ⟨[_, _], [], rfl, by simp⟩, fun h => ?_⟩
  rw [h3] at h
  have := (LastOf.snoc (t := [((5 : Nat), ([⟨true, 0, true, 0, 2⟩] : Asc)), (3, [⟨true, 0, true, 0, 1⟩])])).1 h
  simp at this

end Parm
