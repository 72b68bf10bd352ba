import Verif.Proof.ChainText

/-!
# Reading the file of chains, and the order of the log
-/

namespace Parm.ChainText
open Parm.ChainScript

/-! ### The layout of the file -/

theorem field_append : ∀ {k : Text} (_ : ':' ∉ k) (s : Text), field (k ++ s) = (field s).map fun x => (k ++ x.1, x.2)
  | [], _, s => by
    cases h : field s <;> simp [h]
  | c :: k, hk, s => by
    have hc : c ≠ ':' := by
      rintro rfl
      simp at hk
    have ih := field_append (k := k) (fun h => hk (by simp [h])) s
    rw [List.cons_append]
    conv_lhs => unfold field
    split
    · rename_i v heq
      exact absurd (List.cons.inj heq).1 hc
    · rename_i c' s' heq
      rw [List.cons.injEq] at heq
      obtain ⟨rfl, rfl⟩ := heq
      rw [ih, Option.map_map]
      rfl
    · rename_i heq
      cases heq

/-- the fields as written -/
def fieldsOf (sym : Bool) (a : AddShift) : Fields :=
  let k (s : String) : Text := (if sym then [':'] else []) ++ s.toList
  [(k "l_pos", boolText a.lPos), (k "l_idx", Fmt.dec a.lIdx), (k "r_pos", boolText a.rPos), (k "r_idx", Fmt.dec a.rIdx),
    (k "r_shift", Fmt.dec a.rShift)]

theorem layout_ads (sym : Bool) (a : AddShift) {ls : List Text} {as : List Fields} {es : List (Text × List Fields)}
    (h : layout ls = some ([], as, es)) :
    layout (adsLines sym (adsOf a) ++ ls) = some ([], fieldsOf sym a :: as, es) := by
  have hsh : showInt (a.rShift : Int) = Fmt.dec a.rShift := showInt_nat (by omega)
  cases sym
  · simp only [adsLines, adsOf, optText, fieldsOf, hsh, List.cons_append, List.nil_append]
    simp [layout, h, field]
  · simp only [adsLines, adsOf, optText, fieldsOf, hsh, List.cons_append, List.nil_append]
    simp [layout, h, field]

theorem layout_adss (sym : Bool) : ∀ (c : Asc) {ls : List Text} {es : List (Text × List Fields)},
    layout ls = some ([], [], es) →
    layout ((c.map adsOf).flatMap (adsLines sym) ++ ls) = some ([], c.map (fieldsOf sym), es)
  | [], ls, es, h => by simpa using h
  | a :: c, ls, es, h => by
    have := layout_ads sym a (layout_adss sym c h)
    simpa using this

theorem dec_start (n : Nat) (s : Text) : ∃ c t, Fmt.dec n ++ s = c :: t ∧ c ≠ ' ' ∧ c ≠ '-' := by
  obtain ⟨c, t, h, hc⟩ := dec_cons n
  refine ⟨c, t ++ s, by rw [h]; rfl, ?_, ?_⟩
  · rintro rfl
    exact absurd hc (by decide)
  · rintro rfl
    exact absurd hc (by decide)

theorem dec_colon (n : Nat) : ':' ∉ Fmt.dec n := fun h => (dec_plain h).2.2.2.2.2 rfl

theorem layout_entry (sym : Bool) (n : Nat) (c : Asc) {ls : List Text} {es : List (Text × List Fields)}
    (h : layout ls = some ([], [], es)) :
    layout (entryLines sym ((n : Int), c.map adsOf) ++ ls) =
      some ([], [], (Fmt.dec n, c.map (fieldsOf sym)) :: es) := by
  have hsh : showInt (n : Int) = Fmt.dec n := showInt_nat (by omega)
  cases c with
  | nil =>
    have e : entryLines sym ((n : Int), ([] : Asc).map adsOf) ++ ls = (Fmt.dec n ++ ": []".toList) :: ls := by
      simp [entryLines, hsh]
    obtain ⟨d, t, hd, d1, d2⟩ := dec_start n ": []".toList
    have hf : field (Fmt.dec n ++ ": []".toList) = some (Fmt.dec n, "[]".toList) := by
      rw [field_append (dec_colon n)]
      simp [field]
    rw [e]
    unfold layout
    rw [h]
    simp only [Option.bind_eq_bind, Option.bind_some]
    rw [hd] at hf ⊢
    split
    · rename_i s heq
      cases heq
      exact absurd rfl d1
    · rename_i s heq
      cases heq
      exact absurd rfl d2
    · rw [if_neg (by simp), hf]
      simp
  | cons a c =>
    have e : entryLines sym ((n : Int), (a :: c).map adsOf) ++ ls =
        (Fmt.dec n ++ [':']) :: (((a :: c).map adsOf).flatMap (adsLines sym) ++ ls) := by
      simp [entryLines, hsh]
    obtain ⟨d, t, hd, d1, d2⟩ := dec_start n [':']
    have hf : field (Fmt.dec n ++ [':']) = none := by
      rw [field_append (dec_colon n)]
      simp [field]
    have hl : (Fmt.dec n ++ [':']).getLast? = some ':' := by simp
    have hdl : (Fmt.dec n ++ [':']).dropLast = Fmt.dec n := by simp
    rw [e]
    conv_lhs => unfold layout
    rw [layout_adss sym (a :: c) h]
    simp only [Option.bind_eq_bind, Option.bind_some]
    rw [hd] at hf hl hdl ⊢
    split
    · rename_i s heq
      cases heq
      exact absurd rfl d1
    · rename_i s heq
      cases heq
      exact absurd rfl d2
    · rw [if_neg (by simp), hf]
      simp only [hl, hdl]
      simp

theorem layout_dump (sym : Bool) : ∀ (t : List (Nat × Asc)),
    layout ((t.map fun x => ((x.1 : Int), x.2.map adsOf)).flatMap (entryLines sym)) =
      some ([], [], t.map fun x => (Fmt.dec x.1, x.2.map (fieldsOf sym)))
  | [] => rfl
  | x :: t => by
    have := layout_entry sym x.1 x.2 (layout_dump sym t)
    simpa using this

/-! ### The values of the file -/

theorem dec_zero {n : Nat} (h : (Fmt.dec n).head? = some '0') : (Fmt.dec n).length = 1 := by
  induction n using Nat.strongRecOn with
  | _ n ih =>
    by_cases hn : n < 10
    · unfold Fmt.dec
      rw [Nat.toDigits_of_lt_base hn]
      rfl
    · have e : Fmt.dec n = Fmt.dec (n / 10) ++ [(n % 10).digitChar] := Nat.toDigits_of_base_le (by decide) (by omega)
      have hh : (Fmt.dec (n / 10)).head? = some '0' := by
        rw [e, List.head?_append_of_ne_nil _ (dec_ne _)] at h
        exact h
      have hl := ih (n / 10) (by omega) hh
      have hv := dec_value (n / 10)
      obtain ⟨c, hc⟩ := List.length_eq_one_iff.1 hl
      rw [hc] at hh hv
      cases hh
      exfalso
      have : Nat.ofDigitChars 10 ['0'] 0 = 0 := by decide
      omega

theorem readUsize_dec {n : Nat} (h : n < 2 ^ 64) : readUsize (Fmt.dec n) = some n := by
  unfold readUsize
  rw [dec_value, if_pos]
  refine ⟨dec_ne n, List.all_eq_true.2 fun c hc => dec_digit hc, ?_, h⟩
  by_cases h0 : (Fmt.dec n).head? = some '0'
  · exact Or.inr (dec_zero h0)
  · exact Or.inl h0

theorem readUsize_big {n : Nat} (h : 2 ^ 64 ≤ n) : readUsize (Fmt.dec n) = none := by
  unfold readUsize
  rw [dec_value, if_neg]
  rintro ⟨-, -, -, h'⟩
  omega

theorem readBool_text (b : Bool) : readBool (boolText b) = some b := by
  cases b <;> decide

/-- all numbers of a chain are `usize` -/
def Small (c : Asc) : Prop := ∀ a ∈ c, a.lIdx < 2 ^ 64 ∧ a.rIdx < 2 ^ 64 ∧ a.rShift < 2 ^ 64

theorem getField_pos (a : AddShift) :
    getField (fieldsOf false a) "l_pos" = some (boolText a.lPos) ∧ getField (fieldsOf false a) "l_idx" = some (Fmt.dec a.lIdx) ∧
    getField (fieldsOf false a) "r_pos" = some (boolText a.rPos) ∧ getField (fieldsOf false a) "r_idx" = some (Fmt.dec a.rIdx) ∧
    getField (fieldsOf false a) "r_shift" = some (Fmt.dec a.rShift) := by
  refine ⟨?_, ?_, ?_, ?_, ?_⟩ <;> simp [getField, fieldsOf]

theorem readAddShift_plain {a : AddShift} (h : a.lIdx < 2 ^ 64 ∧ a.rIdx < 2 ^ 64 ∧ a.rShift < 2 ^ 64) :
    readAddShift (fieldsOf false a) = some a := by
  obtain ⟨f1, f2, f3, f4, f5⟩ := getField_pos a
  unfold readAddShift
  simp only [f1, f2, f3, f4, f5, Option.bind_eq_bind, Option.bind_some, readBool_text, readUsize_dec h.1, readUsize_dec h.2.1,
    readUsize_dec h.2.2]

theorem readAddShift_sym (a : AddShift) : readAddShift (fieldsOf true a) = none := by
  have : getField (fieldsOf true a) "l_pos" = none := by
    simp [getField, fieldsOf]
  unfold readAddShift
  rw [this]
  rfl

theorem mapM_plain : ∀ {c : Asc}, Small c → (c.map (fieldsOf false)).mapM readAddShift = some c
  | [], _ => rfl
  | a :: c, h => by
    rw [List.map_cons, List.mapM_cons, readAddShift_plain (h a (by simp)), mapM_plain fun x hx => h x (by simp [hx])]
    rfl

/-- the keys of a map are ascending -/
def Ascending (t : List (Nat × Asc)) : Prop := (t.map (·.1)).Pairwise (· < ·)

theorem binsert_last {k : Nat} {a : Asc} : ∀ {m : List (Nat × Asc)}, (∀ x ∈ m, x.1 < k) → binsert k a m = m ++ [(k, a)]
  | [], _ => rfl
  | x :: m, h => by
    have hx := h x (by simp)
    unfold binsert
    rw [if_neg (by omega), if_neg (by omega), binsert_last fun y hy => h y (by simp [hy])]
    rfl

theorem readEntries_go : ∀ {t : List (Nat × Asc)} {m : List (Nat × Asc)}, (∀ x ∈ t, x.1 < 2 ^ 64 ∧ Small x.2) →
    (t.map fun x => (Fmt.dec x.1, x.2.map (fieldsOf false))).foldlM
      (fun m e => do some (binsert (← readUsize e.1) (← e.2.mapM readAddShift) m)) m =
      some (t.foldl (fun m x => binsert x.1 x.2 m) m)
  | [], m, _ => rfl
  | x :: t, m, h => by
    obtain ⟨h1, h2⟩ := h x (by simp)
    rw [List.map_cons, List.foldlM_cons]
    simp only [readUsize_dec h1, mapM_plain h2, Option.bind_eq_bind, Option.bind_some]
    have := readEntries_go (t := t) (m := binsert x.1 x.2 m) fun y hy => h y (by simp [hy])
    simp only [Option.bind_eq_bind] at this
    rw [this]
    rfl

theorem foldl_binsert : ∀ {t m : List (Nat × Asc)}, Ascending (m ++ t) →
    t.foldl (fun m x => binsert x.1 x.2 m) m = m ++ t
  | [], m, _ => by simp
  | x :: t, m, h => by
    rw [List.foldl_cons, binsert_last, foldl_binsert (by simpa using h)]
    · simp
    · intro y hy
      unfold Ascending at h
      rw [List.map_append, List.pairwise_append] at h
      exact h.2.2 y.1 (List.mem_map_of_mem hy) x.1 (by simp)

theorem dump_lines (sym : Bool) {t : List (Nat × Asc)} (h : t ≠ []) :
    split (· = '\n') (dump sym (t.map fun x => ((x.1 : Int), x.2.map adsOf))) =
      "---".toList :: (t.map fun x => ((x.1 : Int), x.2.map adsOf)).flatMap (entryLines sym) := by
  obtain ⟨x, t, rfl⟩ := List.exists_cons_of_ne_nil h
  have hd : ∀ n : Nat, '\n' ∉ Fmt.dec n := fun n hn => absurd (dec_plain hn).1 (by decide)
  have hi : ∀ n : Nat, showInt (n : Int) = Fmt.dec n := fun n => showInt_nat (by omega)
  have hb : ∀ b : Bool, '\n' ∉ boolText b := by decide
  have hall : ∀ l ∈ "---".toList :: ((x :: t).map fun x => ((x.1 : Int), x.2.map adsOf)).flatMap (entryLines sym),
      '\n' ∉ l ∧ l ≠ [] := by
    intro l hl
    rcases List.mem_cons.1 hl with rfl | hl
    · decide
    · obtain ⟨e, he, hl⟩ := List.mem_flatMap.1 hl
      obtain ⟨y, -, rfl⟩ := List.mem_map.1 he
      obtain ⟨n, c⟩ := y
      cases c with
      | nil =>
        simp only [entryLines, List.map_nil, List.mem_singleton, hi] at hl
        subst hl
        exact ⟨by simp [hd], by simp⟩
      | cons a c =>
        have hl' : l = Fmt.dec n ++ [':'] ∨ ∃ a' : AddShift, l ∈ adsLines sym (adsOf a') := by
          have : l ∈ (Fmt.dec n ++ [':']) :: ((a :: c).map adsOf).flatMap (adsLines sym) := by
            simpa [entryLines, hi] using hl
          rcases List.mem_cons.1 this with h | h
          · exact Or.inl h
          · obtain ⟨b, hb, h⟩ := List.mem_flatMap.1 h
            obtain ⟨a', -, rfl⟩ := List.mem_map.1 hb
            exact Or.inr ⟨a', h⟩
        rcases hl' with rfl | ⟨a', h⟩
        · exact ⟨by simp [hd], by simp⟩
        · have h1 := hb a'.lPos
          have h2 := hb a'.rPos
          simp only [adsLines, adsOf, optText, hi, List.mem_cons, List.not_mem_nil, or_false] at h
          rcases h with rfl | rfl | rfl | rfl | rfl <;> refine ⟨?_, by simp⟩ <;> cases sym <;> simp [hd, h1, h2]
  have e : dump sym ((x :: t).map fun x => ((x.1 : Int), x.2.map adsOf)) =
      unlines ("---".toList :: ((x :: t).map fun x => ((x.1 : Int), x.2.map adsOf)).flatMap (entryLines sym)) := rfl
  rw [e, split_lines (fun l hl => (hall l hl).1) (fun l hl => (hall l hl).2)]

theorem readFile_plain {t : List (Nat × Asc)} (hs : ∀ x ∈ t, x.1 < 2 ^ 64 ∧ Small x.2) :
    readFile (dump false (t.map fun x => ((x.1 : Int), x.2.map adsOf))) =
      some (.parsed (t.foldl (fun m x => binsert x.1 x.2 m) [])) := by
  by_cases hne : t = []
  · subst hne
    rfl
  unfold readFile
  rw [dump_lines false hne]
  simp only [ne_eq, not_true_eq_false, if_false, layout_dump]
  unfold readEntries
  rw [readEntries_go hs]

theorem readEntries_sym : ∀ {t : List (Nat × Asc)} {m : List (Nat × Asc)}, (∃ x ∈ t, x.2 ≠ []) →
    (t.map fun x => (Fmt.dec x.1, x.2.map (fieldsOf true))).foldlM
      (fun m e => do some (binsert (← readUsize e.1) (← e.2.mapM readAddShift) m)) m = none
  | [], m, h => by simp at h
  | x :: t, m, h => by
    rw [List.map_cons, List.foldlM_cons]
    by_cases hx : x.2 = []
    · obtain ⟨y, hy, hy'⟩ := h
      rcases List.mem_cons.1 hy with rfl | hy
      · exact absurd hx hy'
      · cases hk : readUsize (Fmt.dec x.1) with
        | none => rfl
        | some k =>
          simp only [hx, List.map_nil, List.mapM_nil, Option.bind_eq_bind, Option.bind_some, Option.pure_def]
          have := readEntries_sym (t := t) (m := binsert k [] m) ⟨y, hy, hy'⟩
          simpa only [Option.bind_eq_bind] using this
    · obtain ⟨a, c, hc⟩ := List.exists_cons_of_ne_nil hx
      have hn : (x.2.map (fieldsOf true)).mapM readAddShift = none := by
        rw [hc, List.map_cons, List.mapM_cons, readAddShift_sym]
        rfl
      cases hk : readUsize (Fmt.dec x.1) with
      | none => rfl
      | some k => simp only [hn, Option.bind_eq_bind, Option.bind_some, Option.bind_none]

theorem readFile_sym {t : List (Nat × Asc)} (h : ∃ x ∈ t, x.2 ≠ []) :
    readFile (dump true (t.map fun x => ((x.1 : Int), x.2.map adsOf))) = some .unreadable := by
  have hne : t ≠ [] := by
    rintro rfl
    simp at h
  unfold readFile
  rw [dump_lines true hne]
  simp only [ne_eq, not_true_eq_false, if_false, layout_dump]
  unfold readEntries
  rw [readEntries_sym h]

end Parm.ChainText
