import Verif.Model.Format
import Mathlib.Tactic.Linarith
import Mathlib.Data.List.Basic

/-!
# Messages and log lines: property C68

The formatting macros of `misc.rs`, specified by lines of text.
-/

namespace Parm.Fmt

/-- lines of text joined by line breaks -/
def joinLines (ls : List (List Char)) : List Char := ['\n'].intercalate ls

/-- a line holds no line break -/
def Line (l : List Char) : Prop := '\n' ∉ l

/-! ### Lemmas -/

theorem replaceNl_append (s a b : List Char) : replaceNl s (a ++ b) = replaceNl s a ++ replaceNl s b := by
  simp [replaceNl]

theorem replaceNl_line {s l : List Char} (h : Line l) : replaceNl s l = l := by
  induction l with
  | nil => rfl
  | cons c l ih =>
    have hc : c ≠ '\n' := fun e => h (by simp [e])
    have hl : Line l := fun e => h (by simp [e])
    simp only [replaceNl, List.flatMap_cons, if_neg hc, List.singleton_append]
    congr 1
    exact ih hl

theorem replaceNl_nl (s : List Char) (l : List Char) : replaceNl s ('\n' :: l) = s ++ replaceNl s l := by
  simp [replaceNl]

theorem joinLines_cons (a : List Char) (b : List Char) (ls : List (List Char)) :
    joinLines (a :: b :: ls) = a ++ '\n' :: joinLines (b :: ls) := by
  simp [joinLines, List.intercalate]

theorem joinLines_one (a : List Char) : joinLines [a] = a := by simp [joinLines, List.intercalate]

theorem replaceNl_join {t : List Char} : ∀ (a : List Char) (ls : List (List Char)), Line a → (∀ l ∈ ls, Line l) →
    replaceNl ('\n' :: t) (joinLines (a :: ls)) = joinLines (a :: ls.map (t ++ ·))
  | a, [], ha, _ => by simp [joinLines_one, replaceNl_line ha]
  | a, b :: ls, ha, h => by
    have hb : Line b := h b (by simp)
    rw [joinLines_cons, replaceNl_append, replaceNl_line ha, replaceNl_nl, replaceNl_join b ls hb (fun l hl => h l (by simp [hl]))]
    cases ls with
    | nil => simp [joinLines_one, joinLines_cons]
    | cons c ls => simp [joinLines_cons]

theorem line_indent (n : Nat) : Line (indent n) ∧ Line (indentErr n) := by
  constructor <;> intro h <;> simp [indent, indentErr, List.mem_flatten, List.mem_replicate] at h

/-- a prefix without line break goes in front of the first line -/
theorem prefix_join {p t : List Char} (hp : Line p) (a : List Char) (ls : List (List Char)) (ha : Line a) (h : ∀ l ∈ ls, Line l) :
    replaceNl ('\n' :: t) (p ++ joinLines (a :: ls)) = joinLines ((p ++ a) :: ls.map (t ++ ·)) := by
  rw [replaceNl_append, replaceNl_line hp, replaceNl_join a ls ha h]
  cases ls with
  | nil => simp [joinLines_one]
  | cons b ls => simp [joinLines_cons]

/-- every text is lines joined by line breaks -/
theorem exists_lines : ∀ m : List Char, ∃ a ls, Line a ∧ (∀ l ∈ ls, Line l) ∧ m = joinLines (a :: ls)
  | [] => ⟨[], [], by simp [Line], by simp, by simp [joinLines_one]⟩
  | c :: m => by
    obtain ⟨a, ls, ha, hl, rfl⟩ := exists_lines m
    by_cases hc : c = '\n'
    · subst hc
      exact ⟨[], a :: ls, by simp [Line], by simpa using ⟨ha, hl⟩, by simp [joinLines_cons]⟩
    · refine ⟨c :: a, ls, ?_, hl, ?_⟩
      · intro h; rcases List.mem_cons.1 h with h | h
        · exact hc h.symm
        · exact ha h
      · cases ls with
        | nil => simp [joinLines_one]
        | cons b ls => simp [joinLines_cons]

/-! ### Messages -/

/-- **C68.** A message of any number of lines is printed with every line indented by the log level: the first
behind the sign, the others below its first word. -/
theorem C68_info (lvl : Nat) (a : List Char) (ls : List (List Char)) (ha : Line a) (h : ∀ l ∈ ls, Line l) :
    info lvl (joinLines (a :: ls)) =
      joinLines ((indent lvl ++ " 🧀 ".toList ++ a) :: ls.map (indent lvl ++ "    ".toList ++ ·)) := by
  refine prefix_join ?_ a ls ha h
  intro hm
  rcases List.mem_append.1 hm with hm | hm
  · exact (line_indent lvl).1 hm
  · revert hm; decide

/-- **C68.** The same for debug messages … -/
theorem C68_dbg (lvl : Nat) (a : List Char) (ls : List (List Char)) (ha : Line a) (h : ∀ l ∈ ls, Line l) :
    dbg lvl (joinLines (a :: ls)) =
      joinLines ((indent lvl ++ "DBG ".toList ++ a) :: ls.map (indent lvl ++ "    ".toList ++ ·)) := by
  refine prefix_join ?_ a ls ha h
  intro hm
  rcases List.mem_append.1 hm with hm | hm
  · exact (line_indent lvl).1 hm
  · revert hm; decide

/-- **C68.** … and for errors. -/
theorem C68_err (lvl : Nat) (a : List Char) (ls : List (List Char)) (ha : Line a) (h : ∀ l ∈ ls, Line l) :
    err lvl (joinLines (a :: ls)) =
      joinLines ((indentErr lvl ++ " 🫕  ERR ".toList ++ a) :: ls.map (indentErr lvl ++ "        ".toList ++ ·)) := by
  have e : indentErr lvl ++ " 🫕  ".toList ++ "ERR ".toList = indentErr lvl ++ " 🫕  ERR ".toList := by
    rw [List.append_assoc]; rfl
  unfold err
  rw [e]
  refine prefix_join ?_ a ls ha h
  intro hm
  rcases List.mem_append.1 hm with hm | hm
  · exact (line_indent lvl).2 hm
  · revert hm; decide

theorem indent_succ (n : Nat) : indent (n + 1) = ' ' :: ' ' :: '│' :: ' ' :: indent n := by
  simp [indent, List.replicate_succ]

theorem indent_inj : ∀ (n n' : Nat) (x x' : List Char), indent n ++ ' ' :: '🧀' :: x = indent n' ++ ' ' :: '🧀' :: x' →
    n = n' ∧ x = x'
  | 0, 0, x, x', h => by simpa [indent] using h
  | n + 1, 0, x, x', h => by rw [indent_succ] at h; simp [indent] at h
  | 0, n + 1, x, x', h => by rw [indent_succ] at h; simp [indent] at h
  | n + 1, n' + 1, x, x', h => by
    rw [indent_succ, indent_succ] at h
    simp only [List.cons_append, List.cons.injEq, true_and] at h
    have := indent_inj n n' x x' h
    exact ⟨by omega, this.2⟩

theorem replaceNl_inj {t : List Char} : ∀ m m' : List Char, replaceNl ('\n' :: t) m = replaceNl ('\n' :: t) m' → m = m'
  | [], [], _ => rfl
  | [], c :: m, h => by
    simp only [replaceNl, List.flatMap_nil, List.flatMap_cons] at h
    split_ifs at h <;> simp at h
  | c :: m, [], h => by
    simp only [replaceNl, List.flatMap_nil, List.flatMap_cons] at h
    split_ifs at h <;> simp at h
  | c :: m, c' :: m', h => by
    have ih := replaceNl_inj (t := t) m m'
    simp only [replaceNl, List.flatMap_cons] at h ih
    by_cases h1 : c = '\n' <;> by_cases h2 : c' = '\n'
    · rw [if_pos h1, if_pos h2] at h
      rw [h1, h2, ih (List.append_cancel_left h)]
    · rw [if_pos h1, if_neg h2] at h
      simp at h
      exact absurd h.1.symm h2
    · rw [if_neg h1, if_pos h2] at h
      simp at h
      exact absurd h.1 h1
    · rw [if_neg h1, if_neg h2] at h
      simp at h
      rw [h.1, ih h.2]

/-- **C68.** Nothing of a message is lost: level and message can be read off what is printed. -/
theorem C68_info_injective {lvl lvl' : Nat} {m m' : List Char} (h : info lvl m = info lvl' m') : lvl = lvl' ∧ m = m' := by
  have key : ∀ (l : Nat) (m : List Char), info l m = indent l ++ ' ' :: '🧀' :: ' ' :: replaceNl ('\n' :: (indent l ++ "    ".toList)) m := by
    intro l m
    unfold info
    rw [replaceNl_append, replaceNl_line]
    · simp
    · intro hm
      rcases List.mem_append.1 hm with hm | hm
      · exact (line_indent l).1 hm
      · revert hm; decide
  rw [key, key] at h
  obtain ⟨h1, h2⟩ := indent_inj _ _ _ _ h
  subst h1
  exact ⟨rfl, replaceNl_inj _ _ (List.cons.inj h2).2⟩

/-! ### Boxes -/

theorem utf8_pos (c : Char) : 1 ≤ c.utf8Size := Char.utf8Size_pos c

theorem truncate_spec : ∀ (n : Nat) (l p : List Char), truncate n l = some p ↔
    ∃ q, l = p ++ q ∧ (bytes p = n ∨ (q = [] ∧ bytes p ≤ n))
  | n, [], p => by
    simp only [truncate, Option.some.injEq]
    constructor
    · rintro rfl; exact ⟨[], rfl, Or.inr ⟨rfl, by simp [bytes]⟩⟩
    · rintro ⟨q, h, _⟩; exact (List.append_eq_nil_iff.1 h.symm).1.symm
  | n, c :: l, p => by
    have hc := utf8_pos c
    unfold truncate
    by_cases hn : n = 0
    · rw [if_pos hn]; subst hn
      constructor
      · intro h; injection h with h; subst h
        exact ⟨c :: l, rfl, Or.inl (by simp [bytes])⟩
      · rintro ⟨q, h, h'⟩
        cases p with
        | nil => rfl
        | cons d p =>
          have : bytes (d :: p) = d.utf8Size + bytes p := by simp [bytes]
          have := utf8_pos d
          omega
    · rw [if_neg hn]
      by_cases hlt : n < c.utf8Size
      · rw [if_pos hlt]
        constructor
        · intro h; cases h
        · rintro ⟨q, h, h'⟩
          cases p with
          | nil =>
            rcases h' with h' | ⟨h', _⟩
            · simp [bytes] at h'; omega
            · subst h'; simp at h
          | cons d p =>
            have e : bytes (d :: p) = d.utf8Size + bytes p := by simp [bytes]
            injection h with h1 h2
            subst h1
            omega
      · rw [if_neg hlt]
        constructor
        · intro h
          rw [Option.map_eq_some_iff] at h
          obtain ⟨p', h1, h2⟩ := h
          obtain ⟨q, h3, h4⟩ := (truncate_spec _ l p').1 h1
          subst h2
          have e : bytes (c :: p') = c.utf8Size + bytes p' := by simp [bytes]
          refine ⟨q, by rw [h3]; rfl, ?_⟩
          rcases h4 with h4 | ⟨h4, h5⟩
          · left; omega
          · right; exact ⟨h4, by omega⟩
        · rintro ⟨q, h, h'⟩
          cases p with
          | nil =>
            rcases h' with h' | ⟨h', _⟩
            · simp [bytes] at h'; omega
            · subst h'; simp at h
          | cons d p =>
            have e : bytes (d :: p) = d.utf8Size + bytes p := by simp [bytes]
            injection h with h1 h2
            subst h1
            rw [Option.map_eq_some_iff]
            refine ⟨p, (truncate_spec _ l p).2 ⟨q, h2, ?_⟩, rfl⟩
            rcases h' with h' | ⟨h', h5⟩
            · left; omega
            · right; exact ⟨h', by omega⟩

theorem replaceNl_free {s : List Char} (hs : Line s) (l : List Char) : Line (replaceNl s l) := by
  intro h
  simp only [replaceNl, List.mem_flatMap] at h
  obtain ⟨c, _, h⟩ := h
  split_ifs at h with hc
  · exact hs h
  · simp at h; exact hc h.symm

/-- **C68.** What a box shows is the part `p` of the message up to byte 100, line breaks replaced; it has three
lines of the same width. -/
theorem C68_box {lvl : Nat} {p q : List Char} (h : bytes p = 100 ∨ (q = [] ∧ bytes p ≤ 100)) :
    ∃ top mid bot : List Char, infobox lvl (p ++ q) = some (joinLines [top, mid, bot]) ∧
      Line top ∧ Line mid ∧ Line bot ∧ top.length = mid.length ∧ mid.length = bot.length ∧
      mid = indent lvl ++ "    ┃  ".toList ++ replaceNl " | ".toList p ++ "  ┃".toList := by
  have ht : truncate 100 (p ++ q) = some p := (truncate_spec _ _ _).2 ⟨q, rfl, h⟩
  obtain ⟨m, hm⟩ : ∃ m, m = replaceNl " | ".toList p := ⟨_, rfl⟩
  have hml : Line m := by rw [hm]; exact replaceNl_free (by unfold Line; decide) p
  obtain ⟨bar, hbar⟩ : ∃ bar, bar = List.replicate (m.length + 4) '━' := ⟨_, rfl⟩
  have hbl : Line bar := by
    rw [hbar]; intro h
    have := (List.mem_replicate.1 h).2
    revert this; decide
  have hbn : bar.length = m.length + 4 := by rw [hbar, List.length_replicate]
  have hi := (line_indent lvl).1
  refine ⟨indent lvl ++ "    ".toList ++ '┏' :: (bar ++ ['┓']), indent lvl ++ "    ┃  ".toList ++ m ++ "  ┃".toList,
    indent lvl ++ "    ".toList ++ '┗' :: (bar ++ ['┛']), ?_, ?_, ?_, ?_, ?_, ?_, by rw [hm]⟩
  · unfold infobox
    rw [ht]
    simp only [Option.map_some, ← hm, ← hbar]
    congr 1
    have e : indent lvl ++ ("    ".toList ++ '┏' :: (bar ++ ['┓']) ++ ['\n'] ++ '┃' :: ("  ".toList ++ m ++ "  ".toList ++ ['┃']) ++
        ['\n'] ++ '┗' :: (bar ++ ['┛'])) = indent lvl ++ "    ".toList ++ joinLines ['┏' :: (bar ++ ['┓']),
          '┃' :: ("  ".toList ++ m ++ "  ".toList ++ ['┃']), '┗' :: (bar ++ ['┛'])] := by
      simp [joinLines_cons, joinLines_one]
    rw [e, prefix_join]
    · simp [joinLines_cons, joinLines_one]
    · intro hx
      rcases List.mem_append.1 hx with hx | hx
      · exact hi hx
      · revert hx; decide
    · simp only [Line, List.mem_cons, List.mem_append, not_or] at hbl ⊢
      exact ⟨by decide, hbl, by decide, by simp⟩
    · intro l hl
      simp only [List.mem_cons, List.not_mem_nil, or_false] at hl
      rcases hl with rfl | rfl
      · simp only [Line, List.mem_cons, List.mem_append, not_or] at hml ⊢
        exact ⟨by decide, ⟨⟨by decide, hml⟩, by decide⟩, by decide, by simp⟩
      · simp only [Line, List.mem_cons, List.mem_append, not_or] at hbl ⊢
        exact ⟨by decide, hbl, by decide, by simp⟩
  · simp only [Line, List.mem_cons, List.mem_append, not_or] at hbl hi ⊢
    exact ⟨⟨hi, by decide⟩, by decide, hbl, by decide, by simp⟩
  · simp only [Line, List.mem_append, not_or] at hml hi ⊢
    exact ⟨⟨⟨hi, by decide⟩, hml⟩, by decide⟩
  · simp only [Line, List.mem_cons, List.mem_append, not_or] at hbl hi ⊢
    exact ⟨⟨hi, by decide⟩, by decide, hbl, by decide, by simp⟩
  · simp [hbn]
  · simp [hbn]

/-- **C68.** A box panics exactly if the message is longer than 100 bytes and byte 100 is inside a character. -/
theorem C68_box_panics (lvl : Nat) (m : List Char) :
    infobox lvl m = none ↔ 100 < bytes m ∧ ∀ p q, m = p ++ q → bytes p ≠ 100 := by
  have e : infobox lvl m = none ↔ truncate 100 m = none := by simp [infobox]
  rw [e]
  constructor
  · intro h
    have key : ∀ p q, m = p ++ q → ¬ (bytes p = 100 ∨ (q = [] ∧ bytes p ≤ 100)) := by
      intro p q hm hp
      rw [(truncate_spec 100 m p).2 ⟨q, hm, hp⟩] at h
      cases h
    refine ⟨?_, fun p q hm hp => key p q hm (Or.inl hp)⟩
    by_contra hc
    exact key m [] (by simp) (Or.inr ⟨rfl, by omega⟩)
  · rintro ⟨h1, h2⟩
    cases ht : truncate 100 m with
    | none => rfl
    | some p =>
      obtain ⟨q, hm, hp⟩ := (truncate_spec 100 m p).1 ht
      rcases hp with hp | ⟨hq, hp⟩
      · exact absurd hp (h2 p q hm)
      · subst hq; simp at hm; subst hm; omega

theorem bytes_ascii {l : List Char} (h : ∀ c ∈ l, c.utf8Size = 1) : bytes l = l.length := by
  induction l with
  | nil => rfl
  | cons c l ih =>
    have e : bytes (c :: l) = c.utf8Size + bytes l := by simp [bytes]
    rw [e, ih (fun c hc => h c (by simp [hc])), h c (by simp), List.length_cons]
    omega

/-- **C68.** An ASCII message of any length never panics and is cut after 100 characters. -/
theorem C68_box_ascii (lvl : Nat) {m : List Char} (h : ∀ c ∈ m, c.utf8Size = 1) :
    ∃ top bot : List Char, infobox lvl m = some (joinLines [top, indent lvl ++ "    ┃  ".toList ++
      replaceNl " | ".toList (m.take 100) ++ "  ┃".toList, bot]) := by
  have hb : bytes (m.take 100) = 100 ∨ (m.drop 100 = [] ∧ bytes (m.take 100) ≤ 100) := by
    rw [bytes_ascii (fun c hc => h c (List.mem_of_mem_take hc)), List.length_take]
    by_cases hl : 100 ≤ m.length
    · left; omega
    · right; exact ⟨List.drop_eq_nil_iff.2 (by omega), by omega⟩
  obtain ⟨top, mid, bot, h1, _, _, _, _, _, h2⟩ := C68_box (lvl := lvl) hb
  rw [List.take_append_drop] at h1
  exact ⟨top, bot, by rw [h1, h2]⟩

/-- **C68**, a message that panics: 99 letters and a two-byte character. -/
theorem C68_box_witness (lvl : Nat) : infobox lvl (List.replicate 99 'a' ++ ['μ']) = none := by
  have : truncate 100 (List.replicate 99 'a' ++ ['μ']) = none := by decide +kernel
  unfold infobox
  rw [this]
  rfl

/-! ### Indentation -/

/-- **C68.** Each level is indented by four columns, with a bar in the third one; lines of errors are aligned with the others, with a
block in place of the bar. -/
theorem C68_indent (lvl : Nat) : (indent lvl).length = 4 * lvl ∧ (indentErr lvl).length = 4 * lvl ∧
    ∀ i, i < 4 * lvl → (indent lvl)[i]? = some (if i % 4 = 2 then '│' else ' ') ∧
      (indentErr lvl)[i]? = some (if i % 4 = 2 then '▒' else ' ') := by
  have gen : ∀ (b : Char) (lvl : Nat), ((List.replicate lvl [' ', ' ', b, ' ']).flatten).length = 4 * lvl ∧
      ∀ i, i < 4 * lvl → ((List.replicate lvl [' ', ' ', b, ' ']).flatten)[i]? = some (if i % 4 = 2 then b else ' ') := by
    intro b lvl
    induction lvl with
    | zero => exact ⟨rfl, fun i hi => by omega⟩
    | succ lvl ih =>
      rw [List.replicate_succ, List.flatten_cons]
      refine ⟨by simp only [List.length_append, ih.1, List.length_cons, List.length_nil]; omega, fun i hi => ?_⟩
      by_cases h : i < 4
      · rw [List.getElem?_append_left (by simpa using h)]
        have : i = 0 ∨ i = 1 ∨ i = 2 ∨ i = 3 := by omega
        rcases this with rfl | rfl | rfl | rfl <;> rfl
      · rw [List.getElem?_append_right (by simpa using h)]
        have h4 : [' ', ' ', b, ' '].length = 4 := rfl
        rw [h4, ih.2 (i - 4) (by omega)]
        have : (i - 4) % 4 = i % 4 := by omega
        rw [this]
  exact ⟨(gen _ lvl).1, (gen _ lvl).1, fun i hi => ⟨(gen _ lvl).2 i hi, (gen _ lvl).2 i hi⟩⟩

/-! ### Log lines -/

/-- reading a number back (blanks count as zeros) -/
def undec (l : List Char) : Nat := l.foldl (fun a c => 10 * a + (c.toNat - 48)) 0

theorem zero2 : ∀ n : Fin 60, (zeroDec 2 n).length = 2 ∧ undec (zeroDec 2 n) = n := by decide +kernel
theorem zero3 : ∀ n : Fin 1000, (zeroDec 3 n).length = 3 ∧ undec (zeroDec 3 n) = n := by decide +kernel
theorem pad2 : ∀ n : Fin 256, (padDec 2 n).length = (if n.1 < 100 then 2 else 3) ∧ undec (padDec 2 n) = n ∧
    (100 ≤ n.1 → (padDec 2 n)[2]? ≠ some ' ') := by decide +kernel

theorem stamp_len (t : Nat) : (stamp t).length = 9 := by
  have h1 := (zero2 ⟨t / 60000 % 60, by omega⟩).1
  have h2 := (zero2 ⟨t / 1000 % 60, by omega⟩).1
  have h3 := (zero3 ⟨t % 1000, by omega⟩).1
  simp only at h1 h2 h3
  simp [stamp, h1, h2, h3]

theorem stamp_eq (t t' : Nat) : stamp t = stamp t' ↔ t % 3600000 = t' % 3600000 := by
  constructor
  · intro h
    unfold stamp at h
    obtain ⟨l1, u1⟩ := zero2 ⟨t / 60000 % 60, by omega⟩
    obtain ⟨l2, u2⟩ := zero2 ⟨t / 1000 % 60, by omega⟩
    obtain ⟨l3, u3⟩ := zero3 ⟨t % 1000, by omega⟩
    obtain ⟨l1', u1'⟩ := zero2 ⟨t' / 60000 % 60, by omega⟩
    obtain ⟨l2', u2'⟩ := zero2 ⟨t' / 1000 % 60, by omega⟩
    obtain ⟨l3', u3'⟩ := zero3 ⟨t' % 1000, by omega⟩
    simp only at l1 u1 l2 u2 l3 u3 l1' u1' l2' u2' l3' u3'
    obtain ⟨h, e3⟩ := List.append_inj h (by simp [l1, l2, l1', l2'])
    obtain ⟨h, _⟩ := List.append_inj h (by simp [l1, l2, l1', l2'])
    obtain ⟨h, e2⟩ := List.append_inj h (by simp [l1, l1'])
    obtain ⟨e1, _⟩ := List.append_inj h (by simp [l1, l1'])
    have a1 : t / 60000 % 60 = t' / 60000 % 60 := by rw [← u1, ← u1', e1]
    have a2 : t / 1000 % 60 = t' / 1000 % 60 := by rw [← u2, ← u2', e2]
    have a3 : t % 1000 = t' % 1000 := by rw [← u3, ← u3', e3]
    omega
  · intro h
    unfold stamp
    rw [show t / 60000 % 60 = t' / 60000 % 60 by omega, show t / 1000 % 60 = t' / 1000 % 60 by omega,
      show t % 1000 = t' % 1000 by omega]

theorem pad_inj {l l' : Nat} (hl : l < 256) (hl' : l' < 256) {x x' : List Char}
    (h : padDec 2 l ++ ' ' :: x = padDec 2 l' ++ ' ' :: x') : l = l' ∧ x = x' := by
  obtain ⟨n1, u1, s1⟩ := pad2 ⟨l, hl⟩
  obtain ⟨n2, u2, s2⟩ := pad2 ⟨l', hl'⟩
  simp only at n1 u1 s1 n2 u2 s2
  have third : ∀ (p : List Char) (y : List Char), p.length = 2 → (p ++ ' ' :: y)[2]? = some ' ' := by
    intro p y hp
    rw [List.getElem?_append_right (by omega), hp]; rfl
  have third' : ∀ (p : List Char) (y : List Char), p.length = 3 → (p ++ ' ' :: y)[2]? = p[2]? := by
    intro p y hp
    rw [List.getElem?_append_left (by omega)]
  by_cases c1 : l < 100 <;> by_cases c2 : l' < 100
  · rw [if_pos c1] at n1; rw [if_pos c2] at n2
    obtain ⟨e, e'⟩ := List.append_inj h (by omega)
    exact ⟨by rw [← u1, ← u2, e], (List.cons.inj e').2⟩
  · rw [if_pos c1] at n1; rw [if_neg c2] at n2
    have := third _ x n1
    rw [h, third' _ _ n2] at this
    exact absurd this (s2 (by omega))
  · rw [if_neg c1] at n1; rw [if_pos c2] at n2
    have := third _ x' n2
    rw [← h, third' _ _ n1] at this
    exact absurd this (s1 (by omega))
  · rw [if_neg c1] at n1; rw [if_neg c2] at n2
    obtain ⟨e, e'⟩ := List.append_inj h (by omega)
    exact ⟨by rw [← u1, ← u2, e], (List.cons.inj e').2⟩

/-- **C68.** Two operations leave the same line in the log file exactly if level and message agree and their
times of start and end agree up to whole hours: level and message can be read back, of the times only the
part within the hour, so an operation of an hour or more is logged with a wrong duration. -/
theorem C68_log_line {l l' s s' e e' : Nat} {m m' : List Char} (hl : l < 256) (hl' : l' < 256) :
    logTs l s e m = logTs l' s' e' m' ↔
      l = l' ∧ s % 3600000 = s' % 3600000 ∧ e % 3600000 = e' % 3600000 ∧ m = m' := by
  constructor
  · intro h
    have key : ∀ (l s e : Nat) (m : List Char), logTs l s e m =
        padDec 2 l ++ ' ' :: (' ' :: (stamp s ++ ("   ".toList ++ (stamp e ++ ("   \"".toList ++ (m ++ ['"'])))))) := by
      intro l s e m; simp [logTs]
    rw [key, key] at h
    obtain ⟨h1, h⟩ := pad_inj hl hl' h
    obtain ⟨h2, h⟩ := List.append_inj (List.cons.inj h).2 (by rw [stamp_len, stamp_len])
    obtain ⟨h3, h⟩ := List.append_inj (List.append_cancel_left h) (by rw [stamp_len, stamp_len])
    have h4 := List.append_cancel_right (List.append_cancel_left h)
    exact ⟨h1, (stamp_eq _ _).1 h2, (stamp_eq _ _).1 h3, h4⟩
  · rintro ⟨rfl, h2, h3, rfl⟩
    unfold logTs
    rw [(stamp_eq s s').2 h2, (stamp_eq e e').2 h3]

theorem zero2_digits : ∀ n : Fin 60, zeroDec 2 n = [Nat.digitChar (n / 10), Nat.digitChar (n % 10)] := by decide +kernel
theorem zero3_digits : ∀ n : Fin 1000, zeroDec 3 n = [Nat.digitChar (n / 100), Nat.digitChar (n / 10 % 10), Nat.digitChar (n % 10)] := by
  decide +kernel

/-- **C68.** A time stamp is two digits of minutes, two of seconds and three of milliseconds, leading zeros included. -/
theorem C68_stamp (t : Nat) : stamp t =
    [Nat.digitChar (t / 600000 % 6), Nat.digitChar (t / 60000 % 10), ' ',
     Nat.digitChar (t / 10000 % 6), Nat.digitChar (t / 1000 % 10), '.',
     Nat.digitChar (t / 100 % 10), Nat.digitChar (t / 10 % 10), Nat.digitChar (t % 10)] := by
  have h1 := zero2_digits ⟨t / 60000 % 60, by omega⟩
  have h2 := zero2_digits ⟨t / 1000 % 60, by omega⟩
  have h3 := zero3_digits ⟨t % 1000, by omega⟩
  simp only at h1 h2 h3
  unfold stamp
  rw [h1, h2, h3, show t / 60000 % 60 / 10 = t / 600000 % 6 by omega, show t / 60000 % 60 % 10 = t / 60000 % 10 by omega,
    show t / 1000 % 60 / 10 = t / 10000 % 6 by omega, show t / 1000 % 60 % 10 = t / 1000 % 10 by omega,
    show t % 1000 / 100 = t / 100 % 10 by omega, show t % 1000 / 10 % 10 = t / 10 % 10 by omega,
    show t % 1000 % 10 = t % 10 by omega]
  rfl

/-- **C68**, witness: an operation of one hour and one second is logged like one of a second. -/
theorem C68_log_hour : logTs 0 0 3601000 "mul".toList = logTs 0 0 1000 "mul".toList :=
  (C68_log_line (by omega) (by omega)).2 ⟨rfl, rfl, rfl, rfl⟩

/-! Cases -/

example : String.ofList (info 2 "a\nb".toList) = "  │   │  🧀 a\n  │   │     b" := by decide +kernel
example : String.ofList (logTs 3 61005 3599999 "x \"y\"".toList) = " 3  01 01.005   59 59.999   \"x \"y\"\"" := by decide +kernel
example : (infobox 1 "hi\nyou".toList).map String.ofList =
    some "  │     ┏━━━━━━━━━━━━┓\n  │     ┃  hi | you  ┃\n  │     ┗━━━━━━━━━━━━┛" := by decide +kernel

end Parm.Fmt
