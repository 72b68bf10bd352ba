import Verif.Model.ChainText
import Verif.Proof.ChainScript

/-!
# Reading back what the scripts print and write
-/

namespace Parm.ChainText
open Parm.ChainScript

/-! ### Digits -/

/-- a character that is neither a separator nor a sign -/
def Plain (c : Char) : Prop :=
  isSpace c = false ∧ c ≠ '◖' ∧ c ≠ '◗' ∧ c ≠ '^' ∧ c ≠ '·' ∧ c ≠ ':'

theorem plain_digit {c : Char} (h : c.isDigit = true) : Plain c := by
  have hs : ∀ d : Char, d.isDigit = false → c ≠ d := by
    rintro d hd rfl
    rw [hd] at h
    exact absurd h (by simp)
  refine ⟨?_, hs _ (by decide), hs _ (by decide), hs _ (by decide), hs _ (by decide), hs _ (by decide)⟩
  unfold isSpace
  simp [hs ' ' (by decide), hs '\t' (by decide), hs '\n' (by decide), hs '\r' (by decide), hs '\x0b' (by decide),
    hs '\x0c' (by decide)]

theorem dec_digit {n : Nat} {c : Char} (h : c ∈ Fmt.dec n) : c.isDigit = true :=
  Nat.isDigit_of_mem_toDigits (by decide) (by decide) h

theorem dec_plain {n : Nat} {c : Char} (h : c ∈ Fmt.dec n) : Plain c := plain_digit (dec_digit h)

theorem dec_ne (n : Nat) : Fmt.dec n ≠ [] := Nat.toDigits_ne_nil

theorem dec_value (n : Nat) : Nat.ofDigitChars 10 (Fmt.dec n) 0 = n := Nat.ofDigitChars_toDigits (by decide) (by decide)

theorem takeWhile_all {p : Char → Bool} : ∀ {s : Text}, (∀ c ∈ s, p c = true) → s.takeWhile p = s
  | [], _ => rfl
  | c :: s, h => by
    rw [List.takeWhile_cons, if_pos (h c (by simp)), takeWhile_all fun x hx => h x (by simp [hx])]

theorem leadingNat_dec (n : Nat) : leadingNat (Fmt.dec n) = n := by
  unfold leadingNat
  rw [takeWhile_all fun c hc => dec_digit hc, dec_value]

theorem dec_cons (n : Nat) : ∃ c s, Fmt.dec n = c :: s ∧ c.isDigit = true := by
  obtain ⟨c, s, h⟩ := List.exists_cons_of_ne_nil (dec_ne n)
  exact ⟨c, s, h, dec_digit (n := n) (by rw [h]; simp)⟩

theorem showInt_nat {z : Int} (h : 0 ≤ z) : showInt z = Fmt.dec z.natAbs := if_neg (by omega)

theorem toI_dec (n : Nat) : toI (Fmt.dec n) = n := by
  obtain ⟨c, s, h, hc⟩ := dec_cons n
  have hl := leadingNat_dec n
  unfold toI
  rw [h, List.dropWhile_cons, if_neg (by simp [(plain_digit hc).1]), ← h]
  split
  · rename_i t ht
    rw [h] at ht
    cases ht
    exact absurd hc (by decide)
  · rename_i t ht
    rw [h] at ht
    cases ht
    exact absurd hc (by decide)
  · rw [hl]

theorem toI_neg (n : Nat) : toI ('-' :: Fmt.dec n) = -(n : Int) := by
  unfold toI
  rw [List.dropWhile_cons, if_neg (by decide)]
  simp only [leadingNat_dec]

theorem toI_showInt (z : Int) : toI (showInt z) = z := by
  unfold showInt
  split_ifs with h
  · rw [toI_neg]; omega
  · rw [toI_dec]; omega

theorem showInt_plain {z : Int} {c : Char} (h : c ∈ showInt z) : Plain c := by
  unfold showInt at h
  split_ifs at h
  · rcases List.mem_cons.1 h with rfl | h
    · unfold Plain
      decide
    · exact dec_plain h
  · exact dec_plain h

theorem showInt_ne (z : Int) : showInt z ≠ [] := by
  unfold showInt
  split_ifs
  · simp
  · exact dec_ne _

/-! ### Splitting -/

theorem pieces_ne (sep : Char → Bool) (s : Text) : pieces sep s ≠ [] := by
  cases s with
  | nil => simp [pieces]
  | cons c s =>
    unfold pieces
    split_ifs
    · simp
    · split <;> simp

theorem pieces_none {sep : Char → Bool} : ∀ {s : Text}, (∀ c ∈ s, sep c = false) → pieces sep s = [s]
  | [], _ => rfl
  | c :: s, h => by
    unfold pieces
    rw [if_neg (by simp [h c (by simp)]), pieces_none (s := s) fun x hx => h x (by simp [hx])]

theorem pieces_cut {sep : Char → Bool} {c : Char} (hc : sep c = true) (b : Text) :
    ∀ {a : Text}, (∀ x ∈ a, sep x = false) → pieces sep (a ++ c :: b) = a :: pieces sep b
  | [], _ => by
    rw [List.nil_append]
    conv_lhs => unfold pieces
    rw [if_pos hc]
  | x :: a, h => by
    rw [List.cons_append]
    conv_lhs => unfold pieces
    rw [if_neg (by simp [h x (by simp)]), pieces_cut hc b fun y hy => h y (by simp [hy])]

theorem split_of_last {sep : Char → Bool} {s w : Text} {ws : List Text} (h : pieces sep s = ws ++ [w]) (hw : w ≠ []) :
    split sep s = ws ++ [w] := by
  unfold split
  rw [h, List.reverse_append, List.reverse_singleton, List.singleton_append, List.dropWhile_cons, if_neg (by simpa using hw)]
  simp

theorem split_head {sep : Char → Bool} {s w : Text} {ws : List Text} (h : pieces sep s = w :: ws) (hw : w ≠ []) :
    (split sep s).head? = some w := by
  unfold split
  rw [h, List.reverse_cons]
  have : ∀ l : List Text, ∃ r, ((l ++ [w]).dropWhile (·.isEmpty)).reverse = w :: r := by
    intro l
    induction l with
    | nil =>
      rw [List.nil_append, List.dropWhile_cons, if_neg (by simpa using hw)]
      exact ⟨[], rfl⟩
    | cons x l ih =>
      rw [List.cons_append, List.dropWhile_cons]
      split_ifs
      · exact ih
      · exact ⟨l.reverse ++ [x], by simp⟩
  obtain ⟨r, hr⟩ := this ws.reverse
  rw [hr]
  rfl

theorem words_space {c : Char} (hc : isSpace c = true) (s : Text) : words (c :: s) = words s := by
  have := pieces_cut (sep := isSpace) hc s (a := []) (by simp)
  rw [List.nil_append] at this
  unfold words
  rw [this]
  rfl

theorem words_spaces (n : Nat) (s : Text) : words (List.replicate n ' ' ++ s) = words s := by
  induction n with
  | zero => rfl
  | succ n ih => rw [List.replicate_succ, List.cons_append, words_space (by decide), ih]

theorem words_word {w : Text} (hw : w ≠ []) (hs : ∀ c ∈ w, isSpace c = false) {c : Char} (hc : isSpace c = true) (s : Text) :
    words (w ++ c :: s) = w :: words s := by
  unfold words
  rw [pieces_cut hc s hs, List.filter_cons, if_pos (by simpa using hw)]

theorem pieces_lines : ∀ {ls : List Text}, (∀ l ∈ ls, '\n' ∉ l) → pieces (· = '\n') (unlines ls) = ls ++ [[]]
  | [], _ => rfl
  | l :: ls, h => by
    have e : unlines (l :: ls) = l ++ '\n' :: unlines ls := by simp [unlines]
    rw [e, pieces_cut (by simp) _ fun x hx => ?_, pieces_lines fun m hm => h m (by simp [hm])]
    · rfl
    · simp only [decide_eq_false_iff_not]
      rintro rfl
      exact h l (by simp) hx

theorem split_lines {ls : List Text} (h : ∀ l ∈ ls, '\n' ∉ l) (hne : ∀ l ∈ ls, l ≠ []) :
    split (· = '\n') (unlines ls) = ls := by
  unfold split
  rw [pieces_lines h, List.reverse_append, List.reverse_singleton, List.singleton_append, List.dropWhile_cons,
    if_pos List.isEmpty_nil]
  rcases List.eq_nil_or_concat ls with rfl | ⟨l', a, rfl⟩
  · rfl
  · rw [List.concat_eq_append, List.reverse_append, List.reverse_singleton, List.singleton_append, List.dropWhile_cons,
      if_neg (by simpa using hne a (by simp))]
    simp

/-! ### One line of the log -/

/-- the text of an element between its brackets -/
def body (o : ChainScript.Odd) : Text := ' ' :: showInt o.val ++ srcText o.src ++ [' ']

theorem oddText_eq (o : ChainScript.Odd) : oddText o = '◖' :: (body o ++ ['◗']) := by
  simp [oddText, body]

/-- the pieces of a chain after each opening bracket -/
def partsOf : List ChainScript.Odd → List Text
  | [] => []
  | [o] => [body o ++ ['◗', ']']]
  | o :: o' :: os => (body o ++ ['◗', ',', ' ']) :: partsOf (o' :: os)

theorem srcText_ok {s : Option (Bool × Int × Bool × Int × Nat)} {c : Char} (h : c ∈ srcText s) : c ≠ '◖' ∧ c ≠ '◗' ∧ c ≠ '\n' := by
  have pl : ∀ {c : Char}, Plain c → c ≠ '◖' ∧ c ≠ '◗' ∧ c ≠ '\n' := fun {c} hc =>
    ⟨hc.2.1, hc.2.2.1, by rintro rfl; exact absurd hc.1 (by decide)⟩
  match s with
  | none => simp [srcText] at h
  | some (pp, p, qp, q, r) =>
    simp only [srcText, List.cons_append, List.append_assoc, List.mem_append, List.mem_cons] at h
    rcases h with h | h | h | h | h | h | h | h | h
    · revert c
      decide
    · subst h
      cases pp <;> decide
    · exact pl (showInt_plain h)
    · subst h
      decide
    · subst h
      cases qp <;> decide
    · subst h
      decide
    · exact pl (showInt_plain h)
    · revert c
      decide
    · exact pl (dec_plain h)

theorem body_ok {o : ChainScript.Odd} {c : Char} (h : c ∈ body o) : c ≠ '◖' ∧ c ≠ '◗' ∧ c ≠ '\n' := by
  simp only [body, List.cons_append, List.append_assoc, List.mem_append, List.mem_cons, List.not_mem_nil, or_false] at h
  rcases h with h | h | h | h
  · subst h; decide
  · have hc := showInt_plain h
    exact ⟨hc.2.1, hc.2.2.1, by rintro rfl; exact absurd hc.1 (by decide)⟩
  · exact srcText_ok h
  · subst h; decide

theorem pieces_open : ∀ (os : List ChainScript.Odd) (o : ChainScript.Odd) {pre : Text}, '◖' ∉ pre →
    pieces (· = '◖') (pre ++ (List.intercalate ", ".toList ((o :: os).map oddText) ++ [']'])) = pre :: partsOf (o :: os)
  | [], o, pre, hp => by
    have e : pre ++ (List.intercalate ", ".toList ([o].map oddText) ++ [']']) = pre ++ '◖' :: (body o ++ ['◗', ']']) := by
      simp [List.intercalate, oddText_eq]
    rw [e, pieces_cut (by simp) _ fun x hx => ?_, pieces_none fun x hx => ?_]
    · rfl
    · simp only [decide_eq_false_iff_not]
      rcases List.mem_append.1 hx with hx | hx
      · exact (body_ok hx).1
      · exact (by decide : ∀ x ∈ ['◗', ']'], ¬x = '◖') x hx
    · simp only [decide_eq_false_iff_not]
      rintro rfl
      exact hp hx
  | o' :: os, o, pre, hp => by
    have e : pre ++ (List.intercalate ", ".toList ((o :: o' :: os).map oddText) ++ [']']) =
        pre ++ '◖' :: ((body o ++ ['◗', ',', ' ']) ++ (List.intercalate ", ".toList ((o' :: os).map oddText) ++ [']'])) := by
      simp [List.intercalate, oddText_eq]
    rw [e, pieces_cut (by simp) _ fun x hx => ?_, pieces_open os o' fun hx => ?_]
    · rfl
    · rcases List.mem_append.1 hx with hx | hx
      · exact (body_ok hx).1 rfl
      · exact absurd hx (by decide)
    · simp only [decide_eq_false_iff_not]
      rintro rfl
      exact hp hx

theorem part_of_mem : ∀ {os : List ChainScript.Odd} {s : Text}, s ∈ partsOf os → s ≠ []
  | [], _, h => by simp [partsOf] at h
  | [o], _, h => by
    simp only [partsOf, List.mem_singleton] at h
    subst h
    simp [body]
  | o :: o' :: os, _, h => by
    simp only [partsOf, List.mem_cons] at h
    rcases h with rfl | h
    · simp [body]
    · exact part_of_mem (os := o' :: os) (by simpa [partsOf] using h)

/-- the hash written for an element -/
def adsOf (a : AddShift) : Ads := ⟨a.lPos, some a.lIdx, a.rPos, some a.rIdx, a.rShift⟩

theorem parseAds_part {o : ChainScript.Odd} {pp qp : Bool} {p q : Int} {r : Nat} (hs : o.src = some (pp, p, qp, q, r))
    (hp : 0 < p) (known : List Int) (rest : Text) :
    parseAds known (body o ++ '◗' :: rest) = some (known ++ [o.val],
      { lPos := pp, lIdx := (known ++ [o.val]).findIdx? (· = p), rPos := qp, rIdx := (known ++ [o.val]).findIdx? (· = q)
        rShift := r }) := by
  have hsp : ∀ z : Int, ∀ c ∈ showInt z, isSpace c = false := fun z c hc => (showInt_plain hc).1
  have h1 : (split (· = '◗') (body o ++ '◗' :: rest)).head? = some (body o) :=
    split_head (pieces_cut (by simp) rest fun x hx => by
      simp only [decide_eq_false_iff_not]
      exact (body_ok hx).2.1) (by simp [body])
  have hl : ∃ l : Text, l ≠ [] ∧ (∀ c ∈ l, isSpace c = false) ∧ toI l = (if pp then p else -p) ∧
      ∀ s, words ((if pp then ' ' else '-') :: showInt p ++ ' ' :: s) = l :: words s := by
    cases pp
    · refine ⟨'-' :: showInt p, by simp, ?_, ?_, fun s => ?_⟩
      · intro c hc
        rcases List.mem_cons.1 hc with rfl | hc
        · decide
        · exact hsp p c hc
      · rw [showInt_nat hp.le, toI_neg]
        simp only [Bool.false_eq_true, if_false]
        omega
      · refine words_word (by simp) ?_ (by decide) s
        intro c hc
        rcases List.mem_cons.1 hc with rfl | hc
        · decide
        · exact hsp p c hc
    · refine ⟨showInt p, showInt_ne p, hsp p, by simpa using toI_showInt p, fun s => ?_⟩
      simp only [if_true, List.cons_append]
      rw [words_space (by decide), words_word (showInt_ne p) (hsp p) (by decide)]
  obtain ⟨l, l1, l2, l3, l4⟩ := hl
  have hq : ∀ c ∈ showInt q ++ "·2^".toList ++ Fmt.dec r, isSpace c = false := by
    intro c hc
    rw [List.mem_append, List.mem_append] at hc
    rcases hc with (hc | hc) | hc
    · exact hsp q c hc
    · revert c
      decide
    · exact (dec_plain hc).1
  have h2 : words (body o) =
      [showInt o.val, ['='], l, [if qp then '+' else '-'], showInt q ++ "·2^".toList ++ Fmt.dec r] := by
    have e : body o = ' ' :: (showInt o.val ++ ' ' :: (['='] ++ ' ' :: ((if pp then ' ' else '-') :: showInt p ++ ' ' ::
        ([if qp then '+' else '-'] ++ ' ' :: ((showInt q ++ "·2^".toList ++ Fmt.dec r) ++ ' ' :: []))))) := by
      simp [body, hs, srcText]
    rw [e, words_space (by decide), words_word (showInt_ne _) (hsp _) (by decide), words_word (by simp) (by decide) (by decide), l4,
      words_word (by simp) (by cases qp <;> decide) (by decide), words_word (by simp [showInt_ne]) hq (by decide)]
    rfl
  have h3 : split (fun c => isSpace c || c = '^' || c = '·') (showInt q ++ "·2^".toList ++ Fmt.dec r) =
      [showInt q, ['2']] ++ [Fmt.dec r] := by
    refine split_of_last ?_ (dec_ne r)
    have e : showInt q ++ "·2^".toList ++ Fmt.dec r = showInt q ++ '·' :: (['2'] ++ '^' :: Fmt.dec r) := by simp
    rw [e, pieces_cut (by decide) _ fun x hx => ?_, pieces_cut (by decide) _ (by decide), pieces_none fun x hx => ?_]
    · rfl
    · have := dec_plain hx
      simp [this.1, this.2.2.2.1, this.2.2.2.2.1]
    · have := showInt_plain hx
      simp [this.1, this.2.2.2.1, this.2.2.2.2.1]
  unfold parseAds
  rw [h1]
  simp only [Option.bind_eq_bind, Option.bind_some, h2, List.head?_cons, toI?, Option.elim_some, toI_showInt,
    List.getElem?_cons_succ, List.getElem?_cons_zero, l3, List.getLast?_cons_cons, List.getLast?_singleton, h3,
    List.cons_append, List.nil_append, toI_dec]
  have habs : (((if pp = true then p else -p).natAbs : Nat) : Int) = p := by split_ifs <;> omega
  have hsg : decide ((if pp = true then p else -p) > 0) = pp := by
    cases pp
    · simp only [Bool.false_eq_true, if_false, decide_eq_false_iff_not]; omega
    · simp only [if_true, decide_eq_true_eq]; omega
  rw [habs, hsg]
  cases qp <;> simp

theorem parseParts_of : ∀ {os : List ChainScript.Odd} {known : List Int} {a : Asc}, Built known os → (∀ v ∈ known, 0 < v) →
    parseElems known os = some a → parseParts known (partsOf os) = some (a.map adsOf)
  | [], known, a, _, _, h => by
    cases h
    rfl
  | o :: os, known, a, ⟨⟨pp, p, qp, q, r, h1, h2, h3, h4, h5, h6, _⟩, h8⟩, hpos, h => by
    have hp0 := hpos p h2
    obtain ⟨i, i1, -⟩ := findIdx_known h2 o.val
    obtain ⟨j, j1, -⟩ := findIdx_known h3 o.val
    have habs : (((if pp = true then p else -p).natAbs : Nat) : Int) = p := by split_ifs <;> omega
    have hsg : decide ((if pp = true then p else -p) > 0) = pp := by
      cases pp
      · simp only [Bool.false_eq_true, if_false, decide_eq_false_iff_not]; omega
      · simp only [if_true, decide_eq_true_eq]; omega
    unfold parseElems at h
    simp only [h1, habs, i1, j1, hsg, Option.bind_eq_bind, Option.bind_some] at h
    cases hr : parseElems (known ++ [o.val]) os with
    | none => simp [hr] at h
    | some b =>
      simp only [hr, Option.bind_some, Option.some.injEq] at h
      subst h
      have ih := parseParts_of h8 (by
        intro v hv
        rcases List.mem_append.1 hv with hv | hv
        · exact hpos v hv
        · rw [List.mem_singleton] at hv
          subst hv
          exact h6) hr
      obtain ⟨rest, hrest⟩ : ∃ rest, partsOf (o :: os) = (body o ++ '◗' :: rest) :: partsOf os := by
        cases os with
        | nil => exact ⟨[']'], rfl⟩
        | cons o' os => exact ⟨[',', ' '], rfl⟩
      rw [hrest]
      unfold parseParts
      rw [parseAds_part h1 hp0]
      simp only [Option.bind_eq_bind, Option.bind_some, ih, i1, j1]
      rfl

theorem partsOf_cons (o : ChainScript.Odd) (os : List ChainScript.Odd) :
    ∃ s, s ≠ [] ∧ partsOf (o :: os) = s :: partsOf os := by
  cases os with
  | nil => exact ⟨_, by simp [body], rfl⟩
  | cons o' os => exact ⟨_, by simp [body], rfl⟩

/-- the line up to the chain -/
def lineHead (wpr : Bool) (v : Int) (n : Nat) : Text :=
  (if wpr then "  ? ".toList else []) ++ pad5 v ++ " /".toList ++ Fmt.dec n ++ "/ [".toList

theorem logLine_eq (wpr : Bool) (v : Int) (c : AsChain) (cs : List AsChain) :
    logLine wpr (v, c :: cs) = lineHead wpr v (c.length - 1) ++ (List.intercalate ", ".toList (c.map oddText) ++ [']']) := by
  simp [logLine, chainText, lineHead]

theorem lineHead_ok {wpr : Bool} {v : Int} {n : Nat} {c : Char} (h : c ∈ lineHead wpr v n) : c ≠ '◖' ∧ c ≠ '\n' := by
  have pl : ∀ {c : Char}, Plain c → c ≠ '◖' ∧ c ≠ '\n' := fun {c} hc =>
    ⟨hc.2.1, by rintro rfl; exact absurd hc.1 (by decide)⟩
  simp only [lineHead, pad5, List.mem_append] at h
  rcases h with (((h | h | h) | h) | h) | h
  · cases wpr
    · simp at h
    · exact (by decide : ∀ c ∈ "  ? ".toList, c ≠ '◖' ∧ c ≠ '\n') c (by simpa using h)
  · rw [List.eq_of_mem_replicate h]
    decide
  · exact pl (showInt_plain h)
  · exact (by decide : ∀ c ∈ " /".toList, c ≠ '◖' ∧ c ≠ '\n') c h
  · exact pl (dec_plain h)
  · exact (by decide : ∀ c ∈ "/ [".toList, c ≠ '◖' ∧ c ≠ '\n') c h

theorem words_lineHead (v : Int) (n : Nat) (s : Text) :
    ∃ ws, words (lineHead false v n ++ s) = showInt v :: ws := by
  have e : lineHead false v n ++ s = List.replicate (5 - (showInt v).length) ' ' ++ (showInt v ++ ' ' ::
      ('/' :: Fmt.dec n ++ "/ [".toList ++ s)) := by simp [lineHead, pad5]
  rw [e, words_spaces, words_word (showInt_ne v) (fun c hc => (showInt_plain hc).1) (by decide)]
  exact ⟨_, rfl⟩

theorem words_warned (v : Int) (n : Nat) (s : Text) :
    ∃ ws, words (lineHead true v n ++ s) = ['?'] :: ws := by
  have e : lineHead true v n ++ s = List.replicate 2 ' ' ++ (['?'] ++ ' ' :: (pad5 v ++ " /".toList ++ Fmt.dec n ++
      "/ [".toList ++ s)) := by simp [lineHead, List.replicate]
  rw [e, words_spaces, words_word (by simp) (by decide) (by decide)]
  exact ⟨_, rfl⟩

theorem parseLine_of {wpr : Bool} {v : Int} {t : List ChainScript.Odd} {cs : List AsChain} {a : Asc} (hb : Built [1] t)
    (ha : parseElems [1] t = some a) :
    parseLine (logLine wpr (v, (ChainScript.Odd.unit :: t) :: cs)) = some (if wpr then 0 else v, a.map adsOf) := by
  rw [logLine_eq]
  set n := (ChainScript.Odd.unit :: t).length - 1
  have hpc := pieces_open t ChainScript.Odd.unit (pre := lineHead wpr v n) fun h => (lineHead_ok h).1 rfl
  obtain ⟨s, hs, hp⟩ := partsOf_cons ChainScript.Odd.unit t
  have hsp : split (· = '◖') (lineHead wpr v n ++ (List.intercalate ", ".toList
      ((ChainScript.Odd.unit :: t).map oddText) ++ [']'])) = lineHead wpr v n :: s :: partsOf t := by
    rcases List.eq_nil_or_concat (partsOf (ChainScript.Odd.unit :: t)) with h0 | ⟨l, w, h0⟩
    · rw [hp] at h0
      cases h0
    · rw [List.concat_eq_append] at h0
      rw [split_of_last (ws := lineHead wpr v n :: l) (w := w) (by rw [hpc, h0]; rfl)
        (part_of_mem (os := ChainScript.Odd.unit :: t) (by rw [h0]; simp)), List.cons_append, ← h0, hp]
  have hw : toI? (words (lineHead wpr v n ++ (List.intercalate ", ".toList
      ((ChainScript.Odd.unit :: t).map oddText) ++ [']']))).head? = if wpr then 0 else v := by
    cases wpr
    · obtain ⟨ws, hws⟩ := words_lineHead v n (List.intercalate ", ".toList ((ChainScript.Odd.unit :: t).map oddText) ++ [']'])
      rw [hws]
      exact toI_showInt v
    · obtain ⟨ws, hws⟩ := words_warned v n (List.intercalate ", ".toList ((ChainScript.Odd.unit :: t).map oddText) ++ [']'])
      rw [hws]
      rfl
  unfold parseLine
  dsimp only
  rw [hw, hsp]
  rw [if_neg (by simp)]
  simp only [List.drop_succ_cons, List.drop_zero, parseParts_of hb (by simp) ha, Option.bind_eq_bind, Option.bind_some]

theorem intercalate_mem {c : Char} : ∀ {ls : List Text}, c ∈ List.intercalate ", ".toList ls → c = ',' ∨ c = ' ' ∨ ∃ l ∈ ls, c ∈ l
  | [], h => by simp [List.intercalate] at h
  | [l], h => by
    right; right
    exact ⟨l, by simp, by simpa [List.intercalate] using h⟩
  | l :: l' :: ls, h => by
    have e : List.intercalate ", ".toList (l :: l' :: ls) = l ++ ", ".toList ++ List.intercalate ", ".toList (l' :: ls) := by
      simp [List.intercalate]
    rw [e, List.mem_append, List.mem_append] at h
    rcases h with (h | h) | h
    · exact Or.inr (Or.inr ⟨l, by simp, h⟩)
    · simp at h
      tauto
    · rcases intercalate_mem h with h | h | ⟨m, hm, h⟩
      · exact Or.inl h
      · exact Or.inr (Or.inl h)
      · exact Or.inr (Or.inr ⟨m, by simp [List.mem_cons.1 hm], h⟩)

theorem logLine_nl (wpr : Bool) (e : Int × List AsChain) : '\n' ∉ logLine wpr e ∧ logLine wpr e ≠ [] := by
  obtain ⟨v, cs⟩ := e
  have he : logLine wpr (v, cs) = lineHead wpr v ((cs.head?.getD []).length - 1) ++
      (List.intercalate ", ".toList ((cs.head?.getD []).map oddText) ++ [']']) := by
    simp [logLine, chainText, lineHead]
  rw [he]
  refine ⟨fun h => ?_, by simp⟩
  rcases List.mem_append.1 h with h | h
  · exact (lineHead_ok h).2 rfl
  · rcases List.mem_append.1 h with h | h
    · rcases intercalate_mem h with h | h | ⟨l, hl, h⟩
      · exact absurd h (by decide)
      · exact absurd h (by decide)
      · obtain ⟨o, -, rfl⟩ := List.mem_map.1 hl
        rw [oddText_eq] at h
        rcases List.mem_cons.1 h with h | h
        · exact absurd h (by decide)
        · rcases List.mem_append.1 h with h | h
          · exact (body_ok h).2.2 rfl
          · exact absurd h (by decide)
    · exact absurd h (by decide)

theorem parse_foldl {f : Text → Option (Int × List Ads)} : ∀ {es : List (Text × Int × List Ads)} {acc : List (Int × List Ads)},
    (∀ e ∈ es, f e.1 = some e.2) → (acc.map (·.1) ++ es.map (·.2.1)).Nodup →
    (es.map (·.1)).foldlM (fun res line => do some (hset res (← f line))) acc = some (acc ++ es.map (·.2))
  | [], acc, _, _ => by simp
  | e :: es, acc, h, hn => by
    have hnot : e.2.1 ∉ acc.map (·.1) := by
      intro hm
      rw [List.map_cons, List.nodup_append] at hn
      exact hn.2.2 _ hm _ (by simp) rfl
    rw [List.map_cons, List.foldlM_cons, h e (by simp)]
    simp only [Option.bind_eq_bind, Option.bind_some]
    have hh : hset acc e.2 = acc ++ [e.2] := if_neg hnot
    rw [hh]
    have := parse_foldl (es := es) (acc := acc ++ [e.2]) (fun x hx => h x (by simp [hx])) (by simpa using hn)
    simp only [Option.bind_eq_bind] at this
    rw [this]
    simp

theorem table_cons {e : Int × List AsChain} {db : Db} {t : List (Int × Asc)} (h : table (e :: db) = some t) :
    ∃ x t', entry e = some x ∧ table db = some t' ∧ t = x :: t' := by
  unfold table at h ⊢
  rw [List.mapM_cons] at h
  cases hx : entry e with
  | none => simp [hx] at h
  | some x =>
    cases ht : List.mapM entry db with
    | none => simp [hx, ht] at h
    | some t' =>
      simp only [hx, ht, Option.bind_eq_bind, Option.bind_some, Option.pure_def, Option.some.injEq] at h
      exact ⟨x, t', rfl, rfl, h.symm⟩

theorem entry_good {v : Int} {cs : List AsChain} (h : EntryOk v cs) :
    ∃ t cs', cs = (ChainScript.Odd.unit :: t) :: cs' ∧ Built [1] t := by
  obtain ⟨hne, -, hc⟩ := h
  obtain ⟨c0, cs0, rfl⟩ := List.exists_cons_of_ne_nil hne
  obtain ⟨⟨t, rfl, ht⟩, -⟩ := hc c0 (by simp)
  exact ⟨t, cs0, rfl, ht⟩

theorem parseLine_entry {wpr : Bool} {e : Int × List AsChain} (h : EntryOk e.1 e.2) {x : Int × Asc} (hx : entry e = some x) :
    parseLine (logLine wpr e) = some (if wpr then 0 else x.1, x.2.map adsOf) ∧ x.1 = e.1 := by
  obtain ⟨v, cs⟩ := e
  obtain ⟨t, cs', rfl, hb⟩ := entry_good h
  unfold entry at hx
  simp only [List.head?_cons, List.tail_cons, Option.bind_eq_bind, Option.bind_some] at hx
  cases ha : parseElems [1] t with
  | none => simp [ha] at hx
  | some a =>
    simp only [ha, Option.bind_some, Option.some.injEq] at hx
    subst hx
    exact ⟨parseLine_of hb ha, rfl⟩

/-- the entries as the parser keeps them -/
def hashOf (t : List (Int × Asc)) : List (Int × List Ads) := t.map fun x => (x.1, x.2.map adsOf)

/-- what the lines of a database are read as -/
theorem parseLog_lines {db : Db} (h : ∀ e ∈ db, EntryOk e.1 e.2) (hn : (db.map (·.1)).Nodup) {t : List (Int × Asc)}
    (ht : table db = some t) : parseLog (unlines (db.map (logLine false))) = some (hashOf t) := by
  have main : ∀ {db : Db} {t : List (Int × Asc)}, (∀ e ∈ db, EntryOk e.1 e.2) → table db = some t →
      ∃ es : List (Text × Int × List Ads), (∀ e ∈ es, parseLine e.1 = some e.2) ∧ es.map (·.1) = db.map (logLine false) ∧
        es.map (·.2) = hashOf t ∧ es.map (·.2.1) = db.map (·.1) := by
    intro db
    induction db with
    | nil =>
      intro t _ ht
      cases ht
      exact ⟨[], by simp, rfl, rfl, rfl⟩
    | cons e db ih =>
      intro t h ht
      obtain ⟨x, t', h1, h2, rfl⟩ := table_cons ht
      obtain ⟨es, e1, e2, e3, e4⟩ := ih (fun y hy => h y (by simp [hy])) h2
      obtain ⟨p1, p2⟩ := parseLine_entry (wpr := false) (h e (by simp)) h1
      refine ⟨(logLine false e, x.1, x.2.map adsOf) :: es, ?_, by simp [e2], by simp [e3, hashOf], by simp [e4, p2]⟩
      intro y hy
      rcases List.mem_cons.1 hy with rfl | hy
      · exact p1
      · exact e1 y hy
  obtain ⟨es, e1, e2, e3, e4⟩ := main h ht
  unfold parseLog
  rw [split_lines (ls := db.map (logLine false))]
  · rw [← e2, parse_foldl e1 (by simpa [e4] using hn), e3]
    rfl
  · intro l hl
    obtain ⟨e, -, rfl⟩ := List.mem_map.1 hl
    exact (logLine_nl false e).1
  · intro l hl
    obtain ⟨e, -, rfl⟩ := List.mem_map.1 hl
    exact (logLine_nl false e).2

/-- a line without two opening brackets ends the script -/
theorem parseLog_raises {ls : List Text} (h : ∀ l ∈ ls, '\n' ∉ l) (hne : ∀ l ∈ ls, l ≠ []) {l : Text} (hl : l ∈ ls)
    (hr : parseLine l = none) : parseLog (unlines ls) = none := by
  unfold parseLog
  rw [split_lines h hne]
  generalize ([] : List (Int × List Ads)) = acc
  clear h hne
  induction ls generalizing acc with
  | nil => simp at hl
  | cons m ls ih =>
    rw [List.foldlM_cons]
    rcases List.mem_cons.1 hl with rfl | hl
    · rw [hr]
      rfl
    · cases hm : parseLine m with
      | none => rfl
      | some x => exact ih hl _

theorem parse_gap : parseLine gapLine = none := by decide

theorem parse_warn : parseLine warnLine = none := by decide

end Parm.ChainText
