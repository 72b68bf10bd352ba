import Verif.Proof.ChainLog
import Verif.Props.ChainScript

/-!
# From the log of the search to the table in memory: property C82

`variant.rb` prints a log, lines of it are saved as `asc.dat`, `parse-asc_log-to-yaml.rb` turns them into a YAML file, the library
reads that.  The texts in between lose and change nothing — if the separator lines are left out, and if the colons which
`YAML.dump` writes in front of the keys are removed.
-/

namespace Parm
open ChainScript ChainText

/-- the lines the script prints for the numbers it guarantees (up to `2 ^ (limit - 1)`), which is what `asc.dat` holds -/
def ascDat (limit : Nat) (db : Db) : ChainText.Text := unlines ((guaranteed limit db).map (logLine false))

theorem guaranteed_mem {limit : Nat} {db : Db} {e : Int × List AsChain} :
    e ∈ guaranteed limit db ↔ e ∈ db ∧ e.1 ≤ 2 ^ (limit - 1) := by
  unfold guaranteed
  rw [List.mem_filter, sorted_mem]
  simp

/-- **C82.** If no odd number below the limit is missing, the log of the search starts with exactly these lines, and the next line
is a separator. -/
theorem C82_log {limit n : Nat} {chains : List (List AsChain)} {db : Db} (h : run limit n = some (chains, db))
    (hall : ∀ v : Int, 0 < v → v % 2 = 1 → v ≤ 2 ^ (limit - 1) → ∃ cs, (v, cs) ∈ db) :
    ∃ rest, logLines limit db = (guaranteed limit db).map (logLine false) ++ rest ∧
      ∀ l, rest.head? = some l → l = "----".toList ∨ l = "====    no guarantee    ====".toList := by
  have hdb := (run_ok n h).db
  refine log_prefix ⟨sorted_keys hdb.1, fun e he => ?_⟩ (by decide) fun u hu h1 h2 => ?_
  · obtain ⟨v, cs⟩ := e
    have := C73_chains h (sorted_mem.1 he)
    exact ⟨by have := this.1; omega, this.2.1⟩
  · obtain ⟨cs, hcs⟩ := hall u (by omega) hu h2
    exact List.mem_map.2 ⟨(u, cs), sorted_mem.2 hcs, rfl⟩

/-- **C82.** The whole log, in contrast, is never readable: after one round or more it has a line "no guarantee", on which the
parser raises. -/
theorem C82_whole {limit n : Nat} (hlim : 2 ≤ limit) {chains : List (List AsChain)} {db : Db}
    (h : run limit (n + 1) = some (chains, db)) : parseLog (unlines (logLines limit db)) = none := by
  refine parseLog_raises (fun l hl => (logLoop_nl l hl).1) (fun l hl => (logLoop_nl l hl).2) ?_ parse_warn
  obtain ⟨e, he, hv⟩ := List.mem_map.1 (run_power hlim n h)
  exact warn_mem ⟨e, sorted_mem.2 he, by omega⟩

/-- **C82.** Nor is a part of the log with a line for a missing number: such a line is printed as soon as an odd number is missing
below one that is found, … -/
theorem C82_gap {limit n : Nat} {chains : List (List AsChain)} {db : Db} (h : run limit n = some (chains, db)) {u w : Int}
    (hu : 0 < u) (hu2 : u % 2 = 1) (hn : ∀ cs, (u, cs) ∉ db) (huw : u < w) {cs : List AsChain} (hw : (w, cs) ∈ db) :
    "----".toList ∈ logLines limit db := by
  have hdb := (run_ok n h).db
  refine gap_mem ⟨sorted_keys hdb.1, fun e he => ?_⟩ (by decide) hu2 (by omega) (fun hm => ?_) ⟨(w, cs), sorted_mem.2 hw, huw⟩
  · obtain ⟨v, cs⟩ := e
    have := C73_chains h (sorted_mem.1 he)
    exact ⟨by have := this.1; omega, this.2.1⟩
  · obtain ⟨e, he, rfl⟩ := List.mem_map.1 hm
    exact hn e.2 (sorted_mem.1 he)

/-- **C82.** … and the parser raises on it. -/
theorem C82_gap_raises {ls : List ChainText.Text} (h : ∀ l ∈ ls, '\n' ∉ l ∧ l ≠ [])
    (hl : "----".toList ∈ ls ∨ "====    no guarantee    ====".toList ∈ ls) : parseLog (unlines ls) = none := by
  rcases hl with hl | hl
  · exact parseLog_raises (fun l hl => (h l hl).1) (fun l hl => (h l hl).2) hl parse_gap
  · exact parseLog_raises (fun l hl => (h l hl).1) (fun l hl => (h l hl).2) hl parse_warn

/-- **C82.** The lines after the warning would be read without complaint, but all as chains of the number 0. -/
theorem C82_warned {limit n : Nat} {chains : List (List AsChain)} {db : Db} (h : run limit n = some (chains, db))
    {v : Int} {cs : List AsChain} (he : (v, cs) ∈ db) : ∃ a : Asc, chainValue a = some v ∧
      parseLine (logLine false (v, cs)) = some (v, a.map adsOf) ∧ parseLine (logLine true (v, cs)) = some (0, a.map adsOf) := by
  have hok := (run_ok n h).db.2 _ he
  obtain ⟨a, a1, a2, -⟩ := entry_ok hok
  exact ⟨a, a2, (parseLine_entry hok a1).1, (parseLine_entry hok a1).1⟩

/-- **C82.** The file: whatever the table (keys and numbers of 64 bits, no key twice), the text written for it — with plain
keys — is read back as the same table, sorted. -/
theorem C82_roundtrip {t : List (Nat × Asc)} (hs : ∀ x ∈ t, x.1 < 2 ^ 64 ∧ Small x.2) (hn : (t.map (·.1)).Nodup) :
    ∃ m, readFile (dump false (t.map fun x => ((x.1 : Int), x.2.map adsOf))) = some (.parsed m) ∧ m.Perm t ∧ Ascending m := by
  refine ⟨_, readFile_plain hs, ?_⟩
  have ins : ∀ {k : Nat} {a : Asc} {m : List (Nat × Asc)}, Ascending m → k ∉ m.map (·.1) →
      (binsert k a m).Perm ((k, a) :: m) ∧ Ascending (binsert k a m) := by
    intro k a m
    induction m with
    | nil => exact fun _ _ => ⟨.refl _, by simp [binsert, Ascending]⟩
    | cons x m ih =>
      intro hm hk
      have hm' := hm
      unfold Ascending at hm
      rw [List.map_cons, List.pairwise_cons] at hm
      simp only [List.map_cons, List.mem_cons, not_or] at hk
      unfold binsert
      by_cases h1 : k < x.1
      · rw [if_pos h1]
        refine ⟨.refl _, ?_⟩
        unfold Ascending
        rw [List.map_cons, List.pairwise_cons]
        refine ⟨fun y hy => ?_, hm'⟩
        rw [List.map_cons, List.mem_cons] at hy
        rcases hy with rfl | hy
        · exact h1
        · exact lt_trans h1 (hm.1 y hy)
      · rw [if_neg h1, if_neg hk.1]
        obtain ⟨p1, p2⟩ := ih hm.2 hk.2
        refine ⟨(p1.cons x).trans (.swap _ _ _), ?_⟩
        unfold Ascending
        rw [List.map_cons, List.pairwise_cons]
        refine ⟨fun y hy => ?_, p2⟩
        have := (p1.map (·.1)).mem_iff.1 hy
        rw [List.map_cons, List.mem_cons] at this
        rcases this with rfl | hy
        · have := hk.1
          omega
        · exact hm.1 y hy
  have go : ∀ {t m : List (Nat × Asc)}, Ascending m → (m.map (·.1) ++ t.map (·.1)).Nodup →
      (t.foldl (fun m x => binsert x.1 x.2 m) m).Perm (m ++ t) ∧ Ascending (t.foldl (fun m x => binsert x.1 x.2 m) m) := by
    intro t
    induction t with
    | nil => exact fun {m} hm _ => ⟨by simp, hm⟩
    | cons x t ih =>
      intro m hm hn
      have hx : x.1 ∉ m.map (·.1) := by
        intro h
        rw [List.map_cons, List.nodup_append] at hn
        exact hn.2.2 _ h _ (by simp) rfl
      obtain ⟨p1, p2⟩ := ins (a := x.2) hm hx
      have hn' : ((binsert x.1 x.2 m).map (·.1) ++ t.map (·.1)).Nodup := by
        refine (((p1.map (·.1)).append_right (t.map (·.1))).nodup_iff).2 ?_
        refine (List.perm_middle (a := x.1) (l₁ := m.map (·.1)) (l₂ := t.map (·.1))).nodup_iff.1 ?_
        simpa using hn
      obtain ⟨q1, q2⟩ := ih p2 hn'
      refine ⟨?_, q2⟩
      rw [List.foldl_cons]
      exact q1.trans ((p1.append_right t).trans (List.perm_middle (a := x) (l₁ := m) (l₂ := t)).symm)
  obtain ⟨g1, g2⟩ := go (t := t) (m := []) (by simp [Ascending]) (by simpa using hn)
  exact ⟨by simpa using g1, g2⟩

/-- **C82.** As the script writes it — its keys are symbols, which get a colon in front — no table with an addition is readable
by the library. -/
theorem C82_symbols {t : List (Nat × Asc)} (h : ∃ x ∈ t, x.2 ≠ []) :
    readFile (dump true (t.map fun x => ((x.1 : Int), x.2.map adsOf))) = some .unreadable := readFile_sym h

/-- **C82.** From the search to memory: the lines of the guaranteed numbers are read as a hash; written with plain keys and read
by the library it is, in ascending order, a chain for every number that was found up to the limit, and only for these: the
first one of the database, with the value of its key. -/
theorem C82_load {limit n : Nat} (hlim : limit ≤ 64) (hn : n + 2 < 2 ^ 64) {chains : List (List AsChain)} {db : Db}
    (h : run limit n = some (chains, db)) :
    ∃ t m, parseLog (ascDat limit db) = some t ∧ readFile (dump false t) = some (.parsed m) ∧ Ascending m ∧
      (∀ v : Nat, (∃ a, (v, a) ∈ m) ↔ (v : Int) ≤ 2 ^ (limit - 1) ∧ ∃ cs, ((v : Int), cs) ∈ db) ∧
      ∀ v a, (v, a) ∈ m → chainValue a = some (v : Int) ∧ ∃ c cs, ((v : Int), c :: cs) ∈ db ∧ c.length = a.length + 1 := by
  have hdb := (run_ok n h).db
  have hbd := (run_bounded n h).2
  have hg : ∀ e ∈ guaranteed limit db, EntryOk e.1 e.2 := fun e he => hdb.2 e (guaranteed_mem.1 he).1
  have hkeys : ((guaranteed limit db).map (·.1)).Pairwise (· < ·) :=
    (sorted_keys hdb.1).sublist (List.filter_sublist.map _)
  -- the table of the guaranteed entries
  have main : ∀ l : Db, (∀ e ∈ l, e ∈ db ∧ e.1 ≤ 2 ^ (limit - 1)) → ∃ m : List (Nat × Asc),
      table l = some (m.map fun x => ((x.1 : Int), x.2)) ∧ m.map (fun x => (x.1 : Int)) = l.map (·.1) ∧
      ∀ v a, (v, a) ∈ m → (v < 2 ^ 64 ∧ Small a) ∧ chainValue a = some (v : Int) ∧
        ∃ c cs, ((v : Int), c :: cs) ∈ l ∧ c.length = a.length + 1 := by
    intro l
    induction l with
    | nil => exact fun _ => ⟨[], rfl, rfl, by simp⟩
    | cons e l ih =>
      intro hl
      obtain ⟨m, m1, m2, m3⟩ := ih fun x hx => hl x (by simp [hx])
      obtain ⟨v, cs⟩ := e
      have hok := hdb.2 _ (hl (v, cs) (by simp)).1
      obtain ⟨a, a1, a2, -, a4⟩ := entry_ok hok
      obtain ⟨os, cs', rfl, hb⟩ := entry_good hok
      have hpos : 0 < v := (C73_chains h (hl _ (List.mem_cons_self ..)).1).1
      obtain ⟨k, rfl⟩ : ∃ k : Nat, v = k := ⟨v.natAbs, by omega⟩
      have hk : k < 2 ^ 64 := by
        have h1 : (k : Int) ≤ 2 ^ (limit - 1) := (hl _ (List.mem_cons_self ..)).2
        have h2 : k ≤ 2 ^ (limit - 1) := by exact_mod_cast h1
        have h3 : (2 : Nat) ^ (limit - 1) ≤ 2 ^ 63 := Nat.pow_le_pow_right (by decide) (by omega)
        omega
      have hsm : Small a := by
        have hbc := hbd _ (hl _ (List.mem_cons_self ..)).1 (ChainScript.Odd.unit :: os) (by simp)
        have hlen := hbc.1
        rw [List.length_cons] at hlen
        unfold entry at a1
        simp only [List.head?_cons, List.tail_cons, Option.bind_eq_bind, Option.bind_some, Option.bind_eq_some_iff,
          Option.some.injEq, Prod.mk.injEq, true_and] at a1
        obtain ⟨b, b1, rfl⟩ := a1
        intro x hx
        have := parseElems_small (limit := limit) (fun o ho => hbc.2 o (by simp [ho])) b1 x hx
        simp only [List.length_cons, List.length_nil] at this
        omega
      refine ⟨(k, a) :: m, ?_, by simp [m2], ?_⟩
      · unfold table at m1 ⊢
        simp only [List.mapM_cons, a1, m1, Option.bind_eq_bind, Option.bind_some, Option.pure_def, List.map_cons]
      · intro v b hb
        rcases List.mem_cons.1 hb with hb | hb
        · cases hb
          exact ⟨⟨hk, hsm⟩, a2, ChainScript.Odd.unit :: os, cs', by simp, by simpa using a4⟩
        · obtain ⟨b1, b2, c, cs, b3, b4⟩ := m3 v b hb
          exact ⟨b1, b2, c, cs, by simp [b3], b4⟩
  obtain ⟨m, m1, m2, m3⟩ := main (guaranteed limit db) fun e he => guaranteed_mem.1 he
  have hasc : Ascending m := by
    unfold Ascending
    rw [← m2] at hkeys
    rw [List.pairwise_map] at hkeys ⊢
    exact hkeys.imp fun {a b} hab => by exact_mod_cast hab
  have hmem : ∀ v : Nat, (∃ a, (v, a) ∈ m) ↔ (v : Int) ≤ 2 ^ (limit - 1) ∧ ∃ cs, ((v : Int), cs) ∈ db := by
    intro v
    have h1 : (∃ a, (v, a) ∈ m) ↔ (v : Int) ∈ m.map (fun x => (x.1 : Int)) := by
      rw [List.mem_map]
      constructor
      · rintro ⟨a, ha⟩
        exact ⟨(v, a), ha, rfl⟩
      · rintro ⟨⟨w, a⟩, ha, hw⟩
        have : w = v := by exact_mod_cast hw
        subst this
        exact ⟨a, ha⟩
    rw [h1, m2, List.mem_map]
    constructor
    · rintro ⟨⟨w, cs⟩, he, rfl⟩
      exact ⟨(guaranteed_mem.1 he).2, cs, (guaranteed_mem.1 he).1⟩
    · rintro ⟨hv, cs, hcs⟩
      exact ⟨((v : Int), cs), guaranteed_mem.2 ⟨hcs, hv⟩, rfl⟩
  have hne : m ≠ [] := by
    obtain ⟨x, hx⟩ : ∃ x, (1, x) ∈ m := (hmem 1).2 ⟨by
      have : (1 : Int) ≤ 2 ^ (limit - 1) := one_le_pow₀ (by decide)
      exact_mod_cast this, by
      obtain ⟨v, hv, hl⟩ := (run_ok n h).rowsVal _ (List.mem_flatten.1 (run_unit n h)).choose_spec.1 _
        (List.mem_flatten.1 (run_unit n h)).choose_spec.2
      have : v = 1 := by
        have e : (vals [ChainScript.Odd.unit]).getLast? = some 1 := rfl
        rw [e] at hl
        cases hl
        rfl
      subst this
      obtain ⟨e, he, e1⟩ := List.mem_map.1 hv
      obtain ⟨w, cs⟩ := e
      cases e1
      exact ⟨cs, he⟩⟩
    exact List.ne_nil_of_mem hx
  have hhash : hashOf (m.map fun x => ((x.1 : Int), x.2)) = m.map fun x => ((x.1 : Int), x.2.map adsOf) := by
    simp [hashOf]
  refine ⟨_, m, parseLog_lines hg (hkeys.imp fun {a b} hab => by omega) m1, ?_, hasc, hmem, fun v a ha => ?_⟩
  · rw [hhash, readFile_plain fun x hx => (m3 x.1 x.2 hx).1, foldl_binsert (by simpa using hasc)]
    rfl
  · obtain ⟨-, a2, c, cs, a3, a4⟩ := m3 v a ha
    exact ⟨a2, c, cs, (guaranteed_mem.1 a3).1, a4⟩

/-- **C82.** The library's check of the number of entries accepts the file exactly if the search missed no odd number below the
limit; `ASC_12` (12 bits) wants a search with `LIMIT_WID = 13`. -/
theorem C82_count {limit n : Nat} (hlim : 2 ≤ limit) (hlim' : limit ≤ 64) (hn : n + 2 < 2 ^ 64) {chains : List (List AsChain)}
    {db : Db} (h : run limit n = some (chains, db)) {t : List (Int × List Ads)} (ht : parseLog (ascDat limit db) = some t)
    {m : List (Nat × Asc)} (hm : readFile (dump false t) = some (.parsed m)) :
    m.length = 2 ^ (limit - 1) / 2 ↔ ∀ v : Nat, v % 2 = 1 → v < 2 ^ (limit - 1) → ∃ cs, ((v : Int), cs) ∈ db := by
  obtain ⟨t', m', e1, e2, hasc, hmem, -⟩ := C82_load hlim' hn h
  rw [ht] at e1
  cases e1
  rw [hm] at e2
  cases e2
  have hnd : (m.map (·.1)).Nodup := hasc.imp fun {a b} hab => by omega
  have heven : (2 : Int) ^ (limit - 1) = 2 * 2 ^ (limit - 2) := by
    rw [← pow_succ']
    congr 1
    omega
  have hodd : ∀ v : Nat, (∃ a, (v, a) ∈ m) → v % 2 = 1 ∧ v < 2 ^ (limit - 1) := by
    intro v hv
    obtain ⟨h1, cs, hcs⟩ := (hmem v).1 hv
    have h2 := (C73_chains h hcs).2.1
    refine ⟨by omega, ?_⟩
    have h3 : (v : Int) < 2 ^ (limit - 1) := by omega
    exact_mod_cast h3
  have key := odds_card (b := limit - 1) (K := (m.map (·.1)).toFinset) (fun k hk => by
    rw [List.mem_toFinset, List.mem_map] at hk
    obtain ⟨x, hx, rfl⟩ := hk
    exact hodd x.1 ⟨x.2, hx⟩) (by omega)
  rw [List.toFinset_card_of_nodup hnd, List.length_map] at key
  rw [key]
  refine forall_congr' fun v => forall_congr' fun hv => forall_congr' fun hv' => ?_
  rw [List.mem_toFinset, List.mem_map]
  constructor
  · rintro ⟨x, hx, rfl⟩
    exact ((hmem x.1).1 ⟨x.2, hx⟩).2
  · intro hcs
    obtain ⟨a, ha⟩ := (hmem v).2 ⟨by
      have : (v : Int) < 2 ^ (limit - 1) := by exact_mod_cast hv'
      omega, hcs⟩
    exact ⟨(v, a), ha, rfl⟩

theorem asc12_small : asc12.all (fun x => decide (x.1 < 2 ^ 64) &&
    x.2.all fun a => decide (a.lIdx < 2 ^ 64) && decide (a.rIdx < 2 ^ 64) && decide (a.rShift < 2 ^ 64)) = true := by
  decide +kernel

/-- **C82.** The shipped table: the text written for it with plain keys (which is `assets/asc-12.yaml` byte by byte, compared by
`tools/check_text.sh`) is read as the table, and accepted. -/
theorem C82_shipped : readFile (dump false (asc12.map fun x => ((x.1 : Int), x.2.map adsOf))) = some (.parsed asc12) ∧
    loadAsc (.parsed asc12) = .ok asc12 := by
  have hasc : Ascending asc12 := by
    unfold Ascending
    rw [asc12_keys, List.pairwise_map]
    exact List.pairwise_lt_range.imp fun {a b} h => by omega
  have hlen : asc12.length = 2048 := by
    have := congrArg List.length asc12_keys
    simpa using this
  have hsm : ∀ x ∈ asc12, x.1 < 2 ^ 64 ∧ Small x.2 := by
    intro x hx
    have h := List.all_eq_true.1 asc12_small x hx
    simp only [Bool.and_eq_true, decide_eq_true_eq, List.all_eq_true] at h
    exact ⟨h.1, fun a ha => ⟨(h.2 a ha).1.1, (h.2 a ha).1.2, (h.2 a ha).2⟩⟩
  refine ⟨?_, ?_⟩
  · rw [readFile_plain hsm, foldl_binsert (by simpa using hasc)]
    rfl
  · show (if asc12.length ≠ 2 ^ ascBitlen / 2 then Except.error ErrKind.ascCount else Except.ok asc12) = _
    rw [if_neg (by rw [hlen]; decide)]

/-! ### Cases -/

/-- The sixth line of `limit-13_v4.log`, as printed and as read. -/
def line11 : Int × List AsChain :=
  (11, [[ChainScript.Odd.unit, Odd.make true .unit true .unit 1, Odd.make false .unit true (Odd.make true .unit true .unit 1) 2]])

example : logLine false line11 = "   11 /2/ [◖ 1 ◗, ◖ 3 =  1 + 1·2^1 ◗, ◖ 11 = -1 + 3·2^2 ◗]".toList := by decide +kernel

example : parseLine (logLine false line11) =
    some (11, [⟨true, some 0, true, some 0, 1⟩, ⟨false, some 0, true, some 1, 2⟩]) := by decide +kernel

/-- The first lines of `assets/asc-12.yaml`. -/
example : dump false (hashOf [(1, []), (3, [⟨true, 0, true, 0, 1⟩])]) =
    "---\n1: []\n3:\n- l_pos: true\n  l_idx: 0\n  r_pos: true\n  r_idx: 0\n  r_shift: 1\n".toList := by decide +kernel

/-- A search with all odd numbers up to the limit of 4 bits; one round suffices. -/
theorem run41 : ∃ chains db, run 4 1 = some (chains, db) ∧ db.map (·.1) = [1, 3, 5, 9, 7] := by
  have h : ((run 4 1).map fun s => s.2.map (·.1)) = some [1, 3, 5, 9, 7] := by decide +kernel
  cases hr : run 4 1 with
  | none => simp [hr] at h
  | some s =>
    rw [hr] at h
    exact ⟨s.1, s.2, rfl, by simpa using h⟩

/-- It meets the hypotheses of `C82_log`, `C82_whole`, `C82_load` and `C82_count`: the file it gives has four entries and is
accepted for 3 bits, the log as a whole is not readable. -/
example : ∃ chains db t m, run 4 1 = some (chains, db) ∧ parseLog (ascDat 4 db) = some t ∧
    readFile (dump false t) = some (.parsed m) ∧ m.length = 4 ∧ parseLog (unlines (logLines 4 db)) = none := by
  obtain ⟨chains, db, hr, hk⟩ := run41
  obtain ⟨t, m, h1, h2, -⟩ := C82_load (limit := 4) (n := 1) (by decide) (by norm_num) hr
  refine ⟨chains, db, t, m, hr, h1, h2, ?_, C82_whole (n := 0) (by decide) hr⟩
  refine (C82_count (limit := 4) (n := 1) (by decide) (by decide) (by norm_num) hr h1 h2).2 fun v hv hv' => ?_
  have hv' : v < 8 := hv'
  have : (v : Int) ∈ db.map (·.1) := by
    rw [hk]
    have : v = 1 ∨ v = 3 ∨ v = 5 ∨ v = 7 := by omega
    rcases this with rfl | rfl | rfl | rfl <;> decide
  obtain ⟨e, he, hev⟩ := List.mem_map.1 this
  exact ⟨e.2, by rw [← hev]; exact he⟩

/-- A search that misses numbers: with 5 bits, one round does not find 11 but finds 15; so the log has a line `----`. -/
example : ∃ chains db, run 5 1 = some (chains, db) ∧ "----".toList ∈ logLines 5 db := by
  have h : ((run 5 1).map fun s => s.2.map (·.1)) = some [1, 3, 5, 9, 7, 17, 15] := by decide +kernel
  cases hr : run 5 1 with
  | none => simp [hr] at h
  | some s =>
    rw [hr] at h
    have h : s.2.map (·.1) = [1, 3, 5, 9, 7, 17, 15] := by simpa using h
    refine ⟨s.1, s.2, rfl, ?_⟩
    obtain ⟨e, he, hev⟩ : ∃ e ∈ s.2, e.1 = 15 := List.mem_map.1 (by rw [h]; decide)
    refine C82_gap hr (u := 11) (w := 15) (cs := e.2) (by decide) (by decide) (fun cs hcs => ?_) (by decide) (hev ▸ he)
    have : (11 : Int) ∈ s.2.map (·.1) := List.mem_map.2 ⟨_, hcs, rfl⟩
    rw [h] at this
    exact absurd this (by decide)

end Parm
