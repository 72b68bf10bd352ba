import Verif.Model.Misc

/-!
# Logging: properties C48 and C52
-/

namespace Parm

/-! ### C48 -/

/-- nesting depth of the measured blocks -/
def Measured.depth : Measured → Nat
  | .skip => 0
  | .seq a b => max a.depth b.depth
  | .block b => b.depth + 1
  | .exit => 0

/-- **C48.** If the end is reached: the level is restored as long as the nesting stays within the range
of the level; otherwise it ends at what is left of the range. -/
theorem C48_level (m : Measured) {l l' : Nat} (hl : l ≤ 255) (h : m.run l = (true, l')) :
    l' = min l (255 - m.depth) := by
  induction m generalizing l l' with
  | skip => injection h with _ h; simp only [Measured.depth]; omega
  | seq a b iha ihb =>
    simp only [Measured.run] at h
    split at h
    · rename_i l1 h1
      have e1 := iha hl h1
      have e2 := ihb (by omega) h
      simp only [Measured.depth]
      omega
    · rename_i h1
      exact absurd h (h1 l')
  | block b ih =>
    simp only [Measured.run] at h
    split at h
    · rename_i l1 h1
      injection h with _ h
      have hi : incLvl l ≤ 255 := by unfold incLvl; split <;> omega
      have e1 := ih hi h1
      simp only [Measured.depth]
      unfold incLvl at e1
      unfold decLvl at h
      split at e1 <;> split at h <;> omega
    · rename_i h1
      exact absurd h (h1 l')
  | exit => injection h with h _; cases h

theorem C48_restored (m : Measured) {l l' : Nat} (hl : l + m.depth ≤ 255) (h : m.run l = (true, l')) : l' = l := by
  have := C48_level m (by omega) h
  omega

/-- … so the outermost level, 0, is always restored. -/
theorem C48_outermost (m : Measured) {l' : Nat} (h : m.run 0 = (true, l')) : l' = 0 := by
  have := C48_level m (by omega) h
  omega

/-- `n` nested blocks -/
def Measured.nest : Nat → Measured
  | 0 => .skip
  | n + 1 => .block (nest n)

theorem Measured.nest_depth (n : Nat) : (nest n).depth = n := by
  induction n with
  | zero => rfl
  | succ n ih => rw [nest, Measured.depth, ih]

/-- The bound is sharp: nesting any deeper does not restore the level (unless it is 0). -/
theorem C48_saturates {n l l' : Nat} (h0 : 0 < l) (hl : l ≤ 255) (hn : 255 < l + n)
    (h : (Measured.nest n).run l = (true, l')) : l' < l := by
  have := C48_level _ hl h
  rw [Measured.nest_depth] at this
  omega

/-- open blocks at the early exit -/
def Measured.exitDepth : Measured → Nat → Nat
  | .skip, _ => 0
  | .seq a b, l => match a.run l with
    | (true, l') => b.exitDepth l'
    | _ => a.exitDepth l
  | .block b, l => b.exitDepth (incLvl l) + 1
  | .exit, _ => 0

/-- **C48**, early exits: the blocks left early never give their level back. -/
theorem C48_early_exit (m : Measured) {l l' : Nat} (hl : l + m.depth ≤ 255) (h : m.run l = (false, l')) :
    l' = l + m.exitDepth l := by
  induction m generalizing l l' with
  | skip => injection h with h _; cases h
  | seq a b iha ihb =>
    simp only [Measured.depth] at hl
    simp only [Measured.run] at h
    simp only [Measured.exitDepth]
    cases h1 : a.run l with
    | mk ok l1 =>
      rw [h1] at h
      cases ok with
      | true =>
        have e1 := C48_restored a (by omega) h1
        subst e1
        exact ihb (by omega) h
      | false =>
        simp only at h
        injection h with _ e
        subst e
        exact iha (by omega) h1
  | block b ih =>
    simp only [Measured.depth] at hl
    have hi : incLvl l = l + 1 := by unfold incLvl; rw [if_pos (by omega)]
    simp only [Measured.run, hi] at h
    simp only [Measured.exitDepth, hi]
    cases h1 : b.run (l + 1) with
    | mk ok l1 =>
      rw [h1] at h
      cases ok with
      | true => simp only at h; injection h with h _; cases h
      | false =>
        simp only at h
        injection h with _ e
        subst e
        have := ih (by omega) h1
        omega
  | exit => injection h with _ h; simp only [Measured.exitDepth]; omega

/-- The constructor restores the level if it succeeds in generating, and raises it by one for good
if the export or the loading of the keys fails. -/
theorem C48_constructor {l : Nat} (hl : l < 255) :
    newKeysMeasured.run l = (true, l) ∧ exportFailsMeasured.run l = (false, l + 1) ∧
    loadFailsMeasured.run l = (false, l + 1) := by
  have h1 : incLvl l = l + 1 := by unfold incLvl; rw [if_pos hl]
  have h2 : decLvl (l + 1) = l := by unfold decLvl; rw [if_pos (by omega)]; omega
  simp only [newKeysMeasured, exportFailsMeasured, loadFailsMeasured, Measured.run, h1, h2, and_self]

example : (Measured.seq (.block (.block .skip)) (.block .exit)).run 3 = (false, 4) := by decide

/-! ### C52 -/

/-- the log file holding exactly these lines -/
def logText : List String → String
  | [] => ""
  | l :: ls => (l ++ "\n") ++ logText ls

theorem logAll_inited (msgs : List String) (c : String) :
    logAll msgs ⟨true, some c⟩ = some ⟨true, some (c ++ logText msgs)⟩ := by
  induction msgs generalizing c with
  | nil => simp [logAll, logText]
  | cons m ms ih =>
    simp only [logAll, logPlain, if_true, Option.map_some, Option.bind_some]
    rw [ih]
    simp [logText, String.append_assoc]

/-- **C52.** Whatever was in the log file before: after logging (at least one line) it holds exactly
the lines logged by this process, in order. -/
theorem C52_log (old : Option String) (msgs : List String) (h : msgs ≠ []) :
    logAll msgs ⟨false, old⟩ = some ⟨true, some (logText msgs)⟩ := by
  match msgs, h with
  | m :: ms, _ =>
    simp only [logAll, logPlain, Bool.false_eq_true, if_false, Option.bind_some]
    rw [logAll_inited]
    simp [logText]

/-- As long as nothing is logged the old file stays. -/
theorem C52_untouched (old : Option String) : logAll [] ⟨false, old⟩ = some ⟨false, old⟩ := rfl

/-- **C52**, the proviso: if the file is removed meanwhile, the next call panics. -/
theorem C52_removed (msgs : List String) (h : msgs ≠ []) : logAll msgs ⟨true, none⟩ = none := by
  match msgs, h with
  | m :: ms, _ => rfl

theorem write_at_end (m : String) :
    String.ofList (List.take m.length m.toList) ++ ("\n" ++ String.ofList (List.drop (m.length + "\n".length) m.toList)) =
      m ++ "\n" := by
  have h1 : List.take m.length m.toList = m.toList := List.take_of_length_le (by rw [String.length_toList]; exact Nat.le_refl _)
  have h2 : List.drop (m.length + "\n".length) m.toList = [] := List.drop_eq_nil_of_le (by rw [String.length_toList]; omega)
  rw [h1, h2]
  simp

/-- The steps are those of one call: a thread alone has the effect of `logPlain`. -/
theorem C52_steps (msg : String) (msgs : Nat → String) (hm : msgs 0 = msg) (i : Bool) (n : Nat) (f : Option String)
    (ph : Nat → LogPhase) (h : ph 0 = .start) :
    let s := LogSys.run msgs (List.replicate 7 0) ⟨i, n, f, ph⟩
    match logPlain msg ⟨i, f⟩ with
    | some r => s.inited = r.inited ∧ s.file = r.file ∧ s.phase 0 = .done
    | none => s.phase 0 = .panicked := by
  subst hm
  cases i <;> cases f <;>
    simp [LogSys.run, LogSys.step, LogSys.put, List.replicate, logPlain, h, String.append_assoc, write_at_end]

/-- a write of a thread: its message, then the line break -/
abbrev LogWrite := Nat × Bool

/-- the text of a sequence of writes -/
def writtenText (msgs : Nat → String) : List LogWrite → String
  | [] => ""
  | e :: es => (if e.2 then "\n" else msgs e.1) ++ writtenText msgs es

theorem writtenText_append (msgs : Nat → String) (l m : List LogWrite) :
    writtenText msgs (l ++ m) = writtenText msgs l ++ writtenText msgs m := by
  induction l with
  | nil => simp [writtenText]
  | cons e l ih => simp [writtenText, ih, String.append_assoc]

/-- the writes of thread `t` so far -/
def LogPhase.writes (t : Nat) : LogPhase → List LogWrite
  | .newline _ _ => [(t, false)]
  | .done => [(t, false), (t, true)]
  | _ => []

/-- a thread which found the log initialised -/
def LogPhase.Appending (age : Nat) : LogPhase → Prop
  | .start | .append | .done => True
  | .write a o | .newline a o => a = age ∧ o = none
  | _ => False

/-- **C52**, several threads: once the first line is in the file, any number of threads may log at any time, and whatever
the interleaving nothing is lost, overwritten or refused: the file is the old text followed by the writes of the threads,
each thread's message before its line break. -/
theorem C52_threads (msgs : Nat → String) (sched : List Nat) (age : Nat) (c : String) :
    let s := LogSys.run msgs sched ⟨true, age, some c, fun _ => .start⟩
    ∃ ws : List LogWrite, s.file = some (c ++ writtenText msgs ws) ∧
      ∀ t, s.phase t ≠ .panicked ∧ ws.filter (·.1 = t) = (s.phase t).writes t := by
  suffices H : ∀ (sched : List Nat) (s : LogSys) (ws : List LogWrite), s.inited = true → s.age = age →
      s.file = some (c ++ writtenText msgs ws) →
      (∀ t, (s.phase t).Appending age ∧ ws.filter (·.1 = t) = (s.phase t).writes t) →
      ∃ ws : List LogWrite, (LogSys.run msgs sched s).file = some (c ++ writtenText msgs ws) ∧
        ∀ t, ((LogSys.run msgs sched s).phase t).Appending age ∧
          ws.filter (·.1 = t) = ((LogSys.run msgs sched s).phase t).writes t by
    obtain ⟨ws, h1, h2⟩ := H sched ⟨true, age, some c, fun _ => .start⟩ [] rfl rfl (by simp [writtenText])
      (fun t => ⟨trivial, rfl⟩)
    refine ⟨ws, h1, fun t => ⟨fun hp => ?_, (h2 t).2⟩⟩
    have := (h2 t).1
    rw [hp] at this
    exact this
  intro sched
  induction sched with
  | nil => exact fun s ws _ _ hf hp => ⟨ws, hf, hp⟩
  | cons t ts ih =>
    intro s ws hi ha hf hp
    rw [LogSys.run]
    have old : ∀ {p : LogPhase} {u : Nat} (_ : p.Appending age) (ws' : List LogWrite)
        (_ : ws'.filter (·.1 = t) = p.writes t) (_ : u ≠ t → ws'.filter (·.1 = u) = ws.filter (·.1 = u)),
        (if u = t then p else s.phase u).Appending age ∧
          ws'.filter (·.1 = u) = (if u = t then p else s.phase u).writes u := by
      intro p u h1 ws' h2 h3
      by_cases hu : u = t
      · subst hu; rw [if_pos rfl]; exact ⟨h1, h2⟩
      · rw [if_neg hu, h3 hu]; exact hp u
    obtain ⟨pa, pw⟩ := hp t
    unfold LogSys.step
    split
    · rename_i e; rw [e] at pa pw
      rw [if_pos hi]
      exact ih _ ws hi ha hf fun u => old (p := .append) trivial ws pw fun _ => rfl
    · rename_i e; rw [e] at pa pw
      rw [if_pos (by rw [hf]; rfl)]
      exact ih _ ws hi ha hf fun u => old (p := .write s.age none) ⟨ha, rfl⟩ ws pw fun _ => rfl
    · rename_i e; rw [e] at pa; exact pa.elim
    · rename_i e; rw [e] at pa; exact pa.elim
    · rename_i e; rw [e] at pa; exact pa.elim
    · rename_i e; rw [e] at pa; exact pa.elim
    · rename_i g o e; rw [e] at pa pw
      obtain ⟨rfl, rfl⟩ := pa
      have hput : s.put g none (msgs t) = { s with file := some (c ++ writtenText msgs (ws ++ [(t, false)])) } := by
        unfold LogSys.put
        rw [if_pos ⟨ha.symm, by rw [hf]; rfl⟩, hf]
        simp [writtenText_append, writtenText, String.append_assoc]
      rw [hput]
      refine ih _ (ws ++ [(t, false)]) hi ha rfl fun u => old (p := .newline g none) ⟨rfl, rfl⟩ _ ?_ fun hu => ?_
      · rw [List.filter_append, pw]; simp [LogPhase.writes]
      · rw [List.filter_append]; simp [Ne.symm hu]
    · rename_i g o e; rw [e] at pa pw
      obtain ⟨rfl, rfl⟩ := pa
      have hput : s.put g none "\n" = { s with file := some (c ++ writtenText msgs (ws ++ [(t, true)])) } := by
        unfold LogSys.put
        rw [if_pos ⟨ha.symm, by rw [hf]; rfl⟩, hf]
        simp [writtenText_append, writtenText, String.append_assoc]
      rw [hput]
      refine ih _ (ws ++ [(t, true)]) hi ha rfl fun u => old (p := .done) trivial _ ?_ fun hu => ?_
      · rw [List.filter_append, pw]; simp [LogPhase.writes]
      · rw [List.filter_append]; simp [Ne.symm hu]
    · exact ih _ ws hi ha hf hp
    · rename_i e; rw [e] at pa; exact pa.elim

/-- … but lines can be torn, since the line break is a write of its own. -/
theorem C52_torn (a b c : String) :
    ∃ sched, let s := LogSys.run (fun t => if t = 0 then a else b) sched ⟨true, 1, some c, fun _ => .start⟩
      s.phase 0 = .done ∧ s.phase 1 = .done ∧ s.file = some (c ++ (a ++ b ++ "\n\n")) := by
  refine ⟨[0, 0, 1, 1, 0, 1, 0, 1], ?_⟩
  simp [LogSys.run, LogSys.step, LogSys.put, String.append_assoc]

/-- **C52** does not extend to several threads logging the first line at the same time: they can lose one of the lines, … -/
theorem C52_race_loses_line (a b : String) :
    ∃ sched, let s := LogSys.run (fun t => if t = 0 then a else b) sched ⟨false, 0, none, fun _ => .start⟩
      s.phase 0 = .done ∧ s.phase 1 = .done ∧ s.file = some (b ++ "\n") := by
  refine ⟨[0, 1, 0, 0, 0, 0, 0, 1, 1, 1, 1, 1, 1], ?_⟩
  simp [LogSys.run, LogSys.step, LogSys.put, String.append_assoc, write_at_end]

/-- … also if both found no file to remove (the second `File::create` truncates), … -/
theorem C52_race_truncates (a b : String) :
    ∃ sched sched', let s := LogSys.run (fun t => if t = 0 then a else b) sched ⟨false, 0, none, fun _ => .start⟩
      s.phase 0 = .mark ∧ s.phase 1 = .mark ∧ s.file = none ∧
      let s' := LogSys.run (fun t => if t = 0 then a else b) sched' s
      s'.phase 0 = .done ∧ s'.phase 1 = .done ∧ s'.file = some (b ++ "\n") := by
  refine ⟨[0, 1, 0, 1], [0, 0, 0, 0, 1, 1, 1, 1], ?_⟩
  simp [LogSys.run, LogSys.step, LogSys.put, String.append_assoc, write_at_end]

/-- … or panic removing the old file, … -/
theorem C52_race_panics (a b old : String) :
    ∃ sched, let s := LogSys.run (fun t => if t = 0 then a else b) sched ⟨false, 0, some old, fun _ => .start⟩
      s.phase 0 = .remove ∧ s.phase 1 = .mark ∧
      (LogSys.run (fun t => if t = 0 then a else b) [0] s).phase 0 = .panicked := by
  refine ⟨[0, 1, 0, 1, 1], ?_⟩
  simp [LogSys.run, LogSys.step]

/-- … or, even if there was none, panic because the flag is set before the file exists. -/
theorem C52_race_early_flag (a b : String) :
    ∃ sched, (LogSys.run (fun t => if t = 0 then a else b) sched ⟨false, 0, none, fun _ => .start⟩).phase 1 = .panicked := by
  refine ⟨[0, 0, 0, 1, 1], ?_⟩
  simp [LogSys.run, LogSys.step]

example : logAll ["x", "y"] ⟨false, some "old"⟩ = some ⟨true, some "x\ny\n"⟩ := by decide

end Parm
