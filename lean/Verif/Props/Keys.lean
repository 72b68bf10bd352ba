import Verif.Proof.Keys
import Std.Data.String.ToNat
import Mathlib.Tactic.Common

/-!
# The key store: properties C40–C43, C51, C53
-/

namespace Parm

variable {K : Type} {C : Codec K} {cfg : Nat → FullParams × K}

/-- The call has not started, has returned, or has crashed. -/
def Phase.idle : Phase K → Prop
  | .start => True
  | .done _ => True
  | .crashed => True
  | _ => False

/-- No call for this key file is in progress. -/
def Quiet (cfg : Nat → FullParams × K) (f : String) (s : Sys K) : Prop :=
  ∀ j, fileName (cfg j).1 = f → (s.phase j).idle

theorem Quiet.inv {f : String} {k : K} {c : List UInt8} {s : Sys K} (hq : Quiet cfg f s)
    (hf : s.disk.file f = some c) (hc : c <+: C.enc k) :
    StoreInv C cfg f k none False (fun j => s.phase j = .start) c s where
  file := hf
  pre := hc
  procs j hj := by
    have h := hq j hj
    cases hp : s.phase j with
    | start => exact Or.inr (Or.inl ⟨by simp, rfl, trivial⟩)
    | done r => exact Or.inr (Or.inr ⟨by simp, trivial⟩)
    | crashed => exact Or.inr (Or.inr ⟨by simp, trivial⟩)
    | _ => rw [hp] at h; exact absurd h id

/-! ### C40 -/

/-- **C40.** Below the minimal weight a call returns `Err`, whatever happens, and never touches
the disk. -/
theorem C40_below {s s' : Sys K} {es : List (Nat × Act)} {i : Nat}
    (hq : (cfg i).1.params.quadWeight < 22) (h0 : s.phase i = .start) (hr : sysRun C cfg s es = some s') :
    (s'.phase i = .start ∨ s'.phase i = .done none ∨ s'.phase i = .crashed) ∧
    ∀ a s'', sysStep C cfg s' (i, a) = some s'' → s''.disk = s'.disk := by
  have key : s'.phase i = .start ∨ s'.phase i = .done none ∨ s'.phase i = .crashed := by
    refine sysRun_induct (P := fun s' => s'.phase i = .start ∨ s'.phase i = .done none ∨ s'.phase i = .crashed)
      (Or.inl h0) ?_ hr
    rintro s1 ⟨j, a⟩ s2 _ h hst
    obtain ⟨d, ph, h1, rfl, rfl, h3⟩ := sysStep_some hst
    by_cases hj : i = j
    · subst hj
      dsimp only at h1 h3
      rcases h with h | h | h <;> rw [h] at h1
      · cases a <;> simp only [stepProc, if_pos (show (cfg i).1.params.quadWeight < minQuadWeight from hq)] at h1
        case tick => injection h1 with h1; injection h1 with _ e; exact Or.inr (Or.inl e.symm)
        case crash => injection h1 with h1; injection h1 with _ e; exact Or.inr (Or.inr e.symm)
        all_goals cases h1
      · simp only [stepProc] at h1; cases h1
      · simp only [stepProc] at h1; cases h1
    · rw [h3 i hj]; exact h
  refine ⟨key, fun a s'' hst => ?_⟩
  obtain ⟨d, ph, h1, rfl, rfl, h3⟩ := sysStep_some hst
  dsimp only at h1
  rcases key with h | h | h <;> rw [h] at h1
  · cases a <;> simp only [stepProc] at h1
    case tick => injection h1 with h1; injection h1 with e _; exact e.symm
    case crash => injection h1 with h1; injection h1 with e _; exact e.symm
    all_goals cases h1
  · simp only [stepProc] at h1; cases h1
  · simp only [stepProc] at h1; cases h1

/-- … so a call that returns `Ok` has at least the minimal weight. -/
theorem C40_above {s s' : Sys K} {es : List (Nat × Act)} {i : Nat} {k : K}
    (h0 : s.phase i = .start) (hr : sysRun C cfg s es = some s') (h : s'.phase i = .done (some k)) :
    22 ≤ (cfg i).1.params.quadWeight := by
  by_contra hlt
  rcases (C40_below (Nat.lt_of_not_le hlt) h0 hr).1 with h' | h' | h' <;> rw [h] at h' <;> cases h'

/-! ### C41 -/

/-- **C41**, the first call: if nobody else works on this file and no system call fails, the
call, if it returns, returns the generated keys, and the file holds them. -/
theorem C41_first {d : Disk} {es : List (Nat × Act)} {s : Sys K} {w : Nat} {r : Option K}
    (hq : 22 ≤ (cfg w).1.params.quadWeight) (hd : d.file (fileName (cfg w).1) = none)
    (hw : ∀ e ∈ es, fileName (cfg e.1).1 = fileName (cfg w).1 → e.1 = w) (hio : (w, Act.ioErr) ∉ es)
    (hr : sysRun C cfg (Sys.fresh d) es = some s) (h : s.phase w = .done r) :
    r = some (cfg w).2 ∧ s.disk.file (fileName (cfg w).1) = some (C.enc (cfg w).2) := by
  have h0 : FirstInv C cfg w True (Sys.fresh d) := Or.inl ⟨hd, trivial⟩
  rcases h0.run (fun _ => hq) hw (fun _ => hio) hr with ⟨_, hp⟩ | ⟨c, hf, _, hp⟩
  · rw [h] at hp
    cases r with
    | none => exact absurd trivial hp
    | some k => exact absurd hp id
  · rw [h] at hp
    cases r with
    | none => exact absurd trivial hp
    | some k => exact ⟨by rw [hp.1], by rw [hf, hp.2 trivial]⟩

/-- **C41**, later calls, concurrent or not, with any failures and crashes: the file never changes;
whatever is returned is the stored pair; and it is returned unless a system call of that very
process fails. -/
theorem C41_later (hC : C.Lawful) {f : String} {k : K} {s s' : Sys K} {es : List (Nat × Act)}
    (hf : s.disk.file f = some (C.enc k)) (hq : Quiet cfg f s) (hr : sysRun C cfg s es = some s') :
    s'.disk.file f = some (C.enc k) ∧
    ∀ j, fileName (cfg j).1 = f → s.phase j = .start →
      (∀ k', s'.phase j = .done (some k') → k' = k) ∧
      (22 ≤ (cfg j).1.params.quadWeight → (j, Act.ioErr) ∉ es → s'.phase j ≠ .done none) := by
  have inv := hq.inv (C := C) hf (List.prefix_refl _)
  obtain ⟨c, _, h2, h3⟩ := inv.run hC (fun h => h.elim) hr
  obtain rfl := h3 rfl
  refine ⟨h2.file, fun j hj hs => ⟨fun k' hk => ?_, fun hqw hio hd => ?_⟩⟩
  · rcases h2.procs j hj with ⟨h, _⟩ | ⟨_, _, h⟩ | ⟨h, _⟩
    · cases h
    · rw [hk] at h; exact h.2
    · exact absurd hs h
  · -- the process itself never fails
    have key : StoreInv C cfg f k none False (fun j => s.phase j = .start) (C.enc k) s' ∧ s'.phase j ≠ .done none := by
      refine sysRun_induct (P := fun s' => StoreInv C cfg f k none False (fun j => s.phase j = .start) (C.enc k) s' ∧
        s'.phase j ≠ .done none) ⟨inv, by rw [hs]; intro h; cases h⟩ ?_ hr
      rintro s1 ⟨i, a⟩ s2 he ⟨hi, hn⟩ hst
      obtain ⟨c', _, g1, g2⟩ := hi.step hC (fun h => h.elim) hst
      obtain rfl := g2 rfl
      refine ⟨g1, ?_⟩
      obtain ⟨d, ph, h1, rfl, rfl, h3⟩ := sysStep_some hst
      dsimp only at h1 h3
      by_cases hji : j = i
      · subst hji
        rcases hi.procs j hj with ⟨h, _⟩ | ⟨_, _, hp⟩ | ⟨h, _⟩
        · cases h
        · have hfile := hi.file
          subst hj
          intro hdone
          rw [hdone] at h1
          cases hph : s1.phase j with
          | start =>
            rw [hph] at h1
            cases a <;> simp only [stepProc, hfile, Option.isSome_some, if_true,
              if_neg (show ¬ (cfg j).1.params.quadWeight < minQuadWeight from Nat.not_lt.2 hqw)] at h1
            case tick => injection h1 with h1; injection h1 with _ e; cases e
            case crash => injection h1 with h1; injection h1 with _ e; cases e
            all_goals cases h1
          | opening =>
            rw [hph] at h1
            cases a <;> simp only [stepProc, hfile, Option.isSome_some, if_true] at h1
            case tick => injection h1 with h1; injection h1 with _ e; cases e
            case crash => injection h1 with h1; injection h1 with _ e; cases e
            case ioErr => exact hio he
            all_goals cases h1
          | reading off acc =>
            rw [hph] at h1 hp
            cases a <;> simp only [stepProc, hfile, Option.getD_some] at h1
            case crash => injection h1 with h1; injection h1 with _ e; cases e
            case ioErr => exact hio he
            case io n =>
              split at h1
              · injection h1 with h1; injection h1 with _ e; cases e
              · cases h1
            case tick =>
              split at h1
              · injection h1 with h1; injection h1 with _ e; cases e
              · rename_i hdec
                split at h1
                · rename_i hl
                  rw [hp.1, List.take_of_length_le hl] at hdec
                  have := hC.dec_enc k []
                  rw [List.append_nil, hdec] at this
                  cases this
                · cases h1
            all_goals cases h1
          | done r => rw [hph] at h1; simp only [stepProc] at h1; cases h1
          | crashed => rw [hph] at h1; simp only [stepProc] at h1; cases h1
          | _ => rw [hph] at hp; exact absurd hp id
        · exact absurd hs h
      · rw [h3 j hji]; exact hn
    exact key.2 hd

/-- **C41** over a history: after the first call has returned, the file and the keys returned by
any later calls (of any number of processes, for any parameters with this file name) are fixed. -/
theorem C41_history (hC : C.Lawful) {d : Disk} {es es' : List (Nat × Act)} {s s' : Sys K} {w : Nat} {k : K}
    (hq : 22 ≤ (cfg w).1.params.quadWeight) (hd : d.file (fileName (cfg w).1) = none)
    (hw : ∀ e ∈ es, fileName (cfg e.1).1 = fileName (cfg w).1 → e.1 = w) (hio : (w, Act.ioErr) ∉ es)
    (hr : sysRun C cfg (Sys.fresh d) es = some s) (h : s.phase w = .done (some k))
    (hr' : sysRun C cfg s es' = some s') :
    k = (cfg w).2 ∧ s'.disk.file (fileName (cfg w).1) = some (C.enc k) ∧
    ∀ j, j ≠ w → fileName (cfg j).1 = fileName (cfg w).1 →
      (∀ k', s'.phase j = .done (some k') → k' = k) ∧
      (22 ≤ (cfg j).1.params.quadWeight → (j, Act.ioErr) ∉ es' → s'.phase j ≠ .done none) := by
  obtain ⟨e, hf⟩ := C41_first hq hd hw hio hr h
  cases e
  have hstart : ∀ j, j ≠ w → fileName (cfg j).1 = fileName (cfg w).1 → s.phase j = .start := by
    intro j hj hn
    refine sysRun_induct (P := fun s => s.phase j = .start) rfl ?_ hr
    intro s1 e s2 he hs hst
    obtain ⟨d, ph, h1, rfl, rfl, h3⟩ := sysStep_some hst
    rw [h3 j ?_]
    · exact hs
    · rintro rfl
      exact hj (hw e he hn)
  have hquiet : Quiet cfg (fileName (cfg w).1) s := by
    intro j hj
    by_cases hjw : j = w
    · subst hjw; rw [h]; trivial
    · rw [hstart j hjw hj]; trivial
  obtain ⟨g1, g2⟩ := C41_later hC hf hquiet hr'
  exact ⟨rfl, g1, fun j hjw hj => g2 j hj (hstart j hjw hj)⟩

theorem procRun_load (hC : C.Lawful) {p : FullParams} {k0 k : K} {d : Disk} (hq : 22 ≤ p.params.quadWeight)
    (hf : d.file (fileName p) = some (C.enc k)) (hne : C.enc k ≠ []) :
    procRun C p k0 d .start [.tick, .tick, .io (C.enc k).length, .tick] = some (d, .done (some k)) := by
  have hdec : C.dec (C.enc k) = some k := by simpa using hC.dec_enc k []
  have hpos : 0 < (C.enc k).length := List.length_pos_iff.2 hne
  simp only [procRun, stepProc, hf, Option.isSome_some, if_true, Option.bind_some,
    if_neg (show ¬ p.params.quadWeight < minQuadWeight from Nat.not_lt.2 hq), Option.getD_some, Nat.zero_add,
    hpos, Nat.le_refl, and_self, List.drop_zero, List.take_length, List.nil_append, hdec]

/-- **C41**, later calls can succeed. -/
theorem C41_load (hC : C.Lawful) {k : K} {s : Sys K} {j : Nat} (hq : 22 ≤ (cfg j).1.params.quadWeight)
    (hf : s.disk.file (fileName (cfg j).1) = some (C.enc k)) (hs : s.phase j = .start) (hne : C.enc k ≠ []) :
    ∃ es s', (∀ e ∈ es, e.1 = j ∧ e.2 ≠ .ioErr) ∧ sysRun C cfg s es = some s' ∧ s'.phase j = .done (some k) := by
  obtain ⟨s', h1, _, h3, _⟩ := procRun_sys (C := C) (cfg := cfg) (i := j) (s := s)
    [.tick, .tick, .io (C.enc k).length, .tick] (by rw [hs]; exact procRun_load hC hq hf hne)
  refine ⟨_, s', ?_, h1, h3⟩
  simp

/-- the export up to the point where `n` bytes have been written -/
theorem procRun_export {p : FullParams} {k : K} {d : Disk} (hq : 22 ≤ p.params.quadWeight)
    (hf : d.file (fileName p) = none) (hne : C.enc k ≠ []) :
    procRun C p k d .start [.tick, .tick, .tick, .tick, .fill (C.enc k).length, .tick] =
      some (({ d with keysDir := true } : Disk).set (fileName p) [], .dropping (some k) 0 (C.enc k)) := by
  have hpos : 0 < (C.enc k).length := List.length_pos_iff.2 hne
  simp only [procRun, stepProc, hf, Option.isSome_none, Bool.false_eq_true, if_false, if_true, Option.bind_some,
    if_neg (show ¬ p.params.quadWeight < minQuadWeight from Nat.not_lt.2 hq),
    hpos, Nat.le_refl, and_self, List.drop_length, List.take_length, List.nil_append]

theorem procRun_append {p : FullParams} {k : K} (as bs : List Act) {d : Disk} {ph : Phase K} :
    procRun C p k d ph (as ++ bs) = (procRun C p k d ph as).bind fun r => procRun C p k r.1 r.2 bs := by
  induction as generalizing d ph with
  | nil => rfl
  | cons a as ih =>
    simp only [List.cons_append, procRun]
    cases stepProc C p k a d ph with
    | none => rfl
    | some r => exact ih

/-- the acts of a complete first call that writes `n` bytes and then either finishes or fails to
write the rest -/
def exportActs (L n : Nat) : List Act :=
  [.tick, .tick, .tick, .tick, .fill L, .tick] ++ (if n = 0 then [] else [.io n]) ++ [if n = L then .tick else .ioErr]

theorem procRun_first {p : FullParams} {k : K} {d : Disk} (hq : 22 ≤ p.params.quadWeight)
    (hf : d.file (fileName p) = none) (hne : C.enc k ≠ []) {n : Nat} (hn : n ≤ (C.enc k).length) :
    ∃ d', procRun C p k d .start (exportActs (C.enc k).length n) = some (d', .done (some k)) ∧
      d'.file (fileName p) = some ((C.enc k).take n) := by
  unfold exportActs
  rw [List.append_assoc, procRun_append, procRun_export hq hf hne, Option.bind_some]
  have hpos : 0 < (C.enc k).length := List.length_pos_iff.2 hne
  have hset := Disk.set_same ({ d with keysDir := true } : Disk) (fileName p) []
  generalize ({ d with keysDir := true } : Disk).set (fileName p) [] = d1 at hset ⊢
  dsimp only
  by_cases h0 : n = 0
  · subst h0
    rw [if_pos rfl, if_neg (by omega)]
    exact ⟨d1, rfl, by rw [hset]; rfl⟩
  · rw [if_neg h0]
    have hw : writeAt [] 0 ((C.enc k).take n) = (C.enc k).take n := by unfold writeAt; simp
    refine ⟨d1.set (fileName p) ((C.enc k).take n), ?_, Disk.set_same _ _ _⟩
    by_cases hl : n = (C.enc k).length
    · rw [if_pos hl]
      simp only [List.cons_append, List.nil_append, procRun, stepProc, hset, Option.getD_some,
        show 0 < n ∧ n ≤ (C.enc k).length from ⟨by omega, hn⟩, if_true, Option.bind_some, hw, and_self]
      rw [if_pos (by rw [hl, List.drop_length]), Option.bind_some]
    · rw [if_neg hl]
      simp only [List.cons_append, List.nil_append, procRun, stepProc, hset, Option.getD_some,
        show 0 < n ∧ n ≤ (C.enc k).length from ⟨by omega, hn⟩, if_true, Option.bind_some, hw, and_self]

/-- **C41**, the first call can succeed. -/
theorem C41_generate {s : Sys K} {j : Nat} (hq : 22 ≤ (cfg j).1.params.quadWeight)
    (hf : s.disk.file (fileName (cfg j).1) = none) (hs : s.phase j = .start) (hne : C.enc (cfg j).2 ≠ []) :
    ∃ es s', (∀ e ∈ es, e.1 = j ∧ e.2 ≠ .ioErr) ∧ sysRun C cfg s es = some s' ∧
      s'.phase j = .done (some (cfg j).2) ∧ s'.disk.file (fileName (cfg j).1) = some (C.enc (cfg j).2) := by
  obtain ⟨d, h1, h2⟩ := procRun_first (C := C) (d := s.disk) hq hf hne (Nat.le_refl _)
  obtain ⟨s', g1, g2, g3, _⟩ := procRun_sys (C := C) (cfg := cfg) (i := j) (s := s) _ (by rw [hs]; exact h1)
  refine ⟨_, s', ?_, g1, g3, by rw [g2, h2, List.take_length]⟩
  have : (C.enc (cfg j).2).length ≠ 0 := by simpa using hne
  simp [exportActs, this]

/-! ### C42 -/

/-- **C42** (partial: the property as stated is false, see `C42_truncated_file_is_permanent`).  At
every point of a first call, whatever has failed or crashed, the file is absent or holds a prefix
of the serialised keys. -/
theorem C42_prefix_partial {d : Disk} {es : List (Nat × Act)} {s : Sys K} {w : Nat}
    (hd : d.file (fileName (cfg w).1) = none)
    (hw : ∀ e ∈ es, fileName (cfg e.1).1 = fileName (cfg w).1 → e.1 = w)
    (hr : sysRun C cfg (Sys.fresh d) es = some s) :
    s.disk.file (fileName (cfg w).1) = none ∨
    ∃ c, s.disk.file (fileName (cfg w).1) = some c ∧ c <+: C.enc (cfg w).2 := by
  have h0 : FirstInv C cfg w False (Sys.fresh d) := Or.inl ⟨hd, trivial⟩
  rcases h0.run (fun h => h.elim) hw (fun h => h.elim) hr with ⟨h, _⟩ | ⟨c, hf, hp, _⟩
  · exact Or.inl h
  · exact Or.inr ⟨c, hf, hp⟩

/-- **C42** (partial).  After a crash that left no file, or the complete file, a later call can succeed;
in the latter case with the keys of the crashed process. -/
theorem C42_recovers_partial (hC : C.Lawful) {s : Sys K} {w j : Nat}
    (hfn : fileName (cfg j).1 = fileName (cfg w).1) (hq : 22 ≤ (cfg j).1.params.quadWeight) (hs : s.phase j = .start)
    (hne : ∀ i, C.enc (cfg i).2 ≠ [])
    (h : s.disk.file (fileName (cfg w).1) = none ∨ s.disk.file (fileName (cfg w).1) = some (C.enc (cfg w).2)) :
    ∃ es s', (∀ e ∈ es, e.1 = j ∧ e.2 ≠ .ioErr) ∧ sysRun C cfg s es = some s' ∧
      (s'.phase j = .done (some (cfg j).2) ∨ s'.phase j = .done (some (cfg w).2)) := by
  rw [← hfn] at h
  rcases h with h | h
  · obtain ⟨es, s', h1, h2, h3, _⟩ := C41_generate hq h hs (hne j)
    exact ⟨es, s', h1, h2, Or.inl h3⟩
  · obtain ⟨es, s', h1, h2, h3⟩ := C41_load hC hq h hs (hne w)
    exact ⟨es, s', h1, h2, Or.inr h3⟩

/-- A truncated file never yields keys — and stays: no later call succeeds, none changes the file. -/
theorem C42_truncated (hC : C.Lawful) {f : String} {k : K} {c : List UInt8} {s s' : Sys K} {es : List (Nat × Act)}
    (hf : s.disk.file f = some c) (hc : c <+: C.enc k) (hne : c ≠ C.enc k) (hq : Quiet cfg f s)
    (hr : sysRun C cfg s es = some s') :
    s'.disk.file f = some c ∧
    ∀ j, fileName (cfg j).1 = f → s.phase j = .start → ∀ k', s'.phase j ≠ .done (some k') := by
  obtain ⟨c', _, h2, h3⟩ := (hq.inv (C := C) hf hc).run hC (fun h => h.elim) hr
  obtain rfl := h3 rfl
  refine ⟨h2.file, fun j hj hs k' hk => ?_⟩
  rcases h2.procs j hj with ⟨h, _⟩ | ⟨_, _, h⟩ | ⟨h, _⟩
  · cases h
  · rw [hk] at h; exact hne h.1
  · exact absurd hs h

/-- **The negation of C42 as stated**: a first call can crash such that no later call for these
parameters ever succeeds, whatever processes do — for every parameter set and every key. -/
theorem C42_truncated_file_is_permanent (hC : C.Lawful) {d : Disk} {w : Nat}
    (hq : 22 ≤ (cfg w).1.params.quadWeight) (hd : d.file (fileName (cfg w).1) = none) (hne : C.enc (cfg w).2 ≠ []) :
    ∃ es s, (∀ e ∈ es, e.1 = w ∧ e.2 ≠ .ioErr) ∧ sysRun C cfg (Sys.fresh d) es = some s ∧ s.phase w = .crashed ∧
      ∀ es' s', sysRun C cfg s es' = some s' → ∀ j, fileName (cfg j).1 = fileName (cfg w).1 →
        ∀ k, s'.phase j ≠ .done (some k) := by
  have h1 : procRun C (cfg w).1 (cfg w).2 d .start [.tick, .tick, .tick, .tick, .crash] =
      some (({ d with keysDir := true } : Disk).set (fileName (cfg w).1) [], .crashed) := by
    simp only [procRun, stepProc, hd, Option.isSome_none, Bool.false_eq_true, if_false, if_true, Option.bind_some,
      if_neg (show ¬ (cfg w).1.params.quadWeight < minQuadWeight from Nat.not_lt.2 hq)]
  obtain ⟨s, g1, g2, g3, g4⟩ := procRun_sys (C := C) (cfg := cfg) (i := w) (s := Sys.fresh d) _ h1
  refine ⟨_, s, by simp, g1, g3, fun es' s' hr j hj k => ?_⟩
  have hquiet : Quiet cfg (fileName (cfg w).1) s := by
    intro i _
    by_cases hi : i = w
    · subst hi; rw [g3]; trivial
    · rw [g4 i hi]; trivial
  by_cases hjw : j = w
  · subst hjw
    have : s'.phase j = .crashed := by
      refine sysRun_induct (P := fun s => s.phase j = .crashed) g3 ?_ hr
      intro s1 e s2 _ hs hst
      obtain ⟨d', ph, h1, rfl, rfl, h3⟩ := sysStep_some hst
      by_cases hje : j = e.1
      · rw [← hje, hs, terminal_step (ph := .crashed) trivial] at h1; cases h1
      · rw [h3 j hje]; exact hs
    rw [this]
    intro h; cases h
  · exact (C42_truncated hC (c := []) (k := (cfg w).2) (by rw [g2]; exact Disk.set_same _ _ _) List.nil_prefix (Ne.symm hne)
      hquiet hr).2 j hj (by rw [g4 j hjw]; rfl) k

/-! ### C53 -/

/-- **C53**, the negation: an error while the last bytes are written is swallowed (the `BufWriter`
is dropped, not flushed).  The first call returns `Ok` although the file holds only `n` bytes of
the keys — for every `n` short of the full length —, after which no other call ever succeeds. -/
theorem C53_lost_write (hC : C.Lawful) {d : Disk} {w : Nat} (hq : 22 ≤ (cfg w).1.params.quadWeight)
    (hd : d.file (fileName (cfg w).1) = none) {n : Nat} (hn : n < (C.enc (cfg w).2).length) :
    ∃ es s, (∀ e ∈ es, e.1 = w) ∧ sysRun C cfg (Sys.fresh d) es = some s ∧ s.phase w = .done (some (cfg w).2) ∧
      s.disk.file (fileName (cfg w).1) = some ((C.enc (cfg w).2).take n) ∧
      ∀ es' s', sysRun C cfg s es' = some s' → ∀ j, j ≠ w → fileName (cfg j).1 = fileName (cfg w).1 →
        ∀ k, s'.phase j ≠ .done (some k) := by
  have hne : C.enc (cfg w).2 ≠ [] := by
    intro h
    rw [h] at hn
    simp at hn
  obtain ⟨d', h1, h2⟩ := procRun_first (C := C) (d := d) hq hd hne (Nat.le_of_lt hn)
  obtain ⟨s, g1, g2, g3, g4⟩ := procRun_sys (C := C) (cfg := cfg) (i := w) (s := Sys.fresh d) _ h1
  refine ⟨_, s, by simp, g1, g3, by rw [g2, h2], fun es' s' hr j hjw hj k => ?_⟩
  have hquiet : Quiet cfg (fileName (cfg w).1) s := by
    intro i _
    by_cases hi : i = w
    · subst hi; rw [g3]; trivial
    · rw [g4 i hi]; trivial
  refine (C42_truncated hC (c := (C.enc (cfg w).2).take n) (k := (cfg w).2) (by rw [g2]; exact h2)
    (List.take_prefix _ _) ?_ hquiet hr).2 j hj (by rw [g4 j hjw]; rfl) k
  intro h
  have := congrArg List.length h
  rw [List.length_take] at this
  omega

/-- **C53** (partial: only for errors before the writer is dropped).  A call that hits a failing system
call while the directory or the file is created, while bytes are passed to the writer, or while the
file is read, never returns `Ok`. -/
theorem C53_reported_partial {s s1 s2 : Sys K} {es : List (Nat × Act)} {w : Nat}
    (hph : ∀ r off buf, s.phase w ≠ .dropping r off buf) (h1 : sysStep C cfg s (w, .ioErr) = some s1)
    (hr : sysRun C cfg s1 es = some s2) : ∀ k, s2.phase w ≠ .done (some k) := by
  have key : s2.phase w = .done none ∨ s2.phase w = .crashed ∨ ∃ off buf, s2.phase w = .dropping none off buf := by
    refine sysRun_induct (P := fun s => s.phase w = .done none ∨ s.phase w = .crashed ∨
      ∃ off buf, s.phase w = .dropping none off buf) ?_ ?_ hr
    · obtain ⟨d, ph, g, rfl, rfl, _⟩ := sysStep_some h1
      dsimp only at g hph ⊢
      cases hp : s.phase w with
      | dropping r off buf => exact absurd hp (hph r off buf)
      | writing off todo buf =>
        rw [hp] at g
        simp only [stepProc] at g
        split at g
        · injection g with g
          injection g with _ g
          exact Or.inr (Or.inr ⟨off, buf, g.symm⟩)
        · cases g
      | _ =>
        rw [hp] at g
        simp only [stepProc] at g
        first
          | (cases g; done)
          | (injection g with g; injection g with _ g; exact Or.inl g.symm)
    · rintro s1 ⟨j, a⟩ s2 _ h hst
      obtain ⟨d, ph, g, rfl, rfl, h3⟩ := sysStep_some hst
      dsimp only at g h3
      by_cases hj : w = j
      · subst hj
        rcases h with h | h | ⟨off, buf, h⟩ <;> rw [h] at g <;> simp only [stepProc] at g
        · cases g
        · cases g
        · cases a <;> simp only at g
          case tick =>
            split at g
            · injection g with g; injection g with _ g; exact Or.inl g.symm
            · cases g
          case io n =>
            split at g
            · injection g with g; injection g with _ g; exact Or.inr (Or.inr ⟨_, _, g.symm⟩)
            · cases g
          case ioErr => injection g with g; injection g with _ g; exact Or.inl g.symm
          case crash => injection g with g; injection g with _ g; exact Or.inr (Or.inl g.symm)
          case fill n => cases g
      · rw [h3 w hj]; exact h
  intro k hk
  rcases key with h | h | ⟨off, buf, h⟩ <;> rw [hk] at h <;> cases h

/-! ### C51 -/

/-- **C51** (partial: false as stated, see below).  While (or after) one process exports its keys, the
others, started after the file was created, return those keys or an error, never other keys. -/
theorem C51_one_writer_partial (hC : C.Lawful) {s s' : Sys K} {es : List (Nat × Act)} {w : Nat} {todo buf : List UInt8}
    {off : Nat} {c : List UInt8} (hw : s.phase w = .writing off todo buf)
    (hf : s.disk.file (fileName (cfg w).1) = some c) (hoff : off = c.length)
    (hc : c ++ (buf ++ todo) = C.enc (cfg w).2)
    (ho : ∀ j, j ≠ w → fileName (cfg j).1 = fileName (cfg w).1 → (s.phase j).idle)
    (hr : sysRun C cfg s es = some s') :
    (∃ c', s'.disk.file (fileName (cfg w).1) = some c' ∧ c <+: c' ∧ c' <+: C.enc (cfg w).2) ∧
    ∀ j, fileName (cfg j).1 = fileName (cfg w).1 → (j = w ∨ s.phase j = .start) →
      ∀ k, s'.phase j = .done (some k) → k = (cfg w).2 := by
  have inv : StoreInv C cfg (fileName (cfg w).1) (cfg w).2 (some w) False (fun j => j = w ∨ s.phase j = .start) c s := by
    refine ⟨hf, ⟨buf ++ todo, hc⟩, fun j hj => ?_⟩
    by_cases hjw : j = w
    · subst hjw
      rw [hw]
      exact Or.inl ⟨rfl, rfl, hoff, hc⟩
    · have h := ho j hjw hj
      cases hp : s.phase j with
      | start => exact Or.inr (Or.inl ⟨fun e => hjw (Option.some.inj e).symm, Or.inr rfl, trivial⟩)
      | done r => exact Or.inr (Or.inr ⟨by simp [hjw], trivial⟩)
      | crashed => exact Or.inr (Or.inr ⟨by simp [hjw], trivial⟩)
      | _ => rw [hp] at h; exact absurd h id
  obtain ⟨c', g1, g2, _⟩ := inv.run hC (fun h => h.elim) hr
  refine ⟨⟨c', g2.file, g1, g2.pre⟩, fun j hj hjs k hk => ?_⟩
  rcases g2.procs j hj with ⟨_, _, h⟩ | ⟨_, _, h⟩ | ⟨h, ht⟩
  · rw [hk] at h; exact h.1
  · rw [hk] at h; exact h.2
  · exact absurd hjs h

/-! The negations: two calls for the same parameters, both started on an empty directory. -/

theorem sysRun_trans {s s1 s2 : Sys K} {es es' : List (Nat × Act)} (h : sysRun C cfg s es = some s1)
    (h' : sysRun C cfg s1 es' = some s2) : sysRun C cfg s (es ++ es') = some s2 := by
  rw [sysRun_append, h]; exact h'

theorem keysDir_run {s s' : Sys K} {es : List (Nat × Act)} (h : s.disk.keysDir = true)
    (hr : sysRun C cfg s es = some s') : s'.disk.keysDir = true := by
  refine sysRun_induct (P := fun s => s.disk.keysDir = true) h ?_ hr
  intro s1 e s2 _ hs hst
  obtain ⟨d', ph, h1, rfl, rfl, _⟩ := sysStep_some hst
  exact keysDir_step h1 hs

/-- up to, excluding, the creation of the file -/
theorem procRun_toCreate {p : FullParams} {k : K} {d : Disk} (hq : 22 ≤ p.params.quadWeight)
    (hf : d.file (fileName p) = none) :
    procRun C p k d .start [.tick, .tick, .tick] = some ({ d with keysDir := true }, .create) := by
  simp only [procRun, stepProc, hf, Option.isSome_none, Bool.false_eq_true, if_false, Option.bind_some,
    if_neg (show ¬ p.params.quadWeight < minQuadWeight from Nat.not_lt.2 hq)]

/-- the creation of the file, up to the first write -/
theorem procRun_fromCreate {p : FullParams} {k : K} {d : Disk} (hd : d.keysDir = true) (hne : C.enc k ≠ []) :
    procRun C p k d .create [.tick, .fill (C.enc k).length, .tick] =
      some (d.set (fileName p) [], .dropping (some k) 0 (C.enc k)) := by
  have hpos : 0 < (C.enc k).length := List.length_pos_iff.2 hne
  simp only [procRun, stepProc, hd, if_true, Option.bind_some,
    hpos, Nat.le_refl, and_self, List.drop_length, List.take_length, List.nil_append]

/-- writing `n` bytes -/
theorem procRun_write {p : FullParams} {k : K} {d : Disk} {bs c : List UInt8} {n : Nat} (hf : d.file (fileName p) = some c)
    (hn : 0 < n ∧ n ≤ bs.length) :
    procRun C p k d (.dropping (some k) 0 bs) [.io n] =
      some (d.set (fileName p) (bs.take n ++ c.drop n), .dropping (some k) n (bs.drop n)) := by
  have h : writeAt c 0 (bs.take n) = bs.take n ++ c.drop n := by
    unfold writeAt
    simp [Nat.min_eq_left hn.2]
  simp only [procRun, stepProc, hf, Option.getD_some, hn, and_self, if_true, Option.bind_some, h, Nat.zero_add]

/-- **C51**, the negation: two first calls can both return `Ok`, each with its own keys, although
no system call fails and no process crashes; the file holds the keys of one of them only. -/
theorem C51_two_keys {d : Disk} {a b : Nat} (hab : a ≠ b) (hfn : fileName (cfg b).1 = fileName (cfg a).1)
    (hqa : 22 ≤ (cfg a).1.params.quadWeight) (hqb : 22 ≤ (cfg b).1.params.quadWeight)
    (hd : d.file (fileName (cfg a).1) = none) (hna : C.enc (cfg a).2 ≠ []) (hnb : C.enc (cfg b).2 ≠ []) :
    ∃ es s, (∀ e ∈ es, e.2 ≠ .ioErr ∧ e.2 ≠ .crash) ∧ sysRun C cfg (Sys.fresh d) es = some s ∧
      s.phase a = .done (some (cfg a).2) ∧ s.phase b = .done (some (cfg b).2) ∧
      s.disk.file (fileName (cfg a).1) = some (C.enc (cfg b).2) := by
  have hla := List.length_pos_iff.2 hna
  have hlb := List.length_pos_iff.2 hnb
  -- `b` finds no file; then `a` runs completely; then `b` goes on
  obtain ⟨s1, r1, d1, p1, o1⟩ := procRun_sys (C := C) (cfg := cfg) (i := b) (s := Sys.fresh d) _
    (procRun_toCreate (C := C) hqb (by rw [hfn]; exact hd))
  obtain ⟨d2', h2, f2⟩ := procRun_first (C := C) (d := s1.disk) (p := (cfg a).1) (k := (cfg a).2) hqa
    (by rw [d1]; exact hd) hna (Nat.le_refl _)
  obtain ⟨s2, r2, d2, p2, o2⟩ := procRun_sys (C := C) (cfg := cfg) (i := a) (s := s1) _
    (by rw [o1 a hab]; exact h2)
  have hk2 : s2.disk.keysDir = true := keysDir_run (by rw [d1]) r2
  obtain ⟨s3, r3, d3, p3, o3⟩ := procRun_sys (C := C) (cfg := cfg) (i := b) (s := s2) _
    (by rw [o2 b (Ne.symm hab), p1]; exact procRun_fromCreate hk2 hnb)
  obtain ⟨s4, r4, d4, p4, o4⟩ := procRun_sys (C := C) (cfg := cfg) (i := b) (s := s3) _
    (by rw [p3]; exact procRun_write (C := C) (n := (C.enc (cfg b).2).length) (by rw [d3]; exact Disk.set_same _ _ _) ⟨hlb, Nat.le_refl _⟩)
  obtain ⟨s5, r5, d5, p5, o5⟩ := procRun_sys (C := C) (cfg := cfg) (i := b) (s := s4) (d := s4.disk)
    (ph := .done (some (cfg b).2)) [.tick]
    (by rw [p4]; simp only [procRun, stepProc, List.drop_length, if_true, Option.bind_some])
  refine ⟨_, s5, ?_, sysRun_trans r1 (sysRun_trans r2 (sysRun_trans r3 (sysRun_trans r4 r5))), ?_, p5, ?_⟩
  · have : (C.enc (cfg a).2).length ≠ 0 := by omega
    simp [exportActs, this]
  · rw [o5 a hab, o4 a hab, o3 a hab, p2]
  · rw [d5, d4, ← hfn, Disk.set_same]
    simp

/-- **C51**, the negation for readers: a call that starts while the keys are being written can fail,
although no system call fails and no process crashes. -/
theorem C51_reader_fails (hC : C.Lawful) {d : Disk} {a b : Nat} (hab : a ≠ b) (hfn : fileName (cfg b).1 = fileName (cfg a).1)
    (hqa : 22 ≤ (cfg a).1.params.quadWeight) (hqb : 22 ≤ (cfg b).1.params.quadWeight)
    (hd : d.file (fileName (cfg a).1) = none) (hna : C.enc (cfg a).2 ≠ []) :
    ∃ es s, (∀ e ∈ es, e.2 ≠ .ioErr ∧ e.2 ≠ .crash) ∧ sysRun C cfg (Sys.fresh d) es = some s ∧
      s.phase a = .done (some (cfg a).2) ∧ s.phase b = .done none ∧
      s.disk.file (fileName (cfg a).1) = some (C.enc (cfg a).2) := by
  have hla := List.length_pos_iff.2 hna
  obtain ⟨s1, r1, d1, p1, o1⟩ := procRun_sys (C := C) (cfg := cfg) (i := a) (s := Sys.fresh d) _ (procRun_export (C := C) hqa hd hna)
  have hf1 : s1.disk.file (fileName (cfg b).1) = some [] := by rw [d1, hfn]; exact Disk.set_same _ _ _
  have hdec : C.dec [] = none := hC.dec_prefix (cfg a).2 [] List.nil_prefix (Ne.symm hna)
  obtain ⟨s2, r2, d2, p2, o2⟩ := procRun_sys (C := C) (cfg := cfg) (i := b) (s := s1) (d := s1.disk) (ph := .done none)
    [.tick, .tick, .tick] (by
      rw [o1 b (Ne.symm hab)]
      simp only [Sys.fresh, procRun, stepProc, hf1, Option.isSome_some, if_true, Option.bind_some, hdec,
        if_neg (show ¬ (cfg b).1.params.quadWeight < minQuadWeight from Nat.not_lt.2 hqb), Option.getD_some,
        List.length_nil, Nat.le_refl])
  obtain ⟨s3, r3, d3, p3, o3⟩ := procRun_sys (C := C) (cfg := cfg) (i := a) (s := s2) _
    (by rw [o2 a hab, p1]; exact procRun_write (C := C) (n := (C.enc (cfg a).2).length) (by rw [d2, ← hfn]; exact hf1) ⟨hla, Nat.le_refl _⟩)
  obtain ⟨s4, r4, d4, p4, o4⟩ := procRun_sys (C := C) (cfg := cfg) (i := a) (s := s3) (d := s3.disk)
    (ph := .done (some (cfg a).2)) [.tick]
    (by rw [p3]; simp only [procRun, stepProc, List.drop_length, if_true, Option.bind_some])
  refine ⟨_, s4, by simp, sysRun_trans r1 (sysRun_trans r2 (sysRun_trans r3 r4)), p4, ?_, ?_⟩
  · rw [o4 b (Ne.symm hab), o3 b (Ne.symm hab), p2]
  · rw [d4, d3, Disk.set_same]
    simp

/-- **C51**, the negation for the keys themselves: two calls that export at the same time interleave
their writes, and a third one loads a mixture of the two files, although no system call fails and no
process crashes. -/
theorem C51_mixture (hC : C.Lawful) {d : Disk} {a b c : Nat} {kc : K} {n : Nat} (hab : a ≠ b) (hac : a ≠ c) (hbc : b ≠ c)
    (hfb : fileName (cfg b).1 = fileName (cfg a).1) (hfc : fileName (cfg c).1 = fileName (cfg a).1)
    (hqa : 22 ≤ (cfg a).1.params.quadWeight) (hqb : 22 ≤ (cfg b).1.params.quadWeight)
    (hqc : 22 ≤ (cfg c).1.params.quadWeight)
    (hd : d.file (fileName (cfg a).1) = none) (hn : 0 < n ∧ n ≤ (C.enc (cfg b).2).length) (hna : C.enc (cfg a).2 ≠ [])
    (hmix : C.enc kc = (C.enc (cfg b).2).take n ++ (C.enc (cfg a).2).drop n) :
    ∃ es s, (∀ e ∈ es, e.2 ≠ .ioErr ∧ e.2 ≠ .crash) ∧ sysRun C cfg (Sys.fresh d) es = some s ∧
      s.phase a = .done (some (cfg a).2) ∧ s.phase c = .done (some kc) := by
  have hla := List.length_pos_iff.2 hna
  have hnb : C.enc (cfg b).2 ≠ [] := List.length_pos_iff.1 (by omega)
  obtain ⟨s1, r1, d1, p1, o1⟩ := procRun_sys (C := C) (cfg := cfg) (i := b) (s := Sys.fresh d) _
    (procRun_toCreate (C := C) hqb (by rw [hfb]; exact hd))
  obtain ⟨s2, r2, d2, p2, o2⟩ := procRun_sys (C := C) (cfg := cfg) (i := a) (s := s1) _
    (by rw [o1 a hab]; exact procRun_export (C := C) hqa (by rw [d1]; exact hd) hna)
  have hk2 : s2.disk.keysDir = true := keysDir_run (by rw [d1]) r2
  obtain ⟨s3, r3, d3, p3, o3⟩ := procRun_sys (C := C) (cfg := cfg) (i := b) (s := s2) _
    (by rw [o2 b (Ne.symm hab), p1]; exact procRun_fromCreate hk2 hnb)
  obtain ⟨s4, r4, d4, p4, o4⟩ := procRun_sys (C := C) (cfg := cfg) (i := a) (s := s3) _
    (by rw [o3 a hab, p2]; exact procRun_write (C := C) (n := (C.enc (cfg a).2).length)
          (by rw [d3, hfb]; exact Disk.set_same _ _ _) ⟨hla, Nat.le_refl _⟩)
  obtain ⟨s5, r5, d5, p5, o5⟩ := procRun_sys (C := C) (cfg := cfg) (i := a) (s := s4) (d := s4.disk)
    (ph := .done (some (cfg a).2)) [.tick]
    (by rw [p4]; simp only [procRun, stepProc, List.drop_length, if_true, Option.bind_some])
  obtain ⟨s6, r6, d6, p6, o6⟩ := procRun_sys (C := C) (cfg := cfg) (i := b) (s := s5) _
    (by rw [o5 b (Ne.symm hab), o4 b (Ne.symm hab), p3]
        exact procRun_write (C := C) (n := n) (by rw [d5, d4, hfb]; exact Disk.set_same _ _ _) hn)
  have hf6 : s6.disk.file (fileName (cfg c).1) = some (C.enc kc) := by
    rw [d6, hfc, hfb, Disk.set_same, hmix, List.take_length, List.drop_nil, List.append_nil]
  have hnc : C.enc kc ≠ [] := by
    rw [hmix]
    intro h
    have h := congrArg List.length h
    rw [List.length_append, List.length_take, List.length_nil] at h
    omega
  obtain ⟨s7, r7, d7, p7, o7⟩ := procRun_sys (C := C) (cfg := cfg) (i := c) (s := s6) _
    (by rw [o6 c (Ne.symm hbc), o5 c (Ne.symm hac), o4 c (Ne.symm hac), o3 c (Ne.symm hbc), o2 c (Ne.symm hac), o1 c (Ne.symm hbc)]
        exact procRun_load hC hqc hf6 hnc)
  refine ⟨_, s7, by simp, sysRun_trans r1 (sysRun_trans r2 (sysRun_trans r3 (sysRun_trans r4 (sysRun_trans r5
    (sysRun_trans r6 r7))))), ?_, p7⟩
  rw [o7 a hac, o6 a hab, p5]

/-- `(client_key, server_key)` serialised one after the other, the first with a length determined by
the parameters, `/repo/src/userovo/keys.rs:57` -/
def pairCodec {A B : Type} (CA : Codec A) (CB : Codec B) (len : Nat) : Codec (A × B) where
  enc k := CA.enc k.1 ++ CB.enc k.2
  dec bs := do return (← CA.dec (bs.take len), ← CB.dec (bs.drop len))

theorem pairCodec_lawful {A B : Type} {CA : Codec A} {CB : Codec B} {len : Nat} (hA : CA.Lawful) (hB : CB.Lawful)
    (hlen : ∀ a, (CA.enc a).length = len) : (pairCodec CA CB len).Lawful where
  dec_enc k t := by
    have h1 : (CA.enc k.1 ++ CB.enc k.2 ++ t).take len = CA.enc k.1 := by
      rw [← hlen k.1, List.append_assoc, List.take_left]
    have h2 : (CA.enc k.1 ++ CB.enc k.2 ++ t).drop len = CB.enc k.2 ++ t := by
      rw [← hlen k.1, List.append_assoc, List.drop_left]
    have h3 : CA.dec (CA.enc k.1) = some k.1 := by simpa using hA.dec_enc k.1 []
    simp only [pairCodec, h1, h2, h3, hB.dec_enc]
    rfl
  dec_prefix k t ht hne := by
    simp only [pairCodec] at ht hne ⊢
    by_cases hl : t.length < len
    · have h1 : t.take len = t := List.take_of_length_le (by omega)
      have h2 : t <+: CA.enc k.1 := by
        refine List.prefix_of_prefix_length_le ht (List.prefix_append _ _) ?_
        rw [hlen]; omega
      have h3 : CA.dec t = none := hA.dec_prefix k.1 t h2 (by
        intro h; rw [h, hlen] at hl; omega)
      rw [h1, h3]
      rfl
    · obtain ⟨u, rfl⟩ : CA.enc k.1 <+: t :=
        List.prefix_of_prefix_length_le (List.prefix_append _ _) ht (by rw [hlen]; omega)
      have h1 : (CA.enc k.1 ++ u).take len = CA.enc k.1 := by rw [← hlen k.1, List.take_left]
      have h2 : (CA.enc k.1 ++ u).drop len = u := by rw [← hlen k.1, List.drop_left]
      have h3 : CB.dec u = none := hB.dec_prefix k.2 u ((List.prefix_append_right_inj _).1 ht)
        (fun h => hne (by rw [h]))
      rw [h1, h2, h3]
      cases CA.dec (CA.enc k.1) <;> rfl

/-- … in particular a third call can return the client key of one pair with the server key of another. -/
theorem C51_mismatched_pair {A B : Type} {CA : Codec A} {CB : Codec B} {len : Nat} (hA : CA.Lawful) (hB : CB.Lawful)
    (hlen : ∀ a, (CA.enc a).length = len) (hpos : 0 < len) {cfg : Nat → FullParams × (A × B)} {d : Disk}
    {a b c : Nat} (hab : a ≠ b) (hac : a ≠ c) (hbc : b ≠ c)
    (hfb : fileName (cfg b).1 = fileName (cfg a).1) (hfc : fileName (cfg c).1 = fileName (cfg a).1)
    (hqa : 22 ≤ (cfg a).1.params.quadWeight) (hqb : 22 ≤ (cfg b).1.params.quadWeight)
    (hqc : 22 ≤ (cfg c).1.params.quadWeight) (hd : d.file (fileName (cfg a).1) = none) :
    ∃ es s, (∀ e ∈ es, e.2 ≠ .ioErr ∧ e.2 ≠ .crash) ∧
      sysRun (pairCodec CA CB len) cfg (Sys.fresh d) es = some s ∧
      s.phase c = .done (some ((cfg b).2.1, (cfg a).2.2)) := by
  have hl : ∀ k, len ≤ ((pairCodec CA CB len).enc k).length := by
    intro k
    simp only [pairCodec, List.length_append, hlen]
    omega
  obtain ⟨es, s, h1, h2, _, h4⟩ := C51_mixture (pairCodec_lawful hA hB hlen) (n := len)
    (kc := ((cfg b).2.1, (cfg a).2.2)) hab hac hbc hfb hfc hqa hqb hqc hd ⟨hpos, hl _⟩
    (List.length_pos_iff.1 (by have := hl (cfg a).2; omega)) (by
      simp only [pairCodec]
      rw [List.take_left' (hlen _), List.drop_left' (hlen _)])
  exact ⟨es, s, h1, h2, h4⟩

/-! ### C43 -/

theorem digits_append {xs ys r r' : List Char} {c c' : Char} (hx : ∀ x ∈ xs, x.isDigit = true)
    (hy : ∀ y ∈ ys, y.isDigit = true) (hc : c.isDigit = false) (hc' : c'.isDigit = false)
    (h : xs ++ c :: r = ys ++ c' :: r') : xs = ys ∧ r = r' := by
  induction xs generalizing ys with
  | nil =>
    cases ys with
    | nil => injection h with _ h; exact ⟨rfl, h⟩
    | cons y ys =>
      injection h with h _
      subst h
      rw [hy c (List.mem_cons_self ..)] at hc
      cases hc
  | cons x xs ih =>
    cases ys with
    | nil =>
      injection h with h _
      subst h
      rw [hx x (List.mem_cons_self ..)] at hc'
      cases hc'
    | cons y ys =>
      injection h with h1 h2
      obtain ⟨e1, e2⟩ := ih (fun z hz => hx z (List.mem_cons_of_mem _ hz)) (fun z hz => hy z (List.mem_cons_of_mem _ hz)) h2
      exact ⟨by rw [h1, e1], e2⟩

theorem repr_digits (n : Nat) : ∀ x ∈ (Nat.repr n).toList, x.isDigit = true := by
  intro x hx
  rw [Nat.toList_repr] at hx
  exact Nat.isDigit_of_mem_toDigits (by omega) (by omega) hx

theorem repr_append_inj {m n : Nat} {c c' : Char} {r r' : List Char} (hc : c.isDigit = false) (hc' : c'.isDigit = false)
    (h : (Nat.repr m).toList ++ c :: r = (Nat.repr n).toList ++ c' :: r') : m = n ∧ r = r' := by
  obtain ⟨h1, h2⟩ := digits_append (repr_digits m) (repr_digits n) hc hc' h
  exact ⟨Nat.repr_injective (String.toList_inj.1 h1), h2⟩

/-- **C43.** Two parameter sets share a key file iff they agree on the six parameters the file name
is made of: dimension and polynomial size, and base and level of bootstrapping and key switching. -/
theorem C43_fileName {p q : FullParams} : fileName p = fileName q ↔
    p.concretePars.lweDimension = q.concretePars.lweDimension ∧
    p.concretePars.polynomialSize = q.concretePars.polynomialSize ∧
    p.concretePars.pbsBaseLog = q.concretePars.pbsBaseLog ∧
    p.concretePars.pbsLevel = q.concretePars.pbsLevel ∧
    p.concretePars.ksBaseLog = q.concretePars.ksBaseLog ∧
    p.concretePars.ksLevel = q.concretePars.ksLevel := by
  constructor
  · intro h
    have h := congrArg String.toList h
    simp only [fileName, String.toList_append, List.append_assoc] at h
    have h := List.append_cancel_left (List.append_cancel_left (List.append_cancel_left h))
    obtain ⟨h1, h⟩ := repr_append_inj (c := '_') (c' := '_') rfl rfl h
    obtain ⟨h2, h⟩ := repr_append_inj (c := '_') (c' := '_') rfl rfl (List.append_cancel_left (as := "N-".toList) h)
    obtain ⟨h3, h⟩ := repr_append_inj (c := '_') (c' := '_') rfl rfl (List.append_cancel_left (as := "gamma-".toList) h)
    obtain ⟨h4, h⟩ := repr_append_inj (c := '_') (c' := '_') rfl rfl (List.append_cancel_left (as := "l-".toList) h)
    obtain ⟨h5, h⟩ := repr_append_inj (c := '_') (c' := '_') rfl rfl (List.append_cancel_left (as := "kappa-".toList) h)
    obtain ⟨h6, h⟩ := repr_append_inj (c := '.') (c' := '.') rfl rfl (List.append_cancel_left (as := "t-".toList) h)
    exact ⟨h1, h2, h3, h4, h5, h6⟩
  · rintro ⟨h1, h2, h3, h4, h5, h6⟩
    simp only [fileName, h1, h2, h3, h4, h5, h6]

/-- **C43**, its consequence: calls for parameters that differ elsewhere (GLWE dimension, standard
deviations, message and carry modulus, bit precision, weight) return the keys of the first call. -/
theorem C43_shared (hC : C.Lawful) {d : Disk} {es es' : List (Nat × Act)} {s s' : Sys K} {w j : Nat} {k k' : K}
    (hq : 22 ≤ (cfg w).1.params.quadWeight) (hd : d.file (fileName (cfg w).1) = none)
    (hw : ∀ e ∈ es, fileName (cfg e.1).1 = fileName (cfg w).1 → e.1 = w) (hio : (w, Act.ioErr) ∉ es)
    (hr : sysRun C cfg (Sys.fresh d) es = some s) (h : s.phase w = .done (some k))
    (hr' : sysRun C cfg s es' = some s') (hj : j ≠ w)
    (h1 : (cfg j).1.concretePars.lweDimension = (cfg w).1.concretePars.lweDimension)
    (h2 : (cfg j).1.concretePars.polynomialSize = (cfg w).1.concretePars.polynomialSize)
    (h3 : (cfg j).1.concretePars.pbsBaseLog = (cfg w).1.concretePars.pbsBaseLog)
    (h4 : (cfg j).1.concretePars.pbsLevel = (cfg w).1.concretePars.pbsLevel)
    (h5 : (cfg j).1.concretePars.ksBaseLog = (cfg w).1.concretePars.ksBaseLog)
    (h6 : (cfg j).1.concretePars.ksLevel = (cfg w).1.concretePars.ksLevel)
    (hk : s'.phase j = .done (some k')) : k' = (cfg w).2 := by
  obtain ⟨e, _, g⟩ := C41_history hC hq hd hw hio hr h hr'
  rw [(g j hj (C43_fileName.2 ⟨h1, h2, h3, h4, h5, h6⟩)).1 k' hk, e]

/-- Calls for parameters that differ in one of the six do not interfere. -/
theorem C43_separate {p q : FullParams} {k : K} {a : Act} {d d' : Disk} {ph ph' : Phase K}
    (hne : fileName p ≠ fileName q) (h : stepProc C p k a d ph = some (d', ph')) :
    d'.file (fileName q) = d.file (fileName q) :=
  stepProc_file_ne (Ne.symm hne) h

/-! ### Concrete cases -/

namespace KeysDemo

/-- parameters of the shipped shape (the numbers of tfhe-rs are not in the repository; these are made up) -/
def pars : FullParams where
  concretePars := { lweDimension := 807, glweDimension := 1, polynomialSize := 2048, lweModularStdDev := 1,
                    glweModularStdDev := 2, pbsBaseLog := 23, pbsLevel := 1, ksBaseLog := 3, ksLevel := 5,
                    messageModulus := 32, carryModulus := 1 }
  params := Params.M4C0

/-- one byte per key -/
def byteCodec : Codec UInt8 where
  enc b := [b]
  dec bs := bs.head?

theorem byteCodec_lawful : byteCodec.Lawful where
  dec_enc k t := rfl
  dec_prefix k t ht hne := by
    match t with
    | [] => rfl
    | a :: t =>
      obtain ⟨u, hu⟩ := ht
      injection hu with h1 h2
      cases (List.append_eq_nil_iff.1 h2).1
      exact absurd (by rw [h1]; rfl) hne

/-- client and server key of one byte each -/
def codec : Codec (UInt8 × UInt8) := pairCodec byteCodec byteCodec 1

theorem codec_lawful : codec.Lawful := pairCodec_lawful byteCodec_lawful byteCodec_lawful (fun _ => rfl)

/-- process `i` would generate the pair `(i, i)`; process 3 asks for another message modulus,
process 4 for another dimension, process 5 for too small a weight -/
def procs (i : Nat) : FullParams × (UInt8 × UInt8) :=
  (match i with
    | 3 => { pars with concretePars := { pars.concretePars with messageModulus := 16 } }
    | 4 => { pars with concretePars := { pars.concretePars with lweDimension := 808 } }
    | 5 => { pars with params := { pars.params with quadWeight := 21 } }
    | _ => pars, (UInt8.ofNat i, UInt8.ofNat i))

def empty : Disk := ⟨false, fun _ => none⟩

theorem codec_ne (k : UInt8 × UInt8) : codec.enc k ≠ [] := by intro h; cases h

/-- C41: an execution in which process 0 exports, and processes 1 and 3 load, concurrently -/
example : ∃ s, sysRun codec procs (Sys.fresh empty)
      ((exportActs 2 2).map (fun a => (0, a)) ++ [(1, .tick), (3, .tick), (1, .tick), (3, .tick), (1, .io 1), (3, .io 2),
        (1, .io 1), (3, .tick), (1, .tick)]) = some s ∧
    s.phase 0 = .done (some (0, 0)) ∧ s.phase 1 = .done (some (0, 0)) ∧ s.phase 3 = .done (some (0, 0)) :=
  ⟨_, rfl, rfl, rfl, rfl⟩

/-- C40: process 5 is refused -/
example : ∃ s, sysRun codec procs (Sys.fresh empty) [(5, .tick)] = some s ∧ s.phase 5 = .done none ∧ s.disk = empty :=
  ⟨_, rfl, rfl, rfl⟩

/-- C42: process 0 crashes after one byte; process 1 fails, and so does every later call -/
example : ∃ s, sysRun codec procs (Sys.fresh empty)
      ([.tick, .tick, .tick, .tick, .fill 2, .tick, .io 1, .crash].map (fun a => (0, a)) ++
       [.tick, .tick, .io 1, .tick].map (fun a => (1, a))) = some s ∧
    s.phase 0 = .crashed ∧ s.phase 1 = .done none ∧ s.disk.file (fileName pars) = some [0] :=
  ⟨_, rfl, rfl, rfl, rfl⟩

example : ∃ es s, (∀ e ∈ es, e.1 = 0 ∧ e.2 ≠ .ioErr) ∧ sysRun codec procs (Sys.fresh empty) es = some s ∧
      s.phase 0 = .crashed ∧ ∀ es' s', sysRun codec procs s es' = some s' →
        ∀ j, fileName (procs j).1 = fileName (procs 0).1 → ∀ k, s'.phase j ≠ .done (some k) :=
  C42_truncated_file_is_permanent codec_lawful (by decide) rfl (codec_ne _)

/-- C53: one byte written, `Ok` returned -/
example : ∃ es s, (∀ e ∈ es, e.1 = 0) ∧ sysRun codec procs (Sys.fresh empty) es = some s ∧
      s.phase 0 = .done (some (0, 0)) ∧ s.disk.file (fileName pars) = some [0] ∧
      ∀ es' s', sysRun codec procs s es' = some s' → ∀ j, j ≠ 0 → fileName (procs j).1 = fileName (procs 0).1 →
        ∀ k, s'.phase j ≠ .done (some k) :=
  C53_lost_write (C := codec) (cfg := procs) (w := 0) (n := 1) codec_lawful (by decide) rfl (by decide)

/-- C51: process 7 ends up with the client key of process 1 and the server key of process 2 -/
example : ∃ es s, (∀ e ∈ es, e.2 ≠ .ioErr ∧ e.2 ≠ .crash) ∧ sysRun codec procs (Sys.fresh empty) es = some s ∧
      s.phase 7 = .done (some (1, 2)) :=
  C51_mismatched_pair (cfg := procs) (a := 2) (b := 1) (c := 7) byteCodec_lawful byteCodec_lawful (fun _ => rfl)
    (by decide) (by decide) (by decide) (by decide) rfl rfl (by decide) (by decide) (by decide) rfl

example : ∃ es s, (∀ e ∈ es, e.2 ≠ .ioErr ∧ e.2 ≠ .crash) ∧ sysRun codec procs (Sys.fresh empty) es = some s ∧
      s.phase 0 = .done (some (0, 0)) ∧ s.phase 1 = .done (some (1, 1)) ∧
      s.disk.file (fileName pars) = some [1, 1] :=
  C51_two_keys (C := codec) (cfg := procs) (a := 0) (b := 1) (by decide) rfl (by decide) (by decide) rfl (codec_ne _) (codec_ne _)

/-- C43 -/
example : fileName (procs 3).1 = fileName pars ∧ fileName (procs 4).1 ≠ fileName pars := by
  rw [ne_eq, C43_fileName, C43_fileName]
  decide

end KeysDemo

end Parm
