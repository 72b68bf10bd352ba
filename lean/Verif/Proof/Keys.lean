import Verif.Model.Keys

/-!
# Invariants of the key store
-/

namespace Parm

variable {K : Type} {C : Codec K} {cfg : Nat → FullParams × K}

theorem sysRun_append {s : Sys K} (es fs : List (Nat × Act)) :
    sysRun C cfg s (es ++ fs) = (sysRun C cfg s es).bind fun s => sysRun C cfg s fs := by
  induction es generalizing s with
  | nil => rfl
  | cons e es ih =>
    simp only [List.cons_append, sysRun]
    cases sysStep C cfg s e with
    | none => rfl
    | some s1 => exact ih

theorem sysRun_induct {P : Sys K → Prop} {es : List (Nat × Act)} {s s' : Sys K} (h0 : P s)
    (hstep : ∀ s e s', e ∈ es → P s → sysStep C cfg s e = some s' → P s') (hr : sysRun C cfg s es = some s') :
    P s' := by
  induction es generalizing s with
  | nil => cases hr; exact h0
  | cons e es ih =>
    simp only [sysRun] at hr
    cases h : sysStep C cfg s e with
    | none => rw [h] at hr; cases hr
    | some s1 =>
      rw [h] at hr
      exact ih (hstep s e s1 (by simp) h0 h) (fun s e s' he => hstep s e s' (by simp [he])) hr

theorem sysStep_some {s s' : Sys K} {e : Nat × Act} (h : sysStep C cfg s e = some s') :
    ∃ d ph, stepProc C (cfg e.1).1 (cfg e.1).2 e.2 s.disk (s.phase e.1) = some (d, ph) ∧
      s'.disk = d ∧ s'.phase e.1 = ph ∧ ∀ j, j ≠ e.1 → s'.phase j = s.phase j := by
  unfold sysStep at h
  cases hs : stepProc C (cfg e.1).1 (cfg e.1).2 e.2 s.disk (s.phase e.1) with
  | none => rw [hs] at h; cases h
  | some r =>
    rw [hs] at h
    cases h
    exact ⟨r.1, r.2, rfl, rfl, if_pos rfl, fun j hj => if_neg hj⟩

/-! ### One step of one process -/

theorem Disk.set_same (d : Disk) (f : String) (c : List UInt8) : (d.set f c).file f = some c := if_pos rfl

theorem Disk.set_ne (d : Disk) {f g : String} (c : List UInt8) (h : g ≠ f) : (d.set f c).file g = d.file g :=
  if_neg h

/-- the process neither changes the disk nor can do anything harmful later -/
theorem stepProc_file_ne {p : FullParams} {k : K} {a : Act} {d d' : Disk} {ph ph' : Phase K} {f : String}
    (hf : f ≠ fileName p) (h : stepProc C p k a d ph = some (d', ph')) : d'.file f = d.file f := by
  unfold stepProc at h
  repeat' split at h
  all_goals first
    | (cases h; done)
    | (cases h; rfl)
    | (cases h; exact Disk.set_ne _ _ hf)

theorem writeAt_end (c bs : List UInt8) : writeAt c c.length bs = c ++ bs := by
  unfold writeAt
  simp

/-- A process that loads keys from a file whose contents are a prefix `c` of `e`. -/
def ReaderOk (k : K) (e c : List UInt8) : Phase K → Prop
  | .start => True
  | .opening => True
  | .reading off acc => acc = e.take off ∧ off ≤ c.length
  | .done (some k') => c = e ∧ k' = k
  | .done none => True
  | .crashed => True
  | _ => False

/-- The process that exports its keys, whose serialisation is `e`; `c` are the contents so far;
`clean`: none of its system calls failed. -/
def WriterOk (clean : Prop) (k : K) (e c : List UInt8) : Phase K → Prop
  | .writing off todo buf => off = c.length ∧ c ++ (buf ++ todo) = e
  | .dropping (some k') off buf => off = c.length ∧ c ++ buf = e ∧ k' = k
  | .dropping none off buf => off = c.length ∧ c ++ buf <+: e ∧ ¬ clean
  | .done (some k') => k' = k ∧ (clean → c = e)
  | .done none => ¬ clean
  | .crashed => True
  | _ => False

def Phase.terminal : Phase K → Prop
  | .done _ => True
  | .crashed => True
  | _ => False

theorem ReaderOk.grow {k : K} {e c c' : List UInt8} {ph : Phase K} (h : ReaderOk k e c ph) (hc : c <+: c')
    (he : c' <+: e) : ReaderOk k e c' ph := by
  cases ph with
  | reading off acc => exact ⟨h.1, Nat.le_trans h.2 hc.length_le⟩
  | done r =>
    cases r with
    | none => trivial
    | some k' =>
      obtain ⟨rfl, h2⟩ := h
      refine ⟨?_, h2⟩
      exact he.eq_of_length (Nat.le_antisymm he.length_le hc.length_le)
  | _ => exact h

theorem terminal_step {p : FullParams} {k : K} {a : Act} {d : Disk} {ph : Phase K} (h : ph.terminal) :
    stepProc C p k a d ph = none := by
  cases ph <;> first | rfl | exact absurd h id

theorem reader_step (hC : C.Lawful) {p : FullParams} {k k0 : K} {a : Act} {d d' : Disk} {ph ph' : Phase K}
    {c : List UInt8} (hfile : d.file (fileName p) = some c) (hc : c <+: C.enc k) (h : ReaderOk k (C.enc k) c ph)
    (hs : stepProc C p k0 a d ph = some (d', ph')) :
    d' = d ∧ ReaderOk k (C.enc k) c ph' := by
  cases ph with
  | start =>
    cases a <;> simp only [stepProc, hfile, Option.isSome_some, if_true] at hs
    case tick =>
      cases hs
      refine ⟨rfl, ?_⟩
      split <;> trivial
    case crash => cases hs; exact ⟨rfl, trivial⟩
    all_goals cases hs
  | opening =>
    cases a <;> simp only [stepProc, hfile, Option.isSome_some, if_true] at hs
    case tick => cases hs; exact ⟨rfl, by simp [ReaderOk]⟩
    case crash => cases hs; exact ⟨rfl, trivial⟩
    case ioErr => cases hs; exact ⟨rfl, trivial⟩
    all_goals cases hs
  | reading off acc =>
    obtain ⟨h1, h2⟩ := h
    cases a <;> simp only [stepProc, hfile, Option.getD_some] at hs
    case crash => cases hs; exact ⟨rfl, trivial⟩
    case ioErr => cases hs; exact ⟨rfl, trivial⟩
    case fill n => cases hs
    case io n =>
      split at hs
      · rename_i hn
        cases hs
        refine ⟨rfl, ?_, hn.2⟩
        obtain ⟨t, ht⟩ := hc
        rw [h1, ← ht, List.take_append_of_le_length h2, List.take_append_of_le_length hn.2, List.take_add]
      · cases hs
    case tick =>
      have hpre : acc <+: C.enc k := h1 ▸ List.take_prefix _ _
      split at hs
      · rename_i k' hk'
        cases hs
        refine ⟨rfl, ?_⟩
        have hacc : acc = C.enc k := by
          by_cases hne : acc = C.enc k
          · exact hne
          · rw [hC.dec_prefix k acc hpre hne] at hk'
            cases hk'
        have hk : C.dec (C.enc k) = some k := by simpa using hC.dec_enc k []
        rw [hacc, hk] at hk'
        cases hk'
        refine ⟨?_, rfl⟩
        apply hc.eq_of_length
        apply Nat.le_antisymm hc.length_le
        rw [h1] at hacc
        have := congrArg List.length hacc
        rw [List.length_take] at this
        omega
      · split at hs
        · cases hs; exact ⟨rfl, trivial⟩
        · cases hs
  | done r => simp only [stepProc] at hs; cases hs
  | crashed => simp only [stepProc] at hs; cases hs
  | _ => exact absurd h id

theorem writer_step {clean : Prop} {p : FullParams} {k : K} {a : Act} {d d' : Disk} {ph ph' : Phase K}
    {c : List UInt8} (hfile : d.file (fileName p) = some c) (h : WriterOk clean k (C.enc k) c ph)
    (ha : clean → a ≠ .ioErr) (hs : stepProc C p k a d ph = some (d', ph')) :
    ∃ c', d'.file (fileName p) = some c' ∧ c <+: c' ∧ (c <+: C.enc k → c' <+: C.enc k) ∧
      WriterOk clean k (C.enc k) c' ph' := by
  cases ph with
  | writing off todo buf =>
    obtain ⟨rfl, h2⟩ := h
    cases a <;> simp only [stepProc, hfile, Option.getD_some] at hs
    case crash => cases hs; exact ⟨c, hfile, List.prefix_refl _, id, trivial⟩
    case tick =>
      split at hs
      · rename_i ht
        cases hs
        subst ht
        rw [List.append_nil] at h2
        exact ⟨c, hfile, List.prefix_refl _, id, rfl, h2, rfl⟩
      · cases hs
    case fill n =>
      split at hs
      · cases hs
        refine ⟨c, hfile, List.prefix_refl _, id, rfl, ?_⟩
        rw [List.append_assoc, List.take_append_drop, h2]
      · cases hs
    case io n =>
      split at hs
      · rename_i hn
        cases hs
        rw [writeAt_end]
        refine ⟨_, Disk.set_same _ _ _, List.prefix_append _ _, fun _ => ?_, ?_, ?_⟩
        · rw [← h2]
          refine ⟨buf.drop n ++ todo, ?_⟩
          rw [List.append_assoc, ← List.append_assoc (buf.take n), List.take_append_drop]
        · rw [List.length_append, List.length_take, Nat.min_eq_left hn.2.2]
        · rw [List.append_assoc, ← List.append_assoc (buf.take n), List.take_append_drop, h2]
      · cases hs
    case ioErr =>
      split at hs
      · cases hs
        exact ⟨c, hfile, List.prefix_refl _, id, rfl, ⟨todo, by rw [List.append_assoc, h2]⟩, fun hc => ha hc rfl⟩
      · cases hs
  | dropping res off buf =>
    have h1 : off = c.length := by cases res <;> exact h.1
    have hcb : c ++ buf <+: C.enc k := by
      cases res with
      | none => exact h.2.1
      | some k' => exact h.2.1 ▸ List.prefix_refl _
    subst h1
    cases a <;> simp only [stepProc, hfile, Option.getD_some] at hs
    case crash => cases hs; exact ⟨c, hfile, List.prefix_refl _, id, trivial⟩
    case ioErr =>
      cases hs
      refine ⟨c, hfile, List.prefix_refl _, id, ?_⟩
      cases res with
      | none => exact h.2.2
      | some k' => exact ⟨h.2.2, fun hc => absurd rfl (ha hc)⟩
    case fill n => cases hs
    case tick =>
      split at hs
      · rename_i hb
        cases hs
        subst hb
        refine ⟨c, hfile, List.prefix_refl _, id, ?_⟩
        cases res with
        | none => exact h.2.2
        | some k' => exact ⟨h.2.2, fun _ => by have := h.2.1; rwa [List.append_nil] at this⟩
      · cases hs
    case io n =>
      split at hs
      · rename_i hn
        cases hs
        rw [writeAt_end]
        have e : c ++ buf.take n ++ buf.drop n = c ++ buf := by rw [List.append_assoc, List.take_append_drop]
        have hl : c.length + n = (c ++ buf.take n).length := by
          rw [List.length_append, List.length_take, Nat.min_eq_left hn.2]
        refine ⟨_, Disk.set_same _ _ _, List.prefix_append _ _, fun _ => ?_, ?_⟩
        · exact (List.prefix_append _ (buf.drop n)).trans (e ▸ hcb)
        · cases res with
          | none => exact ⟨hl, e ▸ hcb, h.2.2⟩
          | some k' => exact ⟨hl, e ▸ h.2.1, h.2.2⟩
      · cases hs
  | done r => simp only [stepProc] at hs; cases hs
  | crashed => simp only [stepProc] at hs; cases hs
  | _ => exact absurd h id

/-- The process `w` (if any) exports the keys `k` to file `f`, every other process of that file
name in `A` loads it, the rest has stopped; `c` are the contents. -/
structure StoreInv (C : Codec K) (cfg : Nat → FullParams × K) (f : String) (k : K) (w : Option Nat) (clean : Prop)
    (A : Nat → Prop) (c : List UInt8) (s : Sys K) : Prop where
  file : s.disk.file f = some c
  pre : c <+: C.enc k
  procs : ∀ j, fileName (cfg j).1 = f →
    (w = some j ∧ (cfg j).2 = k ∧ WriterOk clean k (C.enc k) c (s.phase j)) ∨
    (w ≠ some j ∧ A j ∧ ReaderOk k (C.enc k) c (s.phase j)) ∨ (¬ A j ∧ (s.phase j).terminal)

theorem StoreInv.step (hC : C.Lawful) {f : String} {k : K} {w : Option Nat} {clean : Prop} {A : Nat → Prop} {c : List UInt8}
    {s s' : Sys K} {e : Nat × Act} (h : StoreInv C cfg f k w clean A c s)
    (ha : clean → ∀ j, w = some j → e ≠ (j, .ioErr)) (hs : sysStep C cfg s e = some s') :
    ∃ c', c <+: c' ∧ StoreInv C cfg f k w clean A c' s' ∧ (w = none → c' = c) := by
  obtain ⟨d, ph, h1, rfl, rfl, h3⟩ := sysStep_some hs
  by_cases hf : f = fileName (cfg e.1).1
  · subst hf
    rcases h.procs e.1 rfl with ⟨hw, hk, hp⟩ | ⟨hw, hA, hp⟩ | ⟨hA, hp⟩
    · rw [hk] at h1
      obtain ⟨c', g1, g2, g3, g4⟩ := writer_step h.file hp (fun hc ha' => ha hc _ hw (Prod.ext rfl ha')) h1
      refine ⟨c', g2, ⟨g1, g3 h.pre, fun j hj => ?_⟩, fun hn => by rw [hw] at hn; cases hn⟩
      by_cases hje : j = e.1
      · subst hje; exact Or.inl ⟨hw, hk, g4⟩
      · rw [h3 j hje]
        rcases h.procs j hj with ⟨hw', _⟩ | ⟨hw', hA', hp'⟩ | hp'
        · rw [hw] at hw'; exact absurd (Option.some.inj hw').symm hje
        · exact Or.inr (Or.inl ⟨hw', hA', hp'.grow g2 (g3 h.pre)⟩)
        · exact Or.inr (Or.inr hp')
    · obtain ⟨g1, g2⟩ := reader_step hC h.file h.pre hp h1
      refine ⟨c, List.prefix_refl _, ⟨g1 ▸ h.file, h.pre, fun j hj => ?_⟩, fun _ => rfl⟩
      by_cases hje : j = e.1
      · subst hje; exact Or.inr (Or.inl ⟨hw, hA, g2⟩)
      · rw [h3 j hje]; exact h.procs j hj
    · rw [terminal_step hp] at h1; cases h1
  · refine ⟨c, List.prefix_refl _, ⟨(stepProc_file_ne hf h1).trans h.file, h.pre, fun j hj => ?_⟩, fun _ => rfl⟩
    by_cases hje : j = e.1
    · subst hje; exact absurd hj.symm hf
    · rw [h3 j hje]; exact h.procs j hj

theorem StoreInv.run (hC : C.Lawful) {f : String} {k : K} {w : Option Nat} {clean : Prop} {A : Nat → Prop} {c : List UInt8}
    {s s' : Sys K} {es : List (Nat × Act)} (h : StoreInv C cfg f k w clean A c s)
    (ha : clean → ∀ j, w = some j → (j, Act.ioErr) ∉ es) (hs : sysRun C cfg s es = some s') :
    ∃ c', c <+: c' ∧ StoreInv C cfg f k w clean A c' s' ∧ (w = none → c' = c) := by
  refine sysRun_induct (P := fun s' => ∃ c', c <+: c' ∧ StoreInv C cfg f k w clean A c' s' ∧ (w = none → c' = c))
    ⟨c, List.prefix_refl _, h, fun _ => rfl⟩ ?_ hs
  rintro s e s' he ⟨c1, h1, h2, h3⟩ hst
  obtain ⟨c2, g1, g2, g3⟩ := h2.step hC (fun hc j hj => by rintro rfl; exact ha hc j hj he) hst
  exact ⟨c2, h1.trans g1, g2, fun hn => (g3 hn).trans (h3 hn)⟩

/-! ### Runs of a single process -/

/-- a run of one process -/
def procRun (C : Codec K) (p : FullParams) (k : K) : Disk → Phase K → List Act → Option (Disk × Phase K)
  | d, ph, [] => some (d, ph)
  | d, ph, a :: as => (stepProc C p k a d ph).bind fun r => procRun C p k r.1 r.2 as

theorem procRun_sys {i : Nat} : ∀ (as : List Act) {s : Sys K} {d : Disk} {ph : Phase K},
    procRun C (cfg i).1 (cfg i).2 s.disk (s.phase i) as = some (d, ph) →
    ∃ s', sysRun C cfg s (as.map fun a => (i, a)) = some s' ∧ s'.disk = d ∧ s'.phase i = ph ∧
      ∀ j, j ≠ i → s'.phase j = s.phase j
  | [], s, d, ph, h => by
    simp only [procRun] at h
    injection h with h
    injection h with h1 h2
    exact ⟨s, rfl, h1, h2, fun _ _ => rfl⟩
  | a :: as, s, d, ph, h => by
    simp only [procRun] at h
    cases hs : stepProc C (cfg i).1 (cfg i).2 a s.disk (s.phase i) with
    | none => rw [hs] at h; cases h
    | some r =>
      rw [hs] at h
      let s1 : Sys K := ⟨r.1, fun j => if j = i then r.2 else s.phase j⟩
      have e : sysStep C cfg s (i, a) = some s1 := by
        unfold sysStep
        dsimp only
        rw [hs]
        rfl
      have hp : s1.phase i = r.2 := if_pos rfl
      obtain ⟨s', g1, g2, g3, g4⟩ := procRun_sys as (s := s1) (by rw [hp]; exact h)
      refine ⟨s', ?_, g2, g3, fun j hj => (g4 j hj).trans (if_neg hj)⟩
      simp only [List.map_cons, sysRun]
      rw [e]
      exact g1

/-! ### The first construction -/

/-- The file is absent and `w` has not created it, or `w` is exporting it. -/
def FirstInv (C : Codec K) (cfg : Nat → FullParams × K) (w : Nat) (clean : Prop) (s : Sys K) : Prop :=
  (s.disk.file (fileName (cfg w).1) = none ∧ match s.phase w with
    | .start => True
    | .makeDir => True
    | .generate => s.disk.keysDir = true
    | .create => s.disk.keysDir = true
    | .done none => ¬ clean
    | .crashed => True
    | _ => False) ∨
  ∃ c, s.disk.file (fileName (cfg w).1) = some c ∧ c <+: C.enc (cfg w).2 ∧
    WriterOk clean (cfg w).2 (C.enc (cfg w).2) c (s.phase w)

theorem keysDir_step {p : FullParams} {k : K} {a : Act} {d d' : Disk} {ph ph' : Phase K}
    (h : stepProc C p k a d ph = some (d', ph')) (hd : d.keysDir = true) : d'.keysDir = true := by
  unfold stepProc at h
  repeat' split at h
  all_goals first
    | (cases h; done)
    | (cases h; exact hd)
    | (cases h; rfl)

theorem FirstInv.step {w : Nat} {clean : Prop} {s s' : Sys K} {e : Nat × Act} (h : FirstInv C cfg w clean s)
    (hq : clean → minQuadWeight ≤ (cfg w).1.params.quadWeight)
    (he : fileName (cfg e.1).1 = fileName (cfg w).1 → e.1 = w) (ha : clean → e ≠ (w, .ioErr))
    (hs : sysStep C cfg s e = some s') : FirstInv C cfg w clean s' := by
  obtain ⟨d, ph, h1, rfl, rfl, h3⟩ := sysStep_some hs
  by_cases hw : e.1 = w
  · obtain ⟨i, a⟩ := e
    cases hw
    dsimp only at h1 h3 he
    have ha' : clean → a ≠ .ioErr := fun hc hae => ha hc (by rw [hae])
    rcases h with ⟨hf, hp⟩ | ⟨c, hf, hpre, hp⟩
    · generalize s.phase i = ph at h1 hp
      cases ph with
      | start =>
        cases a <;> simp only [stepProc, hf, Option.isSome_none, Bool.false_eq_true, if_false] at h1
        case tick =>
          injection h1 with h1
          injection h1 with e1 e2
          refine Or.inl ⟨e1 ▸ hf, ?_⟩
          rw [← e2]
          by_cases hlt : (cfg i).1.params.quadWeight < minQuadWeight
          · rw [if_pos hlt]
            exact fun hc => absurd (hq hc) (Nat.not_le.2 hlt)
          · rw [if_neg hlt]
            trivial
        case crash =>
          injection h1 with h1
          injection h1 with e1 e2
          refine Or.inl ⟨e1 ▸ hf, ?_⟩
          rw [← e2]; trivial
        all_goals cases h1
      | makeDir =>
        cases a <;> simp only [stepProc] at h1
        case tick =>
          injection h1 with h1
          injection h1 with e1 e2
          refine Or.inl ⟨by rw [← e1]; exact hf, ?_⟩
          rw [← e2, ← e1]
        case ioErr =>
          injection h1 with h1
          injection h1 with e1 e2
          refine Or.inl ⟨e1 ▸ hf, ?_⟩
          rw [← e2]
          exact fun hc => ha' hc rfl
        case crash =>
          injection h1 with h1
          injection h1 with e1 e2
          refine Or.inl ⟨e1 ▸ hf, ?_⟩
          rw [← e2]; trivial
        all_goals cases h1
      | generate =>
        cases a <;> simp only [stepProc] at h1
        case tick =>
          injection h1 with h1
          injection h1 with e1 e2
          refine Or.inl ⟨e1 ▸ hf, ?_⟩
          rw [← e2, ← e1]; exact hp
        case crash =>
          injection h1 with h1
          injection h1 with e1 e2
          refine Or.inl ⟨e1 ▸ hf, ?_⟩
          rw [← e2]; trivial
        all_goals cases h1
      | create =>
        replace hp : s.disk.keysDir = true := hp
        cases a <;> simp only [stepProc, hp, if_true] at h1
        case tick =>
          injection h1 with h1
          injection h1 with e1 e2
          refine Or.inr ⟨[], by rw [← e1]; exact Disk.set_same _ _ _, List.nil_prefix, ?_⟩
          rw [← e2]
          exact ⟨rfl, by simp⟩
        case ioErr =>
          injection h1 with h1
          injection h1 with e1 e2
          refine Or.inl ⟨e1 ▸ hf, ?_⟩
          rw [← e2]
          exact fun hc => ha' hc rfl
        case crash =>
          injection h1 with h1
          injection h1 with e1 e2
          refine Or.inl ⟨e1 ▸ hf, ?_⟩
          rw [← e2]; trivial
        all_goals cases h1
      | done r => simp only [stepProc] at h1; cases h1
      | crashed => simp only [stepProc] at h1; cases h1
      | _ => exact absurd hp id
    · obtain ⟨c', g1, g2, g3, g4⟩ := writer_step hf hp ha' h1
      exact Or.inr ⟨c', g1, g3 hpre, g4⟩
  · have hne : fileName (cfg w).1 ≠ fileName (cfg e.1).1 := fun h => hw (he h.symm)
    have hf' := stepProc_file_ne hne h1
    unfold FirstInv
    rw [h3 w (Ne.symm hw), hf']
    rcases h with ⟨hf, hp⟩ | h
    · refine Or.inl ⟨hf, ?_⟩
      revert hp
      cases s.phase w with
      | generate => exact keysDir_step h1
      | create => exact keysDir_step h1
      | done r => cases r <;> exact id
      | _ => exact id
    · exact Or.inr h

theorem FirstInv.run {w : Nat} {clean : Prop} {s s' : Sys K} {es : List (Nat × Act)} (h : FirstInv C cfg w clean s)
    (hq : clean → minQuadWeight ≤ (cfg w).1.params.quadWeight)
    (he : ∀ e ∈ es, fileName (cfg e.1).1 = fileName (cfg w).1 → e.1 = w) (ha : clean → (w, Act.ioErr) ∉ es)
    (hs : sysRun C cfg s es = some s') : FirstInv C cfg w clean s' :=
  sysRun_induct (P := FirstInv C cfg w clean) h
    (fun _ e _ hmem hi hst => hi.step hq (he e hmem) (fun hc => by rintro rfl; exact ha hc hmem) hst) hs

end Parm
