import Verif.Proof.AnyTable
import Verif.Proof.Instance
import Verif.Props.ScalarMul

/-!
# The chain table is loaded once, and not checked

C77.  `ASC_12` is read from `assets/asc-12.yaml` at the first scalar multiplication that needs it.  What the file is at that
moment decides for the rest of the process; later changes of the file — including putting it in place after a failure — have no
effect.  The loader only counts the chains (C26), so what scalar multiplication computes with a loaded table is described for
every table: the value is put together from the values of the chains, whatever they are, and a chain that is missing or refers
to something not yet computed makes the calls that use it panic.
-/

namespace Parm

variable {S : Scheme} {ck : ClientKey S} {pc : Cloud} {B D : Nat}

/-! ### The windows in release builds -/

theorem wrapU32_abs {k : Int} (hk1 : -2 ^ 31 ≤ k) (hk2 : k < 2 ^ 31) :
    (wrapU32 (wrapI32 (k.natAbs : Int))).toNat = k.natAbs := by
  have hka : k.natAbs < 4294967296 := by omega
  revert hka
  generalize k.natAbs = ka
  intro hka
  have : wrapU32 (wrapI32 (ka : Int)) = ka := by
    unfold wrapU32 wrapI32
    rw [show ((2 : Nat) ^ 32 : Nat) = 4294967296 by norm_num]
    have := Int.bmod_emod (x := (ka : Int)) (m := 4294967296)
    norm_num at this ⊢
    rw [this]
    omega
  rw [this]; rfl

theorem Returns.ascOutcome {α : Type} {m : M α} {a : α} {n : Nat} (h : Returns m a n) : ascOutcome m = some a := by
  obtain ⟨_, _, _, hr⟩ := h (St.init Sched.seq)
  unfold Parm.ascOutcome
  rw [hr]

theorem windowsOf_small {k : Int} (h : k.natAbs ≤ 1) : windowsOf .release k = some [] := by
  have : k = 0 ∨ k = 1 ∨ k = -1 := by omega
  rcases this with rfl | rfl | rfl <;> rfl

theorem windowsOf_release {k : Int} (hk1 : -2 ^ 31 ≤ k) (hk2 : k < 2 ^ 31) (h2 : 2 ≤ k.natAbs) :
    ∃ ws, ws ≠ [] ∧ windowsOf .release k = some ws ∧ Returns (windShifts .release k.natAbs ascBitlen) ws 0 := by
  obtain ⟨ws, w1, _, _, _, w5⟩ := windShifts_spec (show k.natAbs ≠ 0 by omega) (show k.natAbs < 2 ^ 32 by omega)
    (bitlen := ascBitlen) (by decide) (by decide)
  refine ⟨ws, w5, ?_, w1⟩
  have : Returns (windowsM .release k) ws (0 + 0) := by
    unfold windowsM
    refine (i32Op_release_abs hk1 hk2).bind ?_
    simp only [wrapU32_abs hk1 hk2]
    rw [if_neg (by omega), if_neg (by omega)]
    exact w1
  exact this.ascOutcome

/-- **C77**, which scalars need the table: all but 0, 1 and -1 (release build). -/
theorem C77_needs {k : Int} (hk1 : -2 ^ 31 ≤ k) (hk2 : k < 2 ^ 31) :
    needsTable .release k = true ↔ k ≠ 0 ∧ k ≠ 1 ∧ k ≠ -1 := by
  by_cases h : k.natAbs ≤ 1
  · have : needsTable .release k = false := by
      unfold needsTable
      rw [windowsOf_small h]
      rfl
    rw [this]
    simp only [Bool.false_eq_true, false_iff]
    omega
  · obtain ⟨ws, h1, h2, _⟩ := windowsOf_release hk1 hk2 (by omega)
    have : needsTable .release k = true := by
      unfold needsTable
      rw [h2, Option.getD_some]
      cases ws with
      | nil => exact absurd rfl h1
      | cons w ws => rfl
    rw [this]
    simp only [true_iff]
    omega

/-! ### Loaded once -/

theorem ascAfter_ready (needs : Int → Bool) (m : List (Nat × Asc)) : ∀ l : List (AscFile × Int),
    ascAfterBy needs (.ready m) l = .ready m
  | [] => rfl
  | (f, k) :: l => by
    unfold ascAfterBy
    split_ifs
    · exact ascAfter_ready needs m l
    · exact ascAfter_ready needs m l

theorem ascAfter_poisoned (needs : Int → Bool) : ∀ l : List (AscFile × Int), ascAfterBy needs .poisoned l = .poisoned
  | [] => rfl
  | (f, k) :: l => by
    unfold ascAfterBy
    split_ifs
    · exact ascAfter_poisoned needs l
    · exact ascAfter_poisoned needs l

/-- the file at the first call that needs the table, if there is such a call -/
def firstFile (needs : Int → Bool) (l : List (AscFile × Int)) : Option AscFile := (l.find? fun e => needs e.2).map (·.1)

/-- what an access to the file makes of the static variable -/
def settledBy : Option AscFile → AscStatic
  | none => .fresh
  | some f => match loadAsc f with
    | .ok m => .ready m
    | .error _ => .poisoned

theorem ascAfter_first (needs : Int → Bool) : ∀ l : List (AscFile × Int),
    ascAfterBy needs .fresh l = settledBy (firstFile needs l)
  | [] => rfl
  | (f, k) :: l => by
    unfold ascAfterBy firstFile
    by_cases h : needs k = true
    · rw [if_pos h, List.find?_cons_of_pos (p := fun e : AscFile × Int => needs e.2) (a := (f, k)) h]
      simp only [Option.map_some, settledBy]
      unfold AscStatic.force
      cases loadAsc f with
      | ok m => exact ascAfter_ready needs m l
      | error e => exact ascAfter_poisoned needs l
    · rw [if_neg h, List.find?_cons_of_neg (p := fun e : AscFile × Int => needs e.2) (a := (f, k)) h]
      exact ascAfter_first needs l

/-- **C77.** The file at the moment of the first call that needs it decides; nothing that happens to it before or after
matters. -/
theorem C77_first (b : Build) (l : List (AscFile × Int)) :
    ascAfter b .fresh l = settledBy (firstFile (needsTable b) l) := ascAfter_first _ l

theorem callScalarMul_after (f : AscFile) (s : AscStatic) (k : Int) (x : Ctxt S.C) :
    (callScalarMul S pc f s k x).2 = if needsTable pc.build k then (s.force f).2 else s := by
  unfold callScalarMul
  by_cases h : needsTable pc.build k = true
  · rw [if_pos h, if_pos h]
    obtain ⟨r, s'⟩ := s.force f
    cases r <;> rfl
  · rw [if_neg h, if_neg h]

/-- **C77**, the calls themselves: after any sequence of scalar multiplications, whatever their operands, the static variable is
as the file was at the first of them that needed the table. -/
theorem C77_calls (l : List (AscFile × Int × Ctxt S.C)) :
    l.foldl (fun s c => (callScalarMul S pc c.1 s c.2.1 c.2.2).2) .fresh =
      settledBy (firstFile (needsTable pc.build) (l.map fun c => (c.1, c.2.1))) := by
  rw [← C77_first]
  unfold ascAfter
  generalize AscStatic.fresh = s
  induction l generalizing s with
  | nil => rfl
  | cons c l ih =>
    rw [List.foldl_cons, ih, List.map_cons, callScalarMul_after]
    conv => rhs; unfold ascAfterBy

/-- Case: a call with 1 does not load the table, and the call with 6 finds no file, so that the file put in place afterwards is
not read. -/
example (x : Ctxt Demo.scheme.C) : [(AscFile.parsed asc12, (1 : Int), x), (.missing, 6, x), (.parsed asc12, 3, x)].foldl
    (fun s c => (callScalarMul Demo.scheme Demo.cloud c.1 s c.2.1 c.2.2).2) .fresh = .poisoned := by
  have h1 : needsTable .release 1 = false := by
    rw [Bool.eq_false_iff, Ne, C77_needs (by decide) (by decide)]; decide
  have h6 : needsTable .release 6 = true := (C77_needs (by decide) (by decide)).2 (by decide)
  rw [C77_calls]
  show settledBy (firstFile (needsTable .release) _) = _
  simp only [firstFile, List.map_cons, List.find?_cons, h1, h6, Option.map_some]
  rfl

/-- **C77**, the good case: once a table is loaded, every later call is a scalar multiplication with this table, whatever has
become of the file. -/
theorem C77_loaded {l : List (AscFile × Int)} {m : List (Nat × Asc)}
    {f₀ : AscFile} (h : firstFile (needsTable pc.build) l = some f₀) (hf : loadAsc f₀ = .ok m) (f : AscFile) (k : Int) (x : Ctxt S.C) :
    (callScalarMul S pc f (ascAfter pc.build .fresh l) k x).1 =
      if needsTable pc.build k then ctScalarMul S { pc with asc := m } k x else ctScalarMul S pc k x := by
  rw [C77_first, h]
  simp only [settledBy, hf]
  unfold callScalarMul
  split_ifs <;> rfl

/-- **C77**, the bad case: if the file was missing, not readable or did not have 2048 chains at the first call that needed it,
every call with a scalar other than 0, 1 and -1 panics, for the rest of the process and also when the file has been put in
place; calls with 0, 1, -1 still work. -/
theorem C77_poisoned (hb : pc.build = .release) {l : List (AscFile × Int)} {f₀ : AscFile} {e : ErrKind}
    (h : firstFile (needsTable pc.build) l = some f₀) (hf : loadAsc f₀ = .error e) (f : AscFile) {k : Int} (hk1 : -2 ^ 31 ≤ k) (hk2 : k < 2 ^ 31) (x : Ctxt S.C) :
    ((k ≠ 0 ∧ k ≠ 1 ∧ k ≠ -1) → AllFail (callScalarMul S pc f (ascAfter pc.build .fresh l) k x).1) ∧
    (k = 0 → Returns (callScalarMul S pc f (ascAfter pc.build .fresh l) k x).1 [] 0) ∧
    (k = 1 → Returns (callScalarMul S pc f (ascAfter pc.build .fresh l) k x).1 x 0) ∧
    (k = -1 → Returns (callScalarMul S pc f (ascAfter pc.build .fresh l) k x).1 (ctOpp S x) 0) := by
  rw [C77_first, h]
  simp only [settledBy, hf]
  unfold callScalarMul
  rw [hb]
  refine ⟨fun hk => ?_, ?_, ?_, ?_⟩
  · rw [if_pos ((C77_needs hk1 hk2).2 hk)]
    exact (Fails.panic _).allFail
  · rintro rfl; exact (C13_small (pc := pc) x).1
  · rintro rfl; exact (C13_small (pc := pc) x).2.1
  · rintro rfl; exact (C13_small (pc := pc) x).2.2

/-- The call that meets the bad file panics as well. -/
theorem C77_first_fails (hb : pc.build = .release) {f : AscFile} {e : ErrKind} (hf : loadAsc f = .error e) {k : Int}
    (hk1 : -2 ^ 31 ≤ k) (hk2 : k < 2 ^ 31) (hk : k ≠ 0 ∧ k ≠ 1 ∧ k ≠ -1) (x : Ctxt S.C) :
    Fails (callScalarMul S pc f .fresh k x).1 (.panic (.expect e)) := by
  unfold callScalarMul
  rw [hb, if_pos ((C77_needs hk1 hk2).2 hk)]
  unfold AscStatic.force
  simp only [hf]
  exact Fails.panic _

/-- **C77**, which files are refused: exactly those that are missing, not readable, or do not have 2048 chains. -/
theorem C77_refused (f : AscFile) : (∃ e, loadAsc f = .error e) ↔
    f = .missing ∨ f = .unreadable ∨ ∃ m, f = .parsed m ∧ m.length ≠ 2048 := by
  cases f with
  | missing => simp [loadAsc]
  | unreadable => simp [loadAsc]
  | parsed m =>
    have e : 2 ^ ascBitlen / 2 = 2048 := rfl
    simp only [loadAsc, e]
    split_ifs with h
    · simp [h]
    · simp [not_not.1 h]

/-- a process started outside of the directory with `assets`, the file put in place after the failure: it still fails -/
example (x : Ctxt Demo.scheme.C) : AllFail (callScalarMul Demo.scheme Demo.cloud (.parsed asc12)
    (ascAfter .release .fresh [(.missing, 1), (.missing, 6), (.parsed asc12, 3)]) 10 x).1 :=
  (C77_poisoned (pc := Demo.cloud) rfl (l := [(.missing, 1), (.missing, 6), (.parsed asc12, 3)]) (f₀ := .missing)
    (by
      have h1 : needsTable .release 1 = false := by
        rw [Bool.eq_false_iff, Ne, C77_needs (by decide) (by decide)]; decide
      have h6 : needsTable .release 6 = true := (C77_needs (by decide) (by decide)).2 (by decide)
      show firstFile (needsTable .release) _ = _
      simp only [firstFile, List.find?_cons, h1, h6, Option.map_some])
    rfl _ (by decide) (by decide) x).1 (by decide)

/-! ### Any table -/

/-- **C77**, the value with an arbitrary table: the sum over the windows of the scalar of what the chains are worth, and a
panic if one of these chains is missing or ill-formed. -/
theorem C77_any_table (st : Setting S ck pc B D) (hb : pc.build = .release) {k : Int} (hk1 : -2 ^ 31 ≤ k) (hk2 : k < 2 ^ 31)
    {ws : List (Int × Nat)} (hws : windowsOf .release k = some ws) (hne : ws ≠ []) {x : Ctxt S.C} {v : Int}
    (hx : Valid ck B x v) :
    match tableSum pc.asc ws with
    | some s => Yields (ctScalarMul S pc k x) (fun z => Valid ck B z ((if k ≥ 0 then 1 else -1) * s * v))
    | none => AllFail (ctScalarMul S pc k x) := by
  have h2 : 2 ≤ k.natAbs := by
    by_contra h
    rw [windowsOf_small (by omega)] at hws
    cases hws
    exact hne rfl
  obtain ⟨ws', _, h, h'⟩ := windowsOf_release hk1 hk2 h2
  rw [hws] at h
  cases h
  have := scalarMulImpl_table st hk1 hk2 h2 (by rw [hb]; exact i32Op_release_abs hk1 hk2) (by rw [hb]; exact h') hne hx
  revert this
  cases tableSum pc.asc ws with
  | some s => exact fun h => h.call
  | none => exact fun h => h.call

/-- the shipped table with the chains of 3 and 5 exchanged -/
def swapped : List (Nat × Asc) := asc12.map fun e =>
  if e.1 = 3 then (3, [⟨true, 0, true, 0, 2⟩]) else if e.1 = 5 then (5, [⟨true, 0, true, 0, 1⟩]) else e

/-- **C77**, a wrong table is accepted and gives wrong products silently: with the chains of 3 and 5 exchanged, `3 · x` is
`5 · x` for every `x`. -/
theorem C77_wrong_table (st : Setting S ck pc B D) (hb : pc.build = .release) {x : Ctxt S.C} {v : Int}
    (hx : Valid ck B x v) :
    Yields (callScalarMul S pc (.parsed swapped) .fresh 3 x).1 (fun z => Valid ck B z (5 * v)) := by
  have hlen : swapped.length = 2048 := by
    have := congrArg List.length asc12_keys
    simpa [swapped] using this
  have hneed : needsTable pc.build 3 = true := by rw [hb]; exact (C77_needs (by decide) (by decide)).2 (by decide)
  have hload : loadAsc (.parsed swapped) = .ok swapped := by
    have e : 2 ^ ascBitlen / 2 = 2048 := rfl
    simp only [loadAsc, e, hlen]
    rfl
  unfold callScalarMul
  rw [if_pos hneed]
  unfold AscStatic.force
  simp only [hload]
  have st' : Setting S ck { pc with asc := swapped } B D :=
    ⟨st.msgMod, st.carryMod, st.bitPrecision, st.polySize, st.sound, st.tolerance⟩
  have := C77_any_table st' hb (k := 3) (by decide) (by decide) (ws := [(3, 0)]) (by decide +kernel) (by decide) hx
  rw [show tableSum swapped [(3, 0)] = some 5 by decide +kernel] at this
  exact this.mono fun z h => h.congr (by norm_num)

example : Yields (callScalarMul Demo.scheme Demo.cloud (.parsed swapped) .fresh 3 (Demo.encVec [1, 0, 1])).1
    (fun z => Valid Demo.ck (2 ^ 53) z 25) :=
  (C77_wrong_table Demo.st rfl Demo.valid5).mono fun _ h => h.congr (by norm_num)

/-- an ill-formed chain makes the calls that use it panic -/
example {x : Ctxt Demo.scheme.C} {v : Int} (hx : Valid Demo.ck (2 ^ 53) x v) :
    AllFail (ctScalarMul Demo.scheme { Demo.cloud with asc := [(1, []), (3, [⟨true, 0, true, 1, 1⟩])] } 3 x) :=
  C77_any_table (pc := { Demo.cloud with asc := [(1, []), (3, [⟨true, 0, true, 1, 1⟩])] })
    (Demo.setting _ .release) rfl (k := 3) (by decide) (by decide) (ws := [(3, 0)]) (by decide +kernel) (by decide)
    hx

end Parm
