import Verif.Model.ScalarMul

/-!
# Model of the lazily loaded chain table `ASC_12`, `/repo/src/lib.rs:75-82`

`lazy_static` runs the initialiser at the first access, in one thread while the others wait, and keeps the value for the rest
of the process.  If the initialiser panics, the `Once` behind it is poisoned and every later access panics as well (trusted, see
DESIGN.md).
-/

namespace Parm

/-- `assets/asc-12.yaml` in the working directory at some moment, `/repo/src/cloudovo/scalar_multiplication/asc.rs:102-114` -/
inductive AscFile where
  /-- no such file, `asc.rs:112-114` -/
  | missing
  /-- `read_to_string` or `serde_yaml::from_str` fails, `asc.rs:107,110` -/
  | unreadable
  /-- the map described by the file -/
  | parsed (m : List (Nat × Asc))

/-- `Asc::map_from_yaml(ASC_BITLEN, ASC_12_FILE)`, `/repo/src/cloudovo/scalar_multiplication/asc.rs:96-129` -/
def loadAsc : AscFile → Except ErrKind (List (Nat × Asc))
  | .missing => .error .ascMissing
  | .unreadable => .error .io
  | .parsed m => if m.length ≠ 2 ^ ascBitlen / 2 then .error .ascCount else .ok m

/-- the static variable `ASC_12`, `/repo/src/lib.rs:79-82` -/
inductive AscStatic where
  | fresh
  | ready (m : List (Nat × Asc))
  | poisoned

/-- an access: what the access gives, and the variable afterwards -/
def AscStatic.force (f : AscFile) : AscStatic → Except PanicKind (List (Nat × Asc)) × AscStatic
  | .fresh => match loadAsc f with
    | .ok m => (.ok m, .ready m)
    | .error e => (.error (.expect e), .poisoned)
  | .ready m => (.ok m, .ready m)
  -- "Once instance has previously been poisoned", an assertion of the standard library
  | .poisoned => (.error .assertion, .poisoned)

/-- The windows of a scalar, `/repo/src/cloudovo/scalar_multiplication/mod.rs:43-53`; `[]` for `0` and `±1`, which return
before. -/
def windowsM (b : Build) (k : Int) : M (List (Int × Nat)) := do
  let kAbsI ← i32Op b (k.natAbs : Int)
  let kAbs : Nat := (wrapU32 kAbsI).toNat
  if kAbs = 0 then pure [] else if kAbs = 1 then pure [] else windShifts b kAbs ascBitlen

/-- the outcome of a computation that starts no tasks -/
def ascOutcome {α : Type} (m : M α) : Option α :=
  match m (St.init Sched.seq) with
  | .ok (a, _) => some a
  | .error _ => none

/-- the windows, `none` if the call panics before it has them -/
def windowsOf (b : Build) (k : Int) : Option (List (Int × Nat)) := ascOutcome (windowsM b k)

/-- whether `scalar_mul_impl` gets as far as `ASC_12[..]`, `/repo/src/cloudovo/scalar_multiplication/mod.rs:74-78` -/
def needsTable (b : Build) (k : Int) : Bool :=
  ((windowsOf b k).getD []).isEmpty = false

/-- `scalar_mul` in a process, with the file system and the static variable: the call, and the variable afterwards.  The
tasks of `mod.rs:74-78` access the table before anything else. -/
def callScalarMul (S : Scheme) (pc : Cloud) (f : AscFile) (s : AscStatic) (k : Int) (x : Ctxt S.C) :
    M (Ctxt S.C) × AscStatic :=
  if needsTable pc.build k then
    match s.force f with
    | (.ok m, s') => (ctScalarMul S { pc with asc := m } k x, s')
    | (.error p, s') => (M.panic p, s')
  else (ctScalarMul S pc k x, s)

/-- the static variable after a sequence of calls, each with the file as it is at that moment (panics are caught by the
threads that make the calls) -/
def ascAfterBy (needs : Int → Bool) : AscStatic → List (AscFile × Int) → AscStatic
  | s, [] => s
  | s, (f, k) :: l => ascAfterBy needs (if needs k then (s.force f).2 else s) l

@[inherit_doc ascAfterBy]
def ascAfter (b : Build) : AscStatic → List (AscFile × Int) → AscStatic := ascAfterBy (needsTable b)

end Parm
