/-!
# Rust runtime vocabulary used by the model

Nothing in this file models a function of `/repo`.  It fixes how the model
represents the parts of the Rust runtime the code relies on: the build profile
(overflow checks on or off), panics and `Err` values, fixed-width integers,
`f64 → integer` casts, and the effect monad in which every modelled function runs.
-/

namespace Parm

/-- Cargo profile: `debug` has arithmetic overflow checks (a failing check
panics), `release` wraps.  `/repo/Makefile:1-7` builds and tests with `--release`;
`/repo/Cargo.toml` sets no `overflow-checks`, so these are the defaults. -/
inductive Build where
  | debug
  | release
  deriving DecidableEq, Repr

/-- Error values returned through `Result<_, Box<dyn Error>>` in the modelled code. -/
inductive ErrKind where
  /-- "Unexpected fatal error!" `/repo/src/cloudovo/addition.rs:104` -/
  | addFatal
  /-- "Multiplication for {}-word integers not implemented." `multiplication.rs:84` -/
  | mulTooLong
  /-- "Squaring for {}-word integer not implemented." `squaring.rs:40` -/
  | squTooLong
  /-- "ParmCiphertext longer than 63." `encryption.rs:110` -/
  | ctTooLong
  /-- "Word m_[i] out of redundant bin alphabet" `encryption.rs:117` -/
  | decAlphabet
  /-- "Word to be encrypted outside the alphabet {-1,0,1}." `encryption.rs:41` -/
  | encAlphabet
  /-- "Client key is None for decryption of non-trivial ciphertext." `ciphertexts.rs:62` -/
  | noClientKey
  /-- "Element in abs > 1 for binary HW!" `encryption.rs:127` -/
  | hwAlphabet
  /-- "Quadratic weight of provided parameters is lower than required" `lib.rs:114` -/
  | quadWeight
  /-- an I/O or (de)serialisation error propagated by `?` in `keys.rs:44-65` -/
  | io
  /-- "ASC file does not exist" `asc.rs:113` -/
  | ascMissing
  /-- "Wrong number of ASC's" `asc.rs:117` -/
  | ascCount
  deriving DecidableEq, Repr

/-- Reasons for which the modelled code panics. -/
inductive PanicKind where
  /-- arithmetic or shift overflow with overflow checks on -/
  | overflow
  /-- slice/vector index out of bounds, or missing `BTreeMap` key -/
  | index
  /-- "Word m = {} does not fit 5-bit LUT." `pbs.rs:76` -/
  | lutRange
  /-- "Squaring of 2-bit has no position {}." `pbs.rs:334` -/
  | squPos
  /-- "Rounding position ≥ 63 (for i64)." `arithmetics.rs:203` -/
  | roundPos
  /-- a failed `assert!`/`assert_eq!` -/
  | assertion
  /-- `.expect(..)`/`.unwrap()` on an `Err` -/
  | expect (e : ErrKind)
  /-- `.unwrap()` on `None` -/
  | unwrapNone
  /-- the model ran out of recursion fuel (never happens; proved unreachable) -/
  | fuel
  deriving DecidableEq, Repr

/-- How a modelled function can fail to return a value. -/
inductive Fault where
  | err (e : ErrKind)
  | panic (p : PanicKind)
  deriving DecidableEq, Repr

/-- A scheduler for the parallel regions (rayon `par_iter_mut().for_each`,
crossbeam `thread::scope`).  `order r k` is the order in which the `k` tasks of
the `r`-th region entered (dynamically) run.  Every permutation is allowed.
Simplification: tasks run one after another; inside a region each task writes only
its own slot and reads only data no other task writes (Rust's `&mut`/`&` rules
enforce this in the modelled code), so finer interleavings are equivalent. -/
structure Sched where
  order : Nat → Nat → List Nat
  perm : ∀ r k, (order r k).Perm (List.range k)

/-- The sequential scheduler (the `seq_analyze` feature: `iter_mut` instead of
`par_iter_mut`, and the fake threads of `/repo/src/seq_utils/thread.rs:6-10`,
`/repo/src/seq_utils/thread_scope.rs:6-8`). -/
def Sched.seq : Sched := ⟨fun _ k => List.range k, fun _ _ => List.Perm.refl _⟩

/-- What `finish_pbs_analysis!` prints (`count`), with the number of bootstraps performed when the
matching `start_pbs_analysis!` and it were executed. -/
structure Report where
  start : Nat
  finish : Nat
  count : Nat
  deriving DecidableEq, Repr

/-- Execution state: scheduler, number of parallel regions entered so far, number of programmable
bootstraps performed so far; and, of the `seq_analyze` feature, the static variable `N_PBS`,
`/repo/src/lib.rs:91` (top first), and what has been printed, latest first.  Builds without this
feature ignore the last two. -/
structure St where
  sched : Sched
  region : Nat
  pbs : Nat
  nPbs : List Nat
  reports : List Report

/-- the state of a process that has not done anything yet -/
def St.init (σ : Sched) : St := { sched := σ, region := 0, pbs := 0, nPbs := [], reports := [] }

/-- `if let Some(last) = N_PBS.last_mut() { *last += n; }`, `/repo/src/cloudovo/pbs.rs:63`,
`/repo/src/misc.rs:148` -/
def bumpTop (n : Nat) : List Nat → List Nat
  | [] => []
  | a :: t => (a + n) :: t

/-- Effect of a modelled function: may panic or return `Err`, consumes scheduling
decisions, counts bootstraps. -/
abbrev M := StateT St (Except Fault)

def M.err {α} (e : ErrKind) : M α := throw (Fault.err e)
def M.panic {α} (p : PanicKind) : M α := throw (Fault.panic p)

/-- `.expect(..)` on a `Result`: an `Err` becomes a panic. -/
def M.expect {α} (m : M α) : M α := fun s =>
  match m s with
  | .error (.err e) => .error (.panic (.expect e))
  | r => r

/-- One programmable bootstrap is performed (and counted, `/repo/src/cloudovo/pbs.rs:62-63`). -/
def M.bumpPbs : M Unit := modify fun s => { s with pbs := s.pbs + 1, nPbs := bumpTop 1 s.nPbs }

/-- `start_pbs_analysis!(); <m>; finish_pbs_analysis!();`, `/repo/src/misc.rs:136-151` -/
def M.analysed {α} (m : M α) : M α := do
  let s0 ← get
  set { s0 with nPbs := 0 :: s0.nPbs }
  let a ← m
  modify fun s => match s.nPbs with
    | n :: t => { s with nPbs := bumpTop n t, reports := ⟨s0.pbs, s.pbs, n⟩ :: s.reports }
    | [] => s
  pure a

/-- The common shape of the operations of `impl ParmArithmetics for ParmCiphertext`,
`/repo/src/arithmetics.rs:234-475`: analysis around an implementation whose `Err` is a panic. -/
def M.call {α} (m : M α) : M α := M.analysed m.expect

/-- Enter a parallel region with `k` tasks: obtain its execution order. -/
def M.nextOrder (k : Nat) : M (List Nat) := do
  let s ← get
  set { s with region := s.region + 1 }
  pure (s.sched.order s.region k)

/-- `v[i]` with Rust's bounds check. -/
def idx {α} (l : List α) (i : Nat) : M α :=
  match l[i]? with
  | some a => pure a
  | none => M.panic .index

/-- `v[i] = a` with Rust's bounds check. -/
def setIdx {α} (l : List α) (i : Nat) (a : α) : M (List α) :=
  if i < l.length then pure (l.set i a) else M.panic .index

/-- Run the tasks `order` over the slots `arr`; task `i` replaces slot `i`. -/
def runTasks {α} (f : Nat → α → M α) : List Nat → List α → M (List α)
  | [], arr => pure arr
  | i :: is, arr => do
    let a ← idx arr i
    let b ← f i a
    runTasks f is (arr.set i b)

/-- `arr.par_iter_mut().enumerate().for_each(|(i, slot)| *slot = f i slot)`. -/
def parFor {α} (arr : List α) (f : Nat → α → M α) : M (List α) := do
  let ord ← M.nextOrder arr.length
  runTasks f ord arr

/-- `arr.iter_mut().enumerate().for_each(|(i, slot)| *slot = f i slot)`. -/
def seqFor {α} (arr : List α) (f : Nat → α → M α) : M (List α) :=
  runTasks f (List.range arr.length) arr

/-- A thread scope spawning two tasks that write two distinct variables. -/
def par2 {α β} (a : M α) (b : M β) : M (α × β) := do
  let ord ← M.nextOrder 2
  if ord.head? = some 0 then do
    let x ← a
    let y ← b
    pure (x, y)
  else do
    let y ← b
    let x ← a
    pure (x, y)

/-- A thread scope spawning three tasks that write three distinct variables; all six
orders are possible. -/
def par3 {α β γ} (a : M α) (b : M β) (c : M γ) : M (α × β × γ) := do
  let ord ← M.nextOrder 3
  if ord.head? = some 0 then do
    let x ← a
    if ord[1]? = some 1 then do
      let y ← b
      let z ← c
      pure (x, y, z)
    else do
      let z ← c
      let y ← b
      pure (x, y, z)
  else if ord.head? = some 1 then do
    let y ← b
    if ord[1]? = some 0 then do
      let x ← a
      let z ← c
      pure (x, y, z)
    else do
      let z ← c
      let x ← a
      pure (x, y, z)
  else do
    let z ← c
    if ord[1]? = some 0 then do
      let x ← a
      let y ← b
      pure (x, y, z)
    else do
      let y ← b
      let x ← a
      pure (x, y, z)

/-! ### Fixed-width integers -/

def inI32 (x : Int) : Bool := -2 ^ 31 ≤ x && x < 2 ^ 31
def inI64 (x : Int) : Bool := -2 ^ 63 ≤ x && x < 2 ^ 63
def inU32 (x : Int) : Bool := 0 ≤ x && x < 2 ^ 32

/-- two's complement wrap to `i32` / `i64` / `u32` -/
def wrapI32 (x : Int) : Int := Int.bmod x (2 ^ 32)
def wrapI64 (x : Int) : Int := Int.bmod x (2 ^ 64)
def wrapU32 (x : Int) : Int := x % 2 ^ 32

/-- Result of an `i32`/`i64`/`u32` arithmetic operation whose exact value is `x`. -/
def i32Op (b : Build) (x : Int) : M Int :=
  if inI32 x then pure x else match b with
    | .debug => M.panic .overflow
    | .release => pure (wrapI32 x)
def i64Op (b : Build) (x : Int) : M Int :=
  if inI64 x then pure x else match b with
    | .debug => M.panic .overflow
    | .release => pure (wrapI64 x)
def u32Op (b : Build) (x : Int) : M Int :=
  if inU32 x then pure x else match b with
    | .debug => M.panic .overflow
    | .release => pure (wrapU32 x)

/-- Shift amount of a 64-bit shift: amounts `≥ 64` panic in debug builds and are
reduced modulo 64 in release builds. -/
def shAmt64 (b : Build) (i : Nat) : M Nat :=
  if i < 64 then pure i else match b with
    | .debug => M.panic .overflow
    | .release => pure (i % 64)

/-- `f64 as i32` / `f64 as u64` saturate (Rust reference, numeric casts). -/
def satI32 (x : Int) : Int := if x < -2 ^ 31 then -2 ^ 31 else if 2 ^ 31 - 1 < x then 2 ^ 31 - 1 else x
def satU64 (x : Int) : BitVec 64 :=
  if x < 0 then 0 else if 2 ^ 64 - 1 < x then BitVec.allOnes 64 else BitVec.ofInt 64 x

/-- `u64 as f64`: exact below `2^53`, otherwise round-to-nearest-even to 53
significant bits. -/
def u64ToF64 (v : Nat) : Nat :=
  if v < 2 ^ 53 then v else
    let e := v.log2 - 52
    let q := v / 2 ^ e
    let r := v % 2 ^ e
    let up := if 2 * r > 2 ^ e then true else if 2 * r = 2 ^ e then q % 2 = 1 else false
    (if up then q + 1 else q) * 2 ^ e

end Parm
