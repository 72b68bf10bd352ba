import Verif.Model.Keys

/-!
# Model of the logging macros of `/repo/src/misc.rs`

The macros work on static variables (`/repo/src/lib.rs:85-91`).  Time stamps, colours and what is
printed to the terminal are dropped.
-/

namespace Parm

/-! ### The log level -/

/-- The shape of a computation as far as the log level is concerned: nested `measure_duration!` blocks
and early exits (`?` or `return Err(..)`, which leave all enclosing blocks of the function). -/
inductive Measured where
  | skip
  | seq (a b : Measured)
  /-- `measure_duration!([..], [body])` -/
  | block (body : Measured)
  /-- an early exit -/
  | exit

/-- `if LOG_LVL < u8::MAX {LOG_LVL += 1;}`, `/repo/src/misc.rs:17-19` -/
def incLvl (l : Nat) : Nat := if l < 255 then l + 1 else l
/-- `if LOG_LVL > 0 {LOG_LVL -= 1;}`, `/repo/src/misc.rs:41` -/
def decLvl (l : Nat) : Nat := if l > 0 then l - 1 else l

/-- Running it (feature `measure`, one thread): whether the end is reached, and the log level, which
is an `u8`.  `measure_duration!`, `/repo/src/misc.rs:5-57`. -/
def Measured.run : Measured → Nat → Bool × Nat
  | .skip, l => (true, l)
  | .seq a b, l => match a.run l with
    | (true, l') => b.run l'
    | r => r
  | .block body, l => match body.run (incLvl l) with
    | (true, l') => (true, decLvl l')
    | r => r
  | .exit, l => (false, l)

/-- `PrivKeySet::new`, `/repo/src/userovo/keys.rs:42-68`: the file is missing and everything succeeds … -/
def newKeysMeasured : Measured := .seq (.block .skip) (.block .skip)
/-- … or `File::create` or `serialize_into` fails (lines 56, 57) … -/
def exportFailsMeasured : Measured := .seq (.block .skip) (.block .exit)
/-- … or the file exists and `File::open` or `deserialize_from` fails (lines 64, 65). -/
def loadFailsMeasured : Measured := .block .exit

/-! ### The log level with several threads

With feature `measure` but without `seq_analyze` the blocks run in several threads, which share `LOG_LVL`
(a `static mut`, `/repo/src/lib.rs:85`). -/

/-- The updates of the level made by a computation: `true` up, `false` down; and whether it reaches the end. -/
def Measured.ops : Measured → Bool × List Bool
  | .skip => (true, [])
  | .seq a b => match a.ops with
    | (true, u) => (b.ops.1, u ++ b.ops.2)
    | r => r
  | .block body => match body.ops with
    | (true, u) => (true, true :: (u ++ [false]))
    | (false, u) => (false, true :: u)
  | .exit => (false, [])

/-- Where a thread is within an update of the level, `/repo/src/misc.rs:18` and `:41`: -/
inductive LvlPhase where
  /-- before the comparison -/
  | idle
  /-- before reading the level for `+= 1` or `-= 1` -/
  | checked
  /-- before storing; has read `v` -/
  | loaded (v : Nat)
  deriving DecidableEq, Repr

/-- The level, the updates each thread still has to make, and where it is.  `panicked`: some thread has
panicked (arithmetic overflow, debug builds). -/
structure LvlSys where
  lvl : Nat
  todo : Nat → List Bool
  phase : Nat → LvlPhase
  panicked : Bool

/-- The next memory access of thread `t`.  (Rust leaves the behaviour of racing accesses undefined; this is
what the processor does with the three accesses in this order.) -/
def LvlSys.step (b : Build) (t : Nat) (s : LvlSys) : LvlSys :=
  let goto p : LvlSys := { s with phase := fun u => if u = t then p else s.phase u }
  let done l : LvlSys := { goto .idle with lvl := l, todo := fun u => if u = t then (s.todo t).tail else s.todo u }
  match s.todo t with
  | [] => s
  | up :: _ => match s.phase t with
    | .idle => if up then (if s.lvl < 255 then goto .checked else done s.lvl)
      else if s.lvl > 0 then goto .checked else done s.lvl
    | .checked => goto (.loaded s.lvl)
    | .loaded v =>
      if up then if v < 255 then done (v + 1) else match b with
        | .debug => { s with panicked := true }
        | .release => done 0
      else if v > 0 then done (v - 1) else match b with
        | .debug => { s with panicked := true }
        | .release => done 255

/-- an interleaving -/
def LvlSys.run (b : Build) : List Nat → LvlSys → LvlSys
  | [], s => s
  | t :: ts, s => LvlSys.run b ts (s.step b t)

/-- threads `t < k` about to run `m t` at level `l` -/
def LvlSys.start (l k : Nat) (m : Nat → Measured) : LvlSys where
  lvl := l
  todo t := if t < k then (m t).ops.2 else []
  phase _ := .idle
  panicked := false

/-- The next update of thread `t`, if updates were atomic (not in the code; for comparison). -/
def LvlSys.stepAtomic (t : Nat) (s : LvlSys) : LvlSys :=
  match s.todo t with
  | [] => s
  | up :: rest => { s with lvl := if up then incLvl s.lvl else decLvl s.lvl, todo := fun u => if u = t then rest else s.todo u }

def LvlSys.runAtomic : List Nat → LvlSys → LvlSys
  | [], s => s
  | t :: ts, s => LvlSys.runAtomic ts (s.stepAtomic t)

/-! ### The log file -/

/-- `LOG_INITED` and the contents of `LOGFILE` (`none`: does not exist), `/repo/src/lib.rs:87-88` -/
structure LogSt where
  inited : Bool
  file : Option String
  deriving DecidableEq, Repr

/-- `parm_log_plain!`, `/repo/src/misc.rs:113-134`, in one thread; `none`: the `unwrap()` of line 119
panics because the file has disappeared.  Failing system calls are not modelled. -/
def logPlain (msg : String) (s : LogSt) : Option LogSt :=
  if s.inited then s.file.map fun c => { s with file := some (c ++ (msg ++ "\n")) }
  else some { inited := true, file := some ("" ++ (msg ++ "\n")) }

/-- a sequence of calls -/
def logAll : List String → LogSt → Option LogSt
  | [], s => some s
  | m :: ms, s => (logPlain m s).bind (logAll ms)

/-- Where a thread is within `parm_log_plain!`: -/
inductive LogPhase where
  /-- before `if LOG_INITED`, line 118 -/
  | start
  /-- before opening, line 119 -/
  | append
  /-- before `exists()`, line 122 -/
  | check
  /-- before `remove_file`, line 123 -/
  | remove
  /-- before `LOG_INITED = true`, line 125 -/
  | mark
  /-- before `File::create`, line 126 -/
  | create
  /-- before the first write of `writeln!`, line 129, with a handle to the file of the given age, at an offset
  (`none`: append mode) -/
  | write (age : Nat) (off : Option Nat)
  /-- before its second write (`write_fmt` writes the message and the line break separately) -/
  | newline (age : Nat) (off : Option Nat)
  | done
  | panicked
  deriving DecidableEq, Repr

/-- The log file and a second thread's view: `age` counts the files created so far (a removed file
stays accessible through its handles). -/
structure LogSys where
  inited : Bool
  age : Nat
  file : Option String
  phase : Nat → LogPhase

/-- one `write` of `text` to the file of age `age` at the offset, or at the end -/
def LogSys.put (age : Nat) (off : Option Nat) (text : String) (s : LogSys) : LogSys :=
  if age = s.age ∧ s.file.isSome then
    { s with file := s.file.map fun c => match off with
        | none => c ++ text
        | some o => String.ofList (c.toList.take o) ++ text ++ String.ofList (c.toList.drop (o + text.length)) }
  else s

/-- The next step of thread `t` logging `msg`, `/repo/src/misc.rs:113-134`.  `File::create` truncates. -/
def LogSys.step (msg : String) (t : Nat) (s : LogSys) : LogSys :=
  let goto (s : LogSys) p : LogSys := { s with phase := fun u => if u = t then p else s.phase u }
  match s.phase t with
  | .start => if s.inited then goto s .append else goto s .check
  | .append => if s.file.isSome then goto s (.write s.age none) else goto s .panicked
  | .check => if s.file.isSome then goto s .remove else goto s .mark
  | .remove => if s.file.isSome then goto { s with file := none } .mark else goto s .panicked
  | .mark => goto { s with inited := true } .create
  | .create =>
    if s.file.isSome then goto { s with file := some "" } (.write s.age (some 0))
    else goto { s with age := s.age + 1, file := some "" } (.write (s.age + 1) (some 0))
  | .write age off => goto (s.put age off msg) (.newline age (off.map (· + msg.length)))
  | .newline age off => goto (s.put age off "\n") .done
  | .done => s
  | .panicked => s

/-- an interleaving of two or more threads, thread `t` logging `msgs t` once -/
def LogSys.run (msgs : Nat → String) : List Nat → LogSys → LogSys
  | [], s => s
  | t :: ts, s => LogSys.run msgs ts (s.step (msgs t) t)

end Parm
