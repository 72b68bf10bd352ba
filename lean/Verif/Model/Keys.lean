import Verif.Model.Encryption

/-!
# Model of `/repo/src/userovo/keys.rs` and of the constructor `ParmesanUserovo::new`

Key generation, export and loading as a state machine over a shared directory: every system
call is one step, a process may be interrupted (or crash) between any two steps, and any number
of processes may run concurrently.

Modelled of the libraries (trusted, see DESIGN.md): `std::fs` (`is_file`, `create_dir_all`,
`File::create` truncating, writes at the handle's offset, reads at the handle's offset),
`BufWriter` (bytes reach the file in pieces of any size, the rest is written when the writer is
dropped, *ignoring errors*), `BufReader`, `bincode` (`Codec`).
-/

namespace Parm

/-- tfhe-rs' `ClassicPBSParameters`, the type of `Params.concrete_pars`,
`/repo/src/params.rs:11`; the two standard deviations are given by the bits of the `f64`. -/
structure PbsParams where
  lweDimension : Nat
  glweDimension : Nat
  polynomialSize : Nat
  lweModularStdDev : BitVec 64
  glweModularStdDev : BitVec 64
  pbsBaseLog : Nat
  pbsLevel : Nat
  ksBaseLog : Nat
  ksLevel : Nat
  messageModulus : Nat
  carryModulus : Nat
  deriving DecidableEq, Repr

/-- `Params`, `/repo/src/params.rs:10-16`, with all fields -/
structure FullParams where
  concretePars : PbsParams
  params : Params
  deriving DecidableEq, Repr

/-- `KEYS_PATH`, `/repo/src/userovo/keys.rs:16` -/
def keysPath : String := "./keys/"

/-- `filename_from_params`, `/repo/src/userovo/keys.rs:75-87` -/
def fileName (p : FullParams) : String :=
  keysPath ++ "/parm__tfhe_rs_v0_2-keys__" ++
    ("n-" ++ Nat.repr p.concretePars.lweDimension ++
     "_N-" ++ Nat.repr p.concretePars.polynomialSize ++
     "_gamma-" ++ Nat.repr p.concretePars.pbsBaseLog ++
     "_l-" ++ Nat.repr p.concretePars.pbsLevel ++
     "_kappa-" ++ Nat.repr p.concretePars.ksBaseLog ++
     "_t-" ++ Nat.repr p.concretePars.ksLevel ++ ".key")

/-- `bincode::serialize_into` / `bincode::deserialize_from` on a key pair,
`/repo/src/userovo/keys.rs:57,65`: the bytes written, and the key pair read from a byte stream
(`none`: `Err`). -/
structure Codec (K : Type) where
  enc : K → List UInt8
  dec : List UInt8 → Option K

/-- What is trusted about `bincode`: reading back what was written succeeds, whatever follows;
reading a stream that ends too early is an error. -/
structure Codec.Lawful {K : Type} (C : Codec K) : Prop where
  dec_enc : ∀ k t, C.dec (C.enc k ++ t) = some k
  dec_prefix : ∀ k t, t <+: C.enc k → t ≠ C.enc k → C.dec t = none

/-- The part of the file system the constructor uses: whether the directory exists, and the
contents of the regular files. -/
structure Disk where
  keysDir : Bool
  file : String → Option (List UInt8)

def Disk.set (d : Disk) (f : String) (c : List UInt8) : Disk :=
  { d with file := fun g => if g = f then some c else d.file g }

/-- `write` of `bs` at offset `off` of a file with contents `c` (a gap is filled by zeros) -/
def writeAt (c : List UInt8) (off : Nat) (bs : List UInt8) : List UInt8 :=
  c.take off ++ List.replicate (off - c.length) 0 ++ bs ++ c.drop (off + bs.length)

/-- Where a call of `ParmesanUserovo::new` is. -/
inductive Phase (K : Type) where
  /-- not yet started, `/repo/src/lib.rs:113` and `/repo/src/userovo/keys.rs:42` -/
  | start
  /-- `keys.rs:44` -/
  | makeDir
  /-- `keys.rs:49` -/
  | generate
  /-- `keys.rs:56` -/
  | create
  /-- `keys.rs:57`: offset of the file handle, bytes not yet passed to the `BufWriter`, bytes in its buffer -/
  | writing (off : Nat) (todo buf : List UInt8)
  /-- `keys.rs:57`, end of `serialize_into`: the `BufWriter` is dropped; the result is determined -/
  | dropping (res : Option K) (off : Nat) (buf : List UInt8)
  /-- `keys.rs:64` -/
  | opening
  /-- `keys.rs:65`: offset of the file handle, bytes read so far -/
  | reading (off : Nat) (acc : List UInt8)
  /-- returned: `some` for `Ok`, `none` for `Err` -/
  | done (res : Option K)
  /-- the process crashed -/
  | crashed

/-- What happens next to a process: its next step, bytes passed to the writer, bytes read or
written by a system call, a failing system call, a crash. -/
inductive Act where
  | tick
  | fill (n : Nat)
  | io (n : Nat)
  | ioErr
  | crash
  deriving DecidableEq, Repr

section
variable {K : Type} (C : Codec K)

/-- One step of `ParmesanUserovo::new(params)`, `/repo/src/lib.rs:112-121`, and
`PrivKeySet::new`, `/repo/src/userovo/keys.rs:34-72`; `k` is the key pair `gen_keys` would
produce.  `none`: not possible in this phase. -/
def stepProc (p : FullParams) (k : K) (a : Act) (d : Disk) : Phase K → Option (Disk × Phase K)
  | .start => match a with
    | .tick => some (d, if p.params.quadWeight < minQuadWeight then .done none
        else if (d.file (fileName p)).isSome then .opening else .makeDir)
    | .crash => some (d, .crashed)
    | _ => none
  | .makeDir => match a with
    | .tick => some ({ d with keysDir := true }, .generate)
    | .ioErr => some (d, .done none)
    | .crash => some (d, .crashed)
    | _ => none
  | .generate => match a with
    | .tick => some (d, .create)
    | .crash => some (d, .crashed)
    | _ => none
  | .create => match a with
    | .tick => if d.keysDir then some (d.set (fileName p) [], .writing 0 (C.enc k) [])
        else some (d, .done none)
    | .ioErr => some (d, .done none)
    | .crash => some (d, .crashed)
    | _ => none
  | .writing off todo buf => match a with
    | .tick => if todo = [] then some (d, .dropping (some k) off buf) else none
    | .fill n => if 0 < n ∧ n ≤ todo.length then some (d, .writing off (todo.drop n) (buf ++ todo.take n)) else none
    | .io n => if todo ≠ [] ∧ 0 < n ∧ n ≤ buf.length then
        some (d.set (fileName p) (writeAt ((d.file (fileName p)).getD []) off (buf.take n)),
          .writing (off + n) todo (buf.drop n)) else none
    | .ioErr => if todo ≠ [] then some (d, .dropping none off buf) else none
    | .crash => some (d, .crashed)
  | .dropping res off buf => match a with
    | .tick => if buf = [] then some (d, .done res) else none
    | .io n => if 0 < n ∧ n ≤ buf.length then
        some (d.set (fileName p) (writeAt ((d.file (fileName p)).getD []) off (buf.take n)),
          .dropping res (off + n) (buf.drop n)) else none
    | .ioErr => some (d, .done res)
    | .crash => some (d, .crashed)
    | _ => none
  | .opening => match a with
    | .tick => some (d, if (d.file (fileName p)).isSome then .reading 0 [] else .done none)
    | .ioErr => some (d, .done none)
    | .crash => some (d, .crashed)
    | _ => none
  | .reading off acc => match a with
    | .io n => if 0 < n ∧ off + n ≤ ((d.file (fileName p)).getD []).length then
        some (d, .reading (off + n) (acc ++ (((d.file (fileName p)).getD []).drop off).take n)) else none
    | .tick => match C.dec acc with
      | some k' => some (d, .done (some k'))
      | none => if ((d.file (fileName p)).getD []).length ≤ off then some (d, .done none) else none
    | .ioErr => some (d, .done none)
    | .crash => some (d, .crashed)
    | _ => none
  | .done _ => none
  | .crashed => none

/-- A directory and any number of processes, each at some point of a constructor call. -/
structure Sys (K : Type) where
  disk : Disk
  phase : Nat → Phase K

/-- Process `i` makes a step; `cfg i` are its parameters and the keys it would generate. -/
def sysStep (cfg : Nat → FullParams × K) (s : Sys K) (e : Nat × Act) : Option (Sys K) :=
  (stepProc C (cfg e.1).1 (cfg e.1).2 e.2 s.disk (s.phase e.1)).map fun r =>
    { disk := r.1, phase := fun j => if j = e.1 then r.2 else s.phase j }

/-- an execution: an interleaving of steps of the processes -/
def sysRun (cfg : Nat → FullParams × K) : Sys K → List (Nat × Act) → Option (Sys K)
  | s, [] => some s
  | s, e :: es => (sysStep C cfg s e).bind fun s => sysRun cfg s es

/-- no process has started -/
def Sys.fresh (d : Disk) : Sys K := ⟨d, fun _ => .start⟩

end

end Parm
