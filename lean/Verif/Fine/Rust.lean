import Verif.Fine.Proc

/-!
# The vocabulary of `Verif.Model.Rust` on computations with interleaved tasks

Nothing in this file models a function of `/repo`; the files `Verif/Fine/Code*.lean` contain the
functions of the model, with `M` replaced by `P`.
-/

namespace Parm.Fine

/-- as `Parm.M`: may fail, forks tasks, performs bootstraps -/
abbrev P := Proc

def P.err {α : Type} (e : ErrKind) : P α := Proc.fault (.err e)
def P.panic {α : Type} (p : PanicKind) : P α := Proc.fault (.panic p)
/-- `.expect(..)` on a `Result` -/
def P.expect {α : Type} (p : P α) : P α := Proc.expect p
/-- one programmable bootstrap, `/repo/src/cloudovo/pbs.rs:62-63` -/
def P.bumpPbs : P Unit := Proc.pbs (Proc.ret ())
/-- as `M.call`; the analysis counters of `/repo/src/misc.rs:136-151` belong to the feature
`seq_analyze`, which has no parallel tasks, and are left out -/
def P.call {α : Type} (p : P α) : P α := P.expect p

/-- `arr.par_iter_mut().enumerate().for_each(|(i, slot)| *slot = f i slot)`: one task for each slot,
all of them running concurrently -/
def parFor {α : Type} (arr : List α) (f : Nat → α → P α) : P (List α) :=
  Proc.fork arr.length (fun i => f i.val arr[i]) fun r => pure (List.ofFn r)

/-- A thread scope spawning two tasks that write two distinct variables. -/
def par2 {α β : Type} (a : P α) (b : P β) : P (α × β) := Proc.both a b fun x y => pure (x, y)

/-- A thread scope spawning three tasks that write three distinct variables. -/
def par3 {α β γ : Type} (a : P α) (b : P β) (c : P γ) : P (α × β × γ) :=
  Proc.both a (par2 b c) fun x yz => pure (x, yz)

end Parm.Fine
