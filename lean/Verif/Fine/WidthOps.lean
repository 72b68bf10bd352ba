import Verif.Fine.Time

/-!
# Additions: number of workers that can be busy at the same time
-/

namespace Parm
namespace Proc

theorem Width.mono {α : Type} {p : Proc α} {w : Nat} (h : Width p w) : ∀ {w'}, w ≤ w' → Width p w' := by
  induction h with
  | ret a => intro w' _; exact .ret a _
  | fault f => intro w' _; exact .fault f _
  | pbs h _ ih => intro w' h'; exact .pbs (h.trans h') (ih h')
  | fork ht hs _ _ ih => intro w' h'; exact .fork ht (hs.trans h') fun r => ih r h'
  | both h1 h2 hs _ _ _ ih => intro w' h'; exact .both h1 h2 (hs.trans h') fun x y => ih x y h'

theorem Width.bind {α β : Type} {p : Proc α} {f : α → Proc β} {w : Nat} (h : Width p w) :
    (∀ a, Width (f a) w) → Width (p.bind f) w := by
  induction h with
  | ret a => intro hf; exact hf a
  | fault e => intro _; exact .fault e _
  | pbs h _ ih => intro hf; exact .pbs h (ih hf)
  | fork ht hs _ _ ih => intro hf; exact .fork ht hs fun r => ih r hf
  | both h1 h2 hs _ _ _ ih => intro hf; exact .both h1 h2 hs fun x y => ih x y hf

theorem Width.expect {α : Type} {p : Proc α} {w : Nat} (h : Width p w) : Width p.expect w := by
  induction h with
  | ret a => exact .ret a _
  | fault e => exact .fault _ _
  | pbs h _ ih => exact .pbs h ih
  | fork ht hs _ _ ih => exact .fork ht hs ih
  | both h1 h2 hs _ _ _ ih => exact .both h1 h2 hs ih

end Proc

namespace Fine
open Proc (Width)

namespace Slim
variable {α β : Type} {w : Nat}

theorem pure (a : α) : Width (Pure.pure a : P α) w := .ret a w
theorem panic (k : PanicKind) : Width (P.panic k : P α) w := .fault _ w
theorem err (k : ErrKind) : Width (P.err k : P α) w := .fault _ w
theorem bind {p : P α} {f : α → P β} (h : Width p w) (hf : ∀ a, Width (f a) w) : Width (p >>= f) w :=
  Width.bind (p := p) h hf

theorem idx (l : List α) (i : Nat) : Width (Fine.idx l i) w := by
  unfold Fine.idx
  split
  · exact pure _
  · exact panic _

theorem ite {c : Prop} [Decidable c] {p q : P α} (h1 : c → Width p w) (h2 : ¬ c → Width q w) :
    Width (if c then p else q) w := by
  split
  · rename_i h; exact h1 h
  · rename_i h; exact h2 h

theorem parFor {arr : List α} {f : Nat → α → P α} (h : ∀ i a, Width (f i a) 1) (hw : arr.length ≤ w) :
    Width (Fine.parFor arr f) w :=
  .fork (c := fun _ => 1) (fun i => h _ _) (by simpa using hw) fun r => pure _

theorem seqFor {arr : List α} {f : Nat → α → P α} (h : ∀ i a, Width (f i a) w) : Width (Fine.seqFor arr f) w := by
  have key : ∀ (ord : List Nat) (arr : List α), Width (Fine.runTasks f ord arr) w := by
    intro ord
    induction ord with
    | nil => intro arr; exact pure _
    | cons i is ih => intro arr; exact bind (idx _ _) fun a => bind (h i a) fun b => ih _
  exact key _ _

variable {S : Scheme} {pc : Cloud}

theorem lut (c : Word S.C) (t : List Nat) : Width (evalLut5Uint S pc c t) 1 := by
  unfold evalLut5Uint evalLut5Float
  split
  · refine bind (.pbs le_rfl (.ret _ _)) fun _ => ite (fun _ => panic _) fun _ => pure _
  · refine bind ?_ fun _ => ite (fun _ => pure _) fun _ => pure _
    exact ite (fun _ => idx _ _) fun _ => ite (fun _ => bind (idx _ _) fun _ => pure _) fun _ => panic _

/-- never more bootstraps at the same time than words -/
theorem addSub (isAdd refresh : Bool) (x y : Ctxt S.C) :
    Width (addSubImpl S isAdd pc x y refresh) (max x.length y.length) := by
  unfold addSubImpl
  refine ite (fun _ => pure _) fun _ => ite (fun _ => pure _) fun _ => ite (fun _ => err _) fun _ => ?_
  have hlen : ((trivCt S.C pc (max (x.length - lzero x) (y.length - lzero y))).drop (max (rzero x) (rzero y))).length ≤
      max x.length y.length := by
    simp [trivCt]; omega
  refine bind (parFor (fun i _ => ?_) hlen) fun qHi => bind (seqFor fun i a => ?_) fun w => bind ?_ fun zHi => ?_
  · refine bind (idx _ _) fun _ => bind ?_ fun _ => lut _ _
    exact ite (fun _ => bind (idx _ _) fun _ => pure _) fun _ => pure _
  · exact bind (idx _ _) fun _ => ite (fun _ => bind (idx _ _) fun _ => pure _) fun _ => pure _
  · exact ite (fun _ => parFor (fun i _ => bind (idx _ _) fun _ => lut _ _) hlen) fun _ => pure _
  · split
    · exact pure _
    · exact panic _

end Slim
end Fine
end Parm
