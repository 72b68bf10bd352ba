import Verif.SpecWeights
import Mathlib.Data.Nat.Log

/-!
# Specification of bootstrap depth and dependencies (properties C54 and C55)
-/

namespace Parm

/-- number of bootstraps one after another -/
def Term.depth : Term → Nat
  | .input _ => 0
  | .boot _ t => t.depth + 1
  | .add s t => max s.depth t.depth
  | .neg t => t.depth
  | .mulC t _ => t.depth
  | .addPt t _ => t.depth

/-- the samples from outside that a term depends on -/
def Term.inputs : Term → Finset Nat
  | .input i => {i}
  | .boot _ t => t.inputs
  | .add s t => s.inputs ∪ t.inputs
  | .neg t => t.inputs
  | .mulC t _ => t.inputs
  | .addPt t _ => t.inputs

/-- all words have depth at most `d` -/
def DepthLE (d : Nat) (x : Ctxt Term) : Prop := ∀ w ∈ x, ∀ t, w.ct = .ct t → t.depth ≤ d

/-- all words are fresh samples -/
def Samples (x : Ctxt Term) : Prop := ∀ w ∈ x, w.msgMod = 32 ∧ ∃ i, w.ct = .ct (.input i)

/-- the depth of the deepest word -/
def maxDepth : Ctxt Term → Nat
  | [] => 0
  | ⟨.ct t, _⟩ :: x => max t.depth (maxDepth x)
  | ⟨.triv _, _⟩ :: x => maxDepth x

/-- Whenever `m` returns, the words of the result have depth at most `d`. -/
def Deep (d : Nat) (m : M (Ctxt Term)) : Prop := ∀ s z s', m s = .ok (z, s') → DepthLE d z

/-- the samples from outside that word `i` depends on -/
def inputsAt (x : Ctxt Term) (i : Nat) : Finset Nat :=
  match x[i]? with
  | some ⟨.ct t, _⟩ => t.inputs
  | _ => ∅

end Parm
