import Mathlib.Data.List.Basic
import Mathlib.Data.Int.Notation

/-!
# Specification of addition-subtraction chains with shifts (property C59)
-/

namespace Parm

/-- `Chain vs`: starting from 1, the values `vs` (latest first) can be computed one after another, each by one addition
or subtraction of two earlier ones, the right one shifted. -/
inductive Chain : List Int → Prop
  | one : Chain [1]
  | step {vs : List Int} {x y ε δ : Int} (h : Chain vs) (hx : x ∈ vs) (hy : y ∈ vs) (hε : ε = 1 ∨ ε = -1)
      (hδ : δ = 1 ∨ δ = -1) (s : Nat) : Chain ((ε * x + δ * (y * 2 ^ s)) :: vs)

/-- `k` can be computed by `n` additions and subtractions. -/
def ByAdditions (n : Nat) (k : Int) : Prop := ∃ vs, Chain vs ∧ vs.length = n + 1 ∧ k ∈ vs

end Parm
