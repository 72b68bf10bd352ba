import Mathlib.Data.Int.Basic

/-!
# Chains of odd numbers (specification for property C83)

Independent of the scripts: what a number of additions can reach when every number is odd and positive and no shifted
operand exceeds a bound.
-/

namespace Parm

/-- `vs` (newest first) starts from 1, and each further number is positive and is `±x ± 2^s·y` for earlier `x`, `y`, with
`s ≥ 1` and `2^s·y ≤ B` -/
inductive OddChain (B : Int) : List Int → Prop
  | one : OddChain B [1]
  | step {vs : List Int} {x y ε δ : Int} (h : OddChain B vs) (hx : x ∈ vs) (hy : y ∈ vs) (hε : ε = 1 ∨ ε = -1)
      (hδ : δ = 1 ∨ δ = -1) (s : Nat) (hs : 1 ≤ s) (hB : y * 2 ^ s ≤ B) (hpos : 0 < ε * x + δ * (y * 2 ^ s)) :
      OddChain B ((ε * x + δ * (y * 2 ^ s)) :: vs)

end Parm
