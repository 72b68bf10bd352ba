import Verif.Model.Naf

/-!
# The prototype of the recoding

`kt(k)` of `/repo/scripts/koyama-tsuruoka/kt.rb:5-88` (Ruby: integers of any size, arrays that grow when assigned behind the
end).  The script takes `Math::log2(k).floor`, computed in floating point; here this is a parameter `lg`.
The local variables are those of the Rust function, `KtSt`.
-/

namespace Parm.KtScript

/-- `(k >> i) & 1` -/
def bit (k i : Nat) : Int := ((k / 2 ^ i % 2 : Nat) : Int)

/-- `k_vec[j] = t`; Ruby fills a gap with `nil` (here 0) -/
def put (v : List Int) (j : Nat) (t : Int) : List Int :=
  if j < v.length then v.set j t else v ++ List.replicate (j - v.length) 0 ++ [t]

/-- `while j < bound do k_vec[j] = f(j); j += 1 end`, `n = bound - j` -/
def fill (f : Nat → Int) : (n j : Nat) → List Int → List Int
  | 0, _, v => v
  | n + 1, j, v => fill f n (j + 1) (put v j (f j))

/-- body of the main loop, `kt.rb:28-54` -/
def step (k : Nat) (s : KtSt) : KtSt :=
  let y := if bit k s.x = 1 then s.y + 1 else s.y - 1
  let x := s.x + 1
  if s.m = 0 then
    if y ≥ s.z + 3 then
      let vec := fill (bit k) (s.w - s.j) s.j s.vec
      let j := max s.j s.w
      { s with vec := put vec j (-1), j := j + 1, x := x, y := y, v := y, u := x, m := 1 }
    else if y < s.z then { s with x := x, y := y, z := y, w := x }
    else { s with x := x, y := y }
  else
    if s.v ≥ y + 3 then
      let vec := fill (fun i => bit k i - 1) (s.u - s.j) s.j s.vec
      let j := max s.j s.u
      { s with vec := put vec j 1, j := j + 1, x := x, y := y, z := y, w := x, m := 0 }
    else if y > s.v then { s with x := x, y := y, v := y, u := x }
    else { s with x := x, y := y }

/-- `kt.rb:27-55`: `n = (k_len - 1) - x` iterations -/
def loop (k : Nat) : Nat → KtSt → KtSt
  | 0, s => s
  | n + 1, s => loop k n (step k s)

/-- `kt.rb:57-79` -/
def finish (k : Nat) (s : KtSt) : List Int :=
  if s.m = 0 ∨ (s.m = 1 ∧ s.v ≤ s.y) then
    let vec := fill (fun i => bit k i - s.m) (s.x - s.j) s.j s.vec
    let j := max s.j s.x
    put (put vec j (1 - s.m)) (j + 1) s.m
  else
    let vec := fill (fun i => bit k i - 1) (s.u - s.j) s.j s.vec
    let j := max s.j s.u
    let vec := put vec j 1
    let j := j + 1
    let vec := fill (bit k) (s.x - j) j vec
    let j := max j s.x
    put (put vec j 1) (j + 1) 0

/-- `kt(k)`, `kt.rb:5-88`; `lg k` is `Math::log2(k).floor` -/
def kt (lg : Nat → Nat) (k : Nat) : List Int :=
  if k = 0 then [0]
  else if k = 1 then [1]
  else
    let kLen := lg k + 1
    let vec := finish k (loop k (kLen - 1)
      { vec := List.replicate (kLen + 1) 0, j := 0, m := 0, x := 0, y := 0, z := 0, u := 0, v := 0, w := 0 })
    if vec.getLast? = some 0 then vec.dropLast else vec

end Parm.KtScript
