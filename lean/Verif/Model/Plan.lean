/-!
# The planning script

`/repo/scripts/optimal-multiplication/search-optimum-multiplication.rb` computes the number of
bootstraps of products and squares by length and which method to use.  The tables `jm` and `js`
are Ruby hashes filled for the keys 1 to 33; here they are lists of 34 entries (entry 0, `NaN` in
the script, is 0 and never read).  The printed comparison is kept as a second list.
-/

namespace Parm.Plan

/-- lines 16-20 -/
def A : Nat := 2
def M : Nat := 1
def S : Nat := 1

/-- `m(n)`, lines 45-47 -/
def m (n : Nat) : Nat := M * n ^ 2 + A * n * (n - 1)

/-- `s(n)`, lines 50-52 -/
def s (n : Nat) : Nat := M * n * (n - 1) / 2 + S * n + A * n * (n - 1)

/-- a table under construction: values, and whether the divided method was chosen -/
structure Tab where
  val : List Nat
  divided : List Bool

def Tab.at (t : Tab) (n : Nat) : Nat := t.val.getD n 0

def Tab.put (t : Tab) (n divided plain : Nat) : Tab :=
  { val := t.val.set n (min divided plain), divided := t.divided.set n (decide (divided < plain)) }

/-- lines 55-60: the entries below 5 -/
def jm0 : Tab :=
  { val := ((((List.replicate 34 0).set 1 (m 1)).set 2 (m 2)).set 3 (m 3)).set 4 (m 4),
    divided := List.replicate 34 false }

/-- lines 63-67 -/
def js0 : Tab :=
  { val := (((List.replicate 34 0).set 1 (s 1)).set 2 3).set 3 5, divided := List.replicate 34 false }

/-- body of the first loop, lines 73-90, without the output -/
def mulStep (jm : Tab) (n : Nat) : Tab :=
  let k0 := 2 * jm.at n + jm.at (n + 1) + A * (2 * n + 2 * n + 2 * (n + 1) + 3 * n)
  let k1 := jm.at n + jm.at (n + 1) + jm.at (n + 2) +
    A * (2 * (n + 1) + 2 * (n + 1) + 2 * (n + 2) + (3 * n + 1))
  (jm.put (2 * n) k0 (m (2 * n))).put (2 * n + 1) k1 (m (2 * n + 1))

/-- lines 73-90: `(2..16).each` -/
def jm : Tab := (List.range' 2 15).foldl mulStep jm0

/-- body of the second loop, lines 99-119, without the output -/
def squStep (js : Tab) (n : Nat) : Tab :=
  let d0 := if n < 4 then 2 * js.at n + jm.at n + A * (3 * n - 1)
    else 2 * js.at n + jm.at n + A * (2 * n + (2 * n + 1))
  let d1 := js.at n + js.at (n + 1) + jm.at (n + 1) + A * (3 * n)
  (js.put (2 * n) d0 (s (2 * n))).put (2 * n + 1) d1 (s (2 * n + 1))

/-- lines 99-119: `(2..16).each` -/
def js : Tab := (List.range' 2 15).foldl squStep js0

end Parm.Plan
