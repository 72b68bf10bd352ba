import Verif.Model.Ciphertext

/-!
# The scripts that generated the table of chains

`/repo/scripts/add-sub-special-chains/variant.rb` searches chains and prints them, `parse-asc_log-to-yaml.rb` turns the
printed lines into the table `assets/asc-12.yaml`.  Printing a chain and splitting the line is left out here (see
`Model/ChainText.lean`): the second script is modelled on the numbers of the line.  `LIMIT_WID` and the number of calls of `extend_chains_ary` are parameters.  The fields
`posi`, `negi` (read nowhere) are dropped; of the references `p`, `q` only the values are kept (all the rest reads).
`none` stands for a raised exception.
-/

namespace Parm.ChainScript

/-- `OddClass`, `variant.rb:13-55`: value, width and, unless it is the unit, `(p_pos, p.val, q_pos, q.val, r)` -/
structure Odd where
  val : Int
  wid : Nat
  src : Option (Bool × Int × Bool × Int × Nat)
  deriving DecidableEq

/-- `OddClass.new`, `variant.rb:18-28` -/
def Odd.unit : Odd := ⟨1, 1, none⟩

def sgn (b : Bool) : Int := if b then 1 else -1

/-- `OddClass.new(p_pos, p, q_pos, q, r)`, `variant.rb:29-40` -/
def Odd.make (pPos : Bool) (p : Odd) (qPos : Bool) (q : Odd) (r : Nat) : Odd :=
  ⟨sgn pPos * p.val + sgn qPos * q.val * 2 ^ r, max p.wid (q.wid + r), some (pPos, p.val, qPos, q.val, r)⟩

/-- `ASChain`, `variant.rb:72` -/
abbrev AsChain := List Odd

/-- the index `difi` of `merge`, `variant.rb:85-91`: the first position at which the chains differ -/
def difi : AsChain → AsChain → Nat
  | [], _ => 0
  | _ :: _, [] => 0
  | a :: s, b :: o => if a.val ≠ b.val then 0 else difi s o + 1

/-- `ASChain#merge`, `variant.rb:83-94` -/
def merge (self other : AsChain) : Option AsChain :=
  if difi self other = 0 then none else some (self ++ other.drop (difi self other))

/-- `to_vals`, `variant.rb:96-100` -/
def vals (c : AsChain) : List Int := c.map (·.val)

/-- the hash `db` from values to chains, in the order of insertion -/
abbrev Db := List (Int × List AsChain)

def Db.get (db : Db) (v : Int) : Option (List AsChain) := (db.find? (·.1 = v)).map (·.2)

/-- `variant.rb:146-161`: add a candidate if its value is new, or its chain is as long as the known ones and differs -/
def addCand (cand : AsChain) (v : Int) (st : List AsChain × Db) : List AsChain × Db :=
  match st.2.get v with
  | none => (st.1 ++ [cand], st.2 ++ [(v, [cand])])
  | some cs =>
    if (cs.head?.map List.length = some cand.length) ∧ vals cand ∉ cs.map vals then
      (st.1 ++ [cand], st.2.map fun e => if e.1 = v then (e.1, e.2 ++ [cand]) else e)
    else st

/-- `variant.rb:143-146` -/
def tryOne (cpq : AsChain) (p q : Odd) (st : List AsChain × Db) (t : Nat × Bool × Bool) : List AsChain × Db :=
  let on := Odd.make t.2.1 p t.2.2 q t.1
  if on.val > 0 then addCand (cpq ++ [on]) on.val st else st

/-- the three innermost loops, `variant.rb:139-142` -/
def tries (limit : Nat) (q : Odd) : List (Nat × Bool × Bool) :=
  (List.range' 1 (limit - q.wid)).flatMap fun r => [(r, true, true), (r, true, false), (r, false, true), (r, false, false)]

/-- `variant.rb:127-139` for one pair of chains -/
def tryPair (limit lvl : Nat) (cp cq : AsChain) (st : List AsChain × Db) : Option (List AsChain × Db) := do
  let cpq ← merge cp cq
  if cpq.length ≠ lvl then some st
  else do
    let p ← cp.getLast?
    let q ← cq.getLast?
    some ((tries limit q).foldl (tryOne cpq p q) st)

/-- the check `variant.rb:113-114` (`[].reduce(:&)` is `nil`, so an empty row raises) -/
def wellFormed (chains : List (List AsChain)) : Bool :=
  chains.zipIdx.all fun x => !x.1.isEmpty && x.1.all fun c => c.length == x.2 + 1

/-- `extend_chains_ary`, `variant.rb:110-172` -/
def extend (limit : Nat) (chains : List (List AsChain)) (db : Db) : Option (List AsChain × Db) :=
  if wellFormed chains then do
    let row ← chains.getLast?
    let c ← row.getLast?
    let lvl := c.length
    let all := chains.flatten
    (all.flatMap fun cp => all.map fun cq => (cp, cq)).foldlM (fun st pq => tryPair limit lvl pq.1 pq.2 st) ([], db)
  else none

/-- `variant.rb:174-193`, with any number of extensions -/
def run (limit : Nat) : Nat → Option (List (List AsChain) × Db)
  | 0 => some ([[[Odd.unit]]], [(1, [[Odd.unit]])])
  | n + 1 => do
    let s ← run limit n
    let e ← extend limit s.1 s.2
    some (s.1 ++ [e.1], e.2)

/-- the elements of one line of the log, `parse-asc_log-to-yaml.rb:13-28` -/
def parseElems (known : List Int) : List Odd → Option Asc
  | [] => some []
  | o :: os => do
    let (pPos, p, qPos, q, r) ← o.src
    let known := known ++ [o.val]
    -- the number printed with its sign
    let l := if pPos then p else -p
    let lIdx ← known.findIdx? (· = (l.natAbs : Int))
    let rIdx ← known.findIdx? (· = q)
    let rest ← parseElems known os
    some ({ lPos := decide (l > 0), lIdx := lIdx, rPos := qPos, rIdx := rIdx, rShift := r } :: rest)

/-- one line of the log: `variant.rb:203-207` prints the first chain, the parser skips its unit -/
def entry (e : Int × List AsChain) : Option (Int × Asc) := do
  let c ← e.2.head?
  let a ← parseElems [1] c.tail
  some (e.1, a)

/-- the table of all lines (the printed database is sorted by value, as is the Rust map) -/
def table (db : Db) : Option (List (Int × Asc)) := db.mapM entry

end Parm.ChainScript
