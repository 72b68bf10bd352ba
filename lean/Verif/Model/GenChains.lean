import Mathlib.Data.Int.Basic

/-!
# The first script for chains

`/repo/scripts/add-sub-special-chains/gen-chains.rb` makes all sums of two signed powers of two and prints them.  `LIMIT_LOG`
is a parameter; `none` stands for a raised exception.
-/

namespace Parm.GenChains

/-- `NumRepre` and `ASPair`, `gen-chains.rb:5-71`; `nrep` is the field `@NREP` of a pair -/
inductive Node
  | num (bits : List Int)
  | pair (l r : Node) (nrep : List Int)

/-- the method `NREP`, `gen-chains.rb:36-38,48` -/
def Node.nrep : Node → List Int
  | .num b => b
  | .pair _ _ n => n

/-- `NumRepre.new`, `gen-chains.rb:9-14`; `[].reduce(:&)` is `nil`, so no digits raise as well -/
def mkNum (limit : Nat) (bits : List Int) : Option (List Int) :=
  if bits.length = limit ∧ bits ≠ [] ∧ ∀ e ∈ bits, e = 0 ∨ e = 1 ∨ e = -1 then some bits else none

/-- `NumRepre#eval`, `gen-chains.rb:21-27`: the sum of the digits times `1 << index`, from index `i` on -/
def evalFrom (i : Nat) : List Int → Int
  | [] => 0
  | e :: es => e * 2 ^ i + evalFrom (i + 1) es

/-- `eval`, `gen-chains.rb:21-27,63-65` -/
def Node.eval (n : Node) : Int := evalFrom 0 n.nrep

/-- `NumRepre#add`, `gen-chains.rb:29-34` -/
def addRepr (limit : Nat) (a b : List Int) : Option (List Int) := mkNum limit (List.zipWith (· + ·) a b)

/-- `ASPair.new`, `gen-chains.rb:50-56` -/
def mkPair (limit : Nat) (l r : Node) : Option Node := (addRepr limit l.nrep r.nrep).map (.pair l r)

/-- `nops`, `gen-chains.rb:40-42,67-69` -/
def Node.nops : Node → Nat
  | .num _ => 0
  | .pair l r _ => l.nops + r.nops + 1

/-- the hash `db` in the order of insertion -/
abbrev Db := List (Int × Node)

def Db.get (db : Db) (v : Int) : Option Node := (db.find? (·.1 = v)).map (·.2)

/-- `db[v] = n` -/
def Db.put (db : Db) (v : Int) (n : Node) : Db :=
  if v ∈ db.map (·.1) then db.map fun e => if e.1 = v then (v, n) else e else db ++ [(v, n)]

/-- `[0] * LIMIT_LOG` with one digit set, `gen-chains.rb:79-82` -/
def single (limit i : Nat) (d : Int) : List Int := (List.replicate limit 0).set i d

/-- `gen-chains.rb:77-89` -/
def initDb (limit : Nat) : Option Db :=
  (List.range limit).foldlM (fun db i => do
    let pos ← mkNum limit (single limit i 1)
    let neg ← mkNum limit (single limit i (-1))
    let db := db.put (Node.num pos).eval (.num pos)
    some (db.put (Node.num neg).eval (.num neg))) []

/-- the body of the loops, `gen-chains.rb:95-102`: a pair that raises is skipped -/
def tryPair (limit : Nat) (db : Db) (x : Node × Node) : Db :=
  match mkPair limit x.1 x.2 with
  | none => db
  | some p =>
    match db.get p.eval with
    | none => db.put p.eval p
    | some q => if q.nops > p.nops then db.put p.eval p else db

/-- the whole script but for the printing, `gen-chains.rb:73-104` -/
def run (limit : Nat) : Option Db := do
  let prev ← initDb limit
  some ((prev.flatMap fun u => prev.map fun v => (u.2, v.2)).foldl (tryPair limit) prev)

end Parm.GenChains
