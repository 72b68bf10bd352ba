import Verif.Model.ChainScript
import Verif.Model.AscStatic
import Verif.Model.Format

/-!
# The texts between the scripts and the library

`variant.rb` prints its database as a log, `parse-asc_log-to-yaml.rb` reads lines of the log (saved by hand as `asc.dat`) and
writes a YAML file, the library reads that file.  Texts are lists of characters; `none` stands for a raised exception, `nil.to_i`
is `0`.  Of Ruby's `to_i` the underscores between digits are left out.  The way `YAML.dump` lays out a hash of arrays of hashes,
and the way `serde_yaml` reads this layout, are part of the trusted base (DESIGN.md); all other layouts are left out.
-/

namespace Parm.ChainText
open Parm.ChainScript

abbrev Text := List Char

/-! ## Printing: `variant.rb` -/

/-- the decimal representation of an integer -/
def showInt (z : Int) : Text := if z < 0 then '-' :: Fmt.dec z.natAbs else Fmt.dec z.natAbs

/-- `"%5d" % [v]` -/
def pad5 (v : Int) : Text := List.replicate (5 - (showInt v).length) ' ' ++ showInt v

/-- the right side of `OddClass#to_s`, `variant.rb:58` -/
def srcText : Option (Bool × Int × Bool × Int × Nat) → Text
  | none => []
  | some (pPos, p, qPos, q, r) =>
    " = ".toList ++ (if pPos then ' ' else '-') :: showInt p ++ ' ' :: (if qPos then '+' else '-') :: ' ' :: showInt q ++
      "·2^".toList ++ Fmt.dec r

/-- `OddClass#to_s`, `/repo/scripts/add-sub-special-chains/variant.rb:57-59` -/
def oddText (o : ChainScript.Odd) : Text := "◖ ".toList ++ showInt o.val ++ srcText o.src ++ " ◗".toList

/-- `Array#to_s` of a chain, `variant.rb:101-104` -/
def chainText (c : AsChain) : Text := '[' :: (List.intercalate ", ".toList (c.map oddText)) ++ [']']

/-- one line of the log, `variant.rb:205`; `wpr`: the warning has been printed -/
def logLine (wpr : Bool) (e : Int × List AsChain) : Text :=
  let c := e.2.head?.getD []
  (if wpr then "  ? ".toList else []) ++ pad5 e.1 ++ " /".toList ++ Fmt.dec (c.length - 1) ++ "/ ".toList ++ chainText c

/-- the line printed where an odd number is missing, `variant.rb:197` -/
def gapLine : Text := "----".toList

/-- `variant.rb:201` -/
def warnLine : Text := "====    no guarantee    ====".toList

/-- the loop `variant.rb:192-207` over the sorted database, with `LIMIT_WID = limit` (at least 1) -/
def logLoop (limit : Nat) : Int → Bool → Db → List Text
  | _, _, [] => []
  | i, wpr, e :: rest =>
    let gap : Bool := decide (e.1 > i)
    let warn : Bool := decide (e.1 > 2 ^ (limit - 1)) && !wpr
    (if gap then [gapLine] else []) ++ (if warn then [warnLine] else []) ++ [logLine (wpr || warn) e] ++
      logLoop limit ((if gap then e.1 else i) + 2) (wpr || warn) rest

/-- `db.sort_by{|v, ca| v }`, `variant.rb:195` (no key occurs twice) -/
def sorted (db : Db) : Db := db.mergeSort fun a b => decide (a.1 ≤ b.1)

/-- the lines of the log, `variant.rb:192-207` -/
def logLines (limit : Nat) (db : Db) : List Text := logLoop limit 1 false (sorted db)

/-- `puts` of each line -/
def unlines (ls : List Text) : Text := ls.flatMap (· ++ ['\n'])

/-! ## Ruby's functions on strings -/

/-- the whitespace of `split` and of `\s` -/
def isSpace (c : Char) : Bool := c = ' ' || c = '\t' || c = '\n' || c = '\r' || c = '\x0b' || c = '\x0c'

/-- the pieces between the separators, empty ones included -/
def pieces (sep : Char → Bool) : Text → List Text
  | [] => [[]]
  | c :: cs =>
    if sep c then [] :: pieces sep cs
    else match pieces sep cs with
      | [] => [[c]]
      | w :: ws => (c :: w) :: ws

/-- `String#split` at a separator: empty strings at the end are dropped -/
def split (sep : Char → Bool) (s : Text) : List Text := ((pieces sep s).reverse.dropWhile (·.isEmpty)).reverse

/-- `String#split` without argument -/
def words (s : Text) : List Text := (pieces isSpace s).filter fun w => !w.isEmpty

/-- the number given by the leading digits, `0` without any -/
def leadingNat (s : Text) : Nat := Nat.ofDigitChars 10 (s.takeWhile Char.isDigit) 0

/-- `String#to_i` -/
def toI (s : Text) : Int :=
  match s.dropWhile isSpace with
  | '-' :: t => -(leadingNat t : Int)
  | '+' :: t => leadingNat t
  | t => leadingNat t

/-- `to_i` of a string or of `nil` -/
def toI? (s : Option Text) : Int := s.elim 0 toI

/-! ## Reading the log: `parse-asc_log-to-yaml.rb` -/

/-- the hash appended for an element, `parse-asc_log-to-yaml.rb:23-29`; `find_index` may give `nil` -/
structure Ads where
  lPos : Bool
  lIdx : Option Nat
  rPos : Bool
  rIdx : Option Nat
  rShift : Int
  deriving DecidableEq

/-- the body of the loop over the elements, `parse-asc_log-to-yaml.rb:14-29` -/
def parseAds (vals : List Int) (part : Text) : Option (List Int × Ads) := do
  let body ← (split (· = '◗') part).head?
  let ads := words body
  let vals := vals ++ [toI? ads.head?]
  let l := toI? ads[2]?
  let last ← ads.getLast?
  let ra := split (fun c => isSpace c || c = '^' || c = '·') last
  let r := toI? ra.head?
  some (vals,
    { lPos := decide (l > 0)
      lIdx := vals.findIdx? (· = (l.natAbs : Int))
      rPos := decide (ads[3]? = some ['+'])
      rIdx := vals.findIdx? (· = r)
      rShift := toI? ra.getLast? })

/-- `parse-asc_log-to-yaml.rb:13-30` -/
def parseParts (vals : List Int) : List Text → Option (List Ads)
  | [] => some []
  | part :: parts => do
    let (vals, a) ← parseAds vals part
    let rest ← parseParts vals parts
    some (a :: rest)

/-- one line, `parse-asc_log-to-yaml.rb:8-30`; `[2..]` of an array of fewer than two elements is `nil` -/
def parseLine (line : Text) : Option (Int × List Ads) :=
  let n := toI? (words line).head?
  let parts := split (· = '◖') line
  if parts.length < 2 then none
  else do
    let a ← parseParts [1] (parts.drop 2)
    some (n, a)

/-- a hash in the order of insertion; an assignment to a known key keeps its place -/
def hset (m : List (Int × List Ads)) (e : Int × List Ads) : List (Int × List Ads) :=
  if e.1 ∈ m.map (·.1) then m.map fun x => if x.1 = e.1 then e else x else m ++ [e]

/-- `parse-asc_log-to-yaml.rb:3-31` on the contents of `asc.dat` -/
def parseLog (s : Text) : Option (List (Int × List Ads)) :=
  (split (· = '\n') s).foldlM (fun res line => do some (hset res (← parseLine line))) []

/-! ## Writing the file: `YAML.dump` -/

def boolText (b : Bool) : Text := if b then "true".toList else "false".toList

/-- `nil` is written as nothing -/
def optText : Option Nat → Text
  | none => []
  | some n => ' ' :: Fmt.dec n

/-- the lines of one hash.  The keys are symbols, which `YAML.dump` writes with a colon in front (`sym`); the file of the
repository has plain keys. -/
def adsLines (sym : Bool) (a : Ads) : List Text :=
  let k (s : String) : Text := (if sym then [':'] else []) ++ s.toList ++ [':']
  [ "- ".toList ++ k "l_pos" ++ ' ' :: boolText a.lPos,
    "  ".toList ++ k "l_idx" ++ optText a.lIdx,
    "  ".toList ++ k "r_pos" ++ ' ' :: boolText a.rPos,
    "  ".toList ++ k "r_idx" ++ optText a.rIdx,
    "  ".toList ++ k "r_shift" ++ ' ' :: showInt a.rShift ]

/-- the lines of one entry -/
def entryLines (sym : Bool) (e : Int × List Ads) : List Text :=
  match e.2 with
  | [] => [showInt e.1 ++ ": []".toList]
  | as => (showInt e.1 ++ [':']) :: as.flatMap (adsLines sym)

/-- `YAML.dump(res)`, `parse-asc_log-to-yaml.rb:33` -/
def dump (sym : Bool) (t : List (Int × List Ads)) : Text :=
  match t with
  | [] => "--- {}\n".toList
  | t => unlines ("---".toList :: t.flatMap (entryLines sym))

/-! ## Reading the file: `serde_yaml::from_str::<BTreeMap<usize, Vec<AddShift>>>`, `asc.rs:110` -/

/-- the fields of one mapping -/
abbrev Fields := List (Text × Text)

/-- `key: value` -/
def field : Text → Option (Text × Text)
  | ':' :: ' ' :: v => some ([], v)
  | c :: s => (field s).map fun x => (c :: x.1, x.2)
  | [] => none

/-- The lines after `---`, from the last one on: the fields and the elements that belong to something above, and the entries.
`none`: another layout. -/
def layout : List Text → Option (Fields × List Fields × List (Text × List Fields))
  | [] => some ([], [], [])
  | l :: ls => do
    let (fs, as, es) ← layout ls
    match l with
    | ' ' :: ' ' :: s => do
      let f ← field s
      some (f :: fs, as, es)
    | '-' :: ' ' :: s => do
      let f ← field s
      some ([], (f :: fs) :: as, es)
    | l =>
      if fs ≠ [] then none
      else match field l with
        | some (k, v) => if v = "[]".toList ∧ as = [] then some ([], [], (k, []) :: es) else none
        | none => if l.getLast? = some ':' ∧ as ≠ [] then some ([], [], (l.dropLast, as) :: es) else none

/-- `usize` -/
def readUsize (s : Text) : Option Nat :=
  if s ≠ [] ∧ s.all Char.isDigit ∧ (s.head? ≠ some '0' ∨ s.length = 1) ∧ Nat.ofDigitChars 10 s 0 < 2 ^ 64 then
    some (Nat.ofDigitChars 10 s 0)
  else none

def readBool (s : Text) : Option Bool :=
  if s = "true".toList then some true else if s = "false".toList then some false else none

/-- the value of a field that must be there exactly once; other fields are skipped -/
def getField (fs : Fields) (k : String) : Option Text :=
  match fs.filter fun f => f.1 = k.toList with
  | [f] => some f.2
  | _ => none

/-- the derived `Deserialize` of `AddShift`, `/repo/src/cloudovo/scalar_multiplication/asc.rs:16-23` -/
def readAddShift (fs : Fields) : Option AddShift := do
  let lPos ← readBool (← getField fs "l_pos")
  let lIdx ← readUsize (← getField fs "l_idx")
  let rPos ← readBool (← getField fs "r_pos")
  let rIdx ← readUsize (← getField fs "r_idx")
  let rShift ← readUsize (← getField fs "r_shift")
  some { lPos := lPos, lIdx := lIdx, rPos := rPos, rIdx := rIdx, rShift := rShift }

/-- `BTreeMap::insert` -/
def binsert (k : Nat) (a : Asc) : List (Nat × Asc) → List (Nat × Asc)
  | [] => [(k, a)]
  | x :: m => if k < x.1 then (k, a) :: x :: m else if k = x.1 then (k, a) :: m else x :: binsert k a m

/-- the map of the entries -/
def readEntries (es : List (Text × List Fields)) : Option (List (Nat × Asc)) :=
  es.foldlM (fun m e => do some (binsert (← readUsize e.1) (← e.2.mapM readAddShift) m)) []

/-- the file as the library sees it; `none`: a layout that is left out here -/
def readFile (s : Text) : Option AscFile :=
  match split (· = '\n') s with
  | [] => none
  | l :: ls =>
    if l ≠ "---".toList then (if l = "--- {}".toList ∧ ls = [] then some (.parsed []) else none)
    else match layout ls with
      | some ([], [], es) => some (match readEntries es with
        | some m => .parsed m
        | none => .unreadable)
      | _ => none

end Parm.ChainText
