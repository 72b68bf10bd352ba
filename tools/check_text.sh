#!/bin/bash
# Differential test of Model/ChainText.lean (a test, not a proof): reads the log and the table of the repository with the model
# and compares the texts; then runs the search with three rounds and compares with the lines of the logs that have at most three
# additions (about a minute; the logs for 11 and 12 bits have no marks "?").  Prints six times "true".  Usage: tools/check_text.sh [repository], after `lake build`.
repo=${1:-/repo}
cd "$(dirname "$0")/../lean" || exit 1
tmp=$(mktemp --suffix=.lean)
cat > "$tmp" <<END
import Verif.Model.ChainText
import Verif.Data.Asc12
open Parm Parm.ChainText Parm.ChainScript
def ads (a : AddShift) : Ads := ⟨a.lPos, some a.lIdx, a.rPos, some a.rIdx, a.rShift⟩
def check : IO Unit := do
  let log ← IO.FS.readFile "$repo/scripts/add-sub-special-chains/limit-13_v4.log"
  let yaml ← IO.FS.readFile "$repo/assets/asc-12.yaml"
  let shipped := asc12.map fun x => ((x.1 : Int), x.2.map ads)
  -- the file is the text written for the table
  IO.println s!"{String.ofList (dump false shipped) == yaml}"
  -- the lines of the log before the separator are read as the table
  let dat := unlines ((ChainText.split (· = '\n') log.toList).takeWhile (· ≠ warnLine))
  IO.println s!"{decide (parseLog dat = some shipped)}"
  -- the file is read as the table
  match readFile yaml.toList with
  | some (.parsed m) => IO.println s!"{decide (m = asc12)}"
  | _ => IO.println "false"
#eval check
def adds (l : String) : Nat := (l.splitOn "◖").length
def unmark (l : String) : String := l.replace "  ? " ""
def search (lim : Nat) : IO Unit := do
  let log ← IO.FS.readFile s!"$repo/scripts/add-sub-special-chains/limit-{lim}_v4.log"
  let theirs := (log.splitOn "\n").filter fun l => 2 ≤ adds l ∧ adds l ≤ 5
  match run lim 3 with
  | some (_, db) =>
    let ours := ((logLines lim db).map String.ofList).filter fun l => 2 ≤ adds l
    IO.println s!"{if lim = 13 then ours == theirs else ours.map unmark == theirs}"
  | none => IO.println "false"
#eval search 11
#eval search 12
#eval search 13
END
lake env lean "$tmp"
rm -f "$tmp"
