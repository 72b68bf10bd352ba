import Verif.Model.Rust

/-!
# Model of the message formatting of `/repo/src/misc.rs`

Text is a list of characters.  The colours of crate `colored` (escape sequences around fixed words and
around the box) are dropped; `LOG_LVL` is an argument.
-/

namespace Parm.Fmt

/-- `"  │ ".repeat(LOG_LVL as usize)`, e.g. `/repo/src/misc.rs:200` -/
def indent (lvl : Nat) : List Char := (List.replicate lvl [' ', ' ', '│', ' ']).flatten
/-- `"  ▒ ".repeat(LOG_LVL as usize)`, `/repo/src/misc.rs:251` -/
def indentErr (lvl : Nat) : List Char := (List.replicate lvl [' ', ' ', '▒', ' ']).flatten

/-- `msg.replace("\n", &s)` -/
def replaceNl (s : List Char) (msg : List Char) : List Char :=
  msg.flatMap fun c => if c = '\n' then s else [c]

/-- `parm_format_info!`, `/repo/src/misc.rs:195-207` -/
def info (lvl : Nat) (msg : List Char) : List Char :=
  replaceNl ('\n' :: (indent lvl ++ "    ".toList)) (indent lvl ++ " 🧀 ".toList ++ msg)

/-- `parm_format_dbg!`, `/repo/src/misc.rs:210-222` -/
def dbg (lvl : Nat) (msg : List Char) : List Char :=
  replaceNl ('\n' :: (indent lvl ++ "    ".toList)) (indent lvl ++ "DBG ".toList ++ msg)

/-- `parm_format_err!`, `/repo/src/misc.rs:246-261` -/
def err (lvl : Nat) (msg : List Char) : List Char :=
  replaceNl ('\n' :: (indentErr lvl ++ "        ".toList)) (indentErr lvl ++ " 🫕  ".toList ++ "ERR ".toList ++ msg)

/-- bytes of a character in UTF-8 -/
def bytes (l : List Char) : Nat := (l.map Char.utf8Size).sum

/-- `String::truncate(n)`: nothing if the string has at most `n` bytes; `none` (panic) if byte `n` is not at
a character boundary -/
def truncate (n : Nat) : List Char → Option (List Char)
  | [] => some []
  | c :: l => if n = 0 then some [] else
    if n < c.utf8Size then none else (truncate (n - c.utf8Size) l).map (c :: ·)

/-- `parm_format_infobox!`, `/repo/src/misc.rs:225-243` -/
def infobox (lvl : Nat) (msg : List Char) : Option (List Char) :=
  (truncate 100 msg).map fun ms =>
    let msg := replaceNl " | ".toList ms
    let top := '┏' :: (List.replicate (msg.length + 4) '━' ++ ['┓'])
    let bot := '┗' :: (List.replicate (msg.length + 4) '━' ++ ['┛'])
    let msg := "    ".toList ++ top ++ ['\n'] ++ ('┃' :: ("  ".toList ++ msg ++ "  ".toList ++ ['┃'])) ++ ['\n'] ++ bot
    replaceNl ('\n' :: (indent lvl ++ "    ".toList)) (indent lvl ++ msg)

/-- the decimal digits of a number, as `{}` prints it -/
def dec (n : Nat) : List Char := (Nat.toDigits 10 n)
/-- `{:w}` for a number: filled with spaces on the left -/
def padDec (w n : Nat) : List Char := List.replicate (w - (dec n).length) ' ' ++ dec n
/-- `{:0w}`: filled with zeros; also chrono's `%M` and `%S` -/
def zeroDec (w n : Nat) : List Char := List.replicate (w - (dec n).length) '0' ++ dec n

/-- A time stamp in milliseconds since the epoch (no leap second) printed by
`{}.{:03}` with `format("%M %S")` and `timestamp_subsec_millis()`, `/repo/src/misc.rs:104` -/
def stamp (t : Nat) : List Char :=
  zeroDec 2 (t / 60000 % 60) ++ [' '] ++ zeroDec 2 (t / 1000 % 60) ++ ['.'] ++ zeroDec 3 (t % 1000)

/-- the line written by `parm_log_ts!`, `/repo/src/misc.rs:99-108` -/
def logTs (lvl start stop : Nat) (msg : List Char) : List Char :=
  padDec 2 lvl ++ "  ".toList ++ stamp start ++ "   ".toList ++ stamp stop ++ "   \"".toList ++ msg ++ ['"']

end Parm.Fmt
