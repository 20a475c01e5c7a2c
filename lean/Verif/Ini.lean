import Verif.BoolTime

/-!
# Configuration files (model)

The functions `ini_getkey` and `ini_gets` of the minIni library (fetched by
/repo/lib/minIni.cmake), called from /repo/src/brski/config.c.  The library is not part of the
repository and its source was not at hand: the model is written from general knowledge of minIni, has
not been compared with the revision named in minIni.cmake, and belongs to the trusted base.  Names of
its functions (`getkeystring`, `_tcsnicmp`) in the comments below are given on the same footing.  Lines
are represented in parsed form: blanks, quotes and comments are already removed.
-/

namespace Brski.Ini
open BoolTime (tolower)

/-- A line as `getkeystring` of minIni sees it (via /repo/src/brski/config.c:51,61): `[name]`; a line
starting with `[` but without `]`; `key = value`; anything else (comments, blank lines, lines without
`=` and `:`). -/
inductive Line where
  | section (name : Bytes)
  | bracket
  | entry (key value : Bytes)
  | other
deriving Repr, DecidableEq

/-- A configuration file (argument `filename` at /repo/src/brski/config.c:34-36). -/
abbrev IniFile := List Line

/-- Comparison of names, `_tcsnicmp` with equal lengths in minIni (via
/repo/src/brski/config.c:51,61). -/
def sameName (a b : Bytes) : Bool := a.map tolower == b.map tolower

/-- First loop of `getkeystring`: the lines after the first section header with the name
(via /repo/src/brski/config.c:51,61). -/
def findSection (name : Bytes) : IniFile → Option IniFile
  | [] => none
  | .section n :: ls => if sameName n name then some ls else findSection name ls
  | _ :: ls => findSection name ls

/-- Second loop of `getkeystring` with an index: the name of the entry with this index; the search
stops at the next `[` (via /repo/src/brski/config.c:51). -/
def nthKey : Nat → IniFile → Option Bytes
  | _, [] => none
  | _, .section _ :: _ => none
  | _, .bracket :: _ => none
  | n, .other :: ls => nthKey n ls
  | 0, .entry k _ :: _ => some k
  | n + 1, .entry _ _ :: ls => nthKey n ls

/-- Second loop of `getkeystring` with a name: the value of the first entry with this name (via
/repo/src/brski/config.c:61). -/
def firstValue (key : Bytes) : IniFile → Option Bytes
  | [] => none
  | .section _ :: _ => none
  | .bracket :: _ => none
  | .other :: ls => firstValue key ls
  | .entry k v :: ls => if sameName k key then some v else firstValue key ls

/-- `ini_getkey(section, idx, buffer, size, file)` of minIni (called at
/repo/src/brski/config.c:51): the text left in the buffer, its length is the result. -/
def getkey (file : IniFile) (sec : Bytes) (idx size : Nat) : Bytes :=
  (((findSection sec file).bind (nthKey idx)).getD []).take (size - 1)

/-- `ini_gets(section, key, default, buffer, size, file)` of minIni (called at
/repo/src/brski/config.c:61,145,159,…): the text left in the buffer. -/
def gets (file : IniFile) (sec key dflt : Bytes) (size : Nat) : Bytes :=
  (((findSection sec file).bind (firstValue key)).getD dflt).take (size - 1)

end Brski.Ini
