import Verif.Ini

/-!
# What a configuration file means (specification)

Independent of how the loader works: the entries of a section, the values of a key.
-/

namespace Brski.Spec
open Ini

/-- Names are compared without regard to case. -/
def SameName (a b : Bytes) : Prop := a.map BoolTime.tolower = b.map BoolTime.tolower

instance (a b : Bytes) : Decidable (SameName a b) := inferInstanceAs (Decidable (_ = _))

/-- Is the line the header of the section? -/
def isHeaderOf (sec : Bytes) : Line → Bool
  | .section n => decide (SameName n sec)
  | _ => false

/-- Does the line end a section? -/
def endsSection : Line → Bool
  | .section _ => true
  | .bracket => true
  | _ => false

/-- The name and the value on a line. -/
def iniEntry : Line → Option (Bytes × Bytes)
  | .entry k v => some (k, v)
  | _ => none

/-- The entries of a section in file order. -/
def iniEntries (sec : Bytes) (file : IniFile) : List (Bytes × Bytes) :=
  (((file.dropWhile fun l => !isHeaderOf sec l).drop 1).takeWhile fun l => !endsSection l).filterMap iniEntry

/-- All (non-empty) values of a key in file order. -/
def iniValues (key : Bytes) (es : List (Bytes × Bytes)) : List Bytes :=
  (es.filter fun e => decide (e.1 = key ∧ e.2 ≠ [])).map (·.2)

/-- The value of a key that is meant to occur once: that of the first entry with this name. -/
def iniValue (key : Bytes) (es : List (Bytes × Bytes)) : Option Bytes :=
  (es.find? fun e => decide (SameName e.1 key)).map (·.2)

end Brski.Spec
