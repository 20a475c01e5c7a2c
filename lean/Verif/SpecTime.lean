import Verif.Base

/-!
# Independent specification of boolean text and calendar dates
-/

namespace Brski.Spec

/-- Lower-case form of ASCII text (specification for
/repo/src/voucher/serialize.c:292-329). -/
def asciiLower (s : Bytes) : Bytes := s.map fun c => if c ∈ str "ABCDEFGHIJKLMNOPQRSTUVWXYZ" then c + 32 else c

/-- Meaning of boolean text (specification for /repo/src/voucher/serialize.c:292-329). -/
def boolText (s : Bytes) : Option Bool :=
  if s = str "0" ∨ asciiLower s = str "false" then some false
  else if s = str "1" ∨ asciiLower s = str "true" then some true
  else none

/-- Leap years of the Gregorian calendar (specification for
/repo/src/voucher/serialize.c:331-361). -/
def leap (y : Nat) : Bool := (y % 4 = 0 ∧ y % 100 ≠ 0) ∨ y % 400 = 0

/-- Length of month `m` (1..12) of year `y`; 0 for anything else (specification for
/repo/src/voucher/serialize.c:331-361). -/
def monthLen (y m : Nat) : Nat :=
  if m = 2 then (if leap y then 29 else 28)
  else if m ∈ [4, 6, 9, 11] then 30
  else if m ∈ [1, 3, 5, 7, 8, 10, 12] then 31
  else 0

/-- A date and time of day: year, month 1..12, day 1.., hour, minute, second (specification
for /repo/src/voucher/serialize.c:331-361). -/
structure DateTime where
  y : Nat
  mo : Nat
  d : Nat
  h : Nat
  mi : Nat
  s : Nat
deriving Repr, DecidableEq

/-- An existing calendar date with a time of day (leap seconds allowed), year at most 9999
(specification for /repo/src/voucher/serialize.c:331-361). -/
def DateTime.Valid (t : DateTime) : Prop :=
  t.y ≤ 9999 ∧ 1 ≤ t.mo ∧ t.mo ≤ 12 ∧ 1 ≤ t.d ∧ t.d ≤ monthLen t.y t.mo ∧
  t.h ≤ 23 ∧ t.mi ≤ 59 ∧ t.s ≤ 60

/-- Days in the years before year `y`, by summation (specification for
/repo/src/voucher/serialize.c:331-361). -/
def daysBeforeYear : Nat → Nat
  | 0 => 0
  | y + 1 => daysBeforeYear y + if leap y then 366 else 365

/-- Days in the months before month `m` of year `y`, by summation (specification for
/repo/src/voucher/serialize.c:331-361). -/
def daysBeforeMonth (y : Nat) : Nat → Nat
  | 0 => 0
  | m + 1 => daysBeforeMonth y m + monthLen y m

/-- Day of the year, 0-based (specification for /repo/src/voucher/serialize.c:331-361). -/
def yearDay (t : DateTime) : Nat := daysBeforeMonth t.y t.mo + (t.d - 1)

/-- Day of the week, 0 = Sunday; 0000-01-01 (proleptic Gregorian) is a Saturday
(specification for /repo/src/voucher/serialize.c:331-361). -/
def weekDay (t : DateTime) : Nat := (daysBeforeYear t.y + yearDay t + 6) % 7

/-- Two digit decimal text (specification for /repo/src/voucher/serialize.c:331-361). -/
def two (n : Nat) : Bytes := [UInt8.ofNat (48 + n / 10), UInt8.ofNat (48 + n % 10)]

/-- RFC 3339 text `YYYY-MM-DDThh:mm:ssZ` (specification for
/repo/src/voucher/serialize.c:331-361). -/
def rfc3339 (t : DateTime) : Bytes :=
  two (t.y / 100) ++ two (t.y % 100) ++ str "-" ++ two t.mo ++ str "-" ++ two t.d ++ str "T" ++
  two t.h ++ str ":" ++ two t.mi ++ str ":" ++ two t.s ++ str "Z"

/-- The number a sequence of decimal digits denotes. -/
def decimal (ds : Bytes) : Nat := ds.foldl (fun v d => 10 * v + (d.toNat - 48)) 0

/-- The text of one number field: white space, then one to `w` decimal digits denoting `v`
(POSIX `strptime`, used at /repo/src/voucher/serialize.c:355). -/
def NumberField (space : UInt8 → Bool) (w : Nat) (f : Bytes) (v : Nat) : Prop :=
  ∃ sp ds, f = sp ++ ds ∧ (∀ c ∈ sp, space c = true) ∧ 1 ≤ ds.length ∧ ds.length ≤ w ∧
    (∀ c ∈ ds, 48 ≤ c.toNat ∧ c.toNat ≤ 57) ∧ decimal ds = v

end Brski.Spec
