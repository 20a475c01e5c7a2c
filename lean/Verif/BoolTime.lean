import Verif.Base

/-!
# Boolean and timestamp text (model)

Model of /repo/src/voucher/serialize.c:281-361 and of the glibc functions
`tolower`, `strftime`, `strptime` for the arguments used there.
-/

namespace Brski.BoolTime

/-! ## Booleans -/

/-- `serialize_bool2str`, /repo/src/voucher/serialize.c:281-290 (allocation succeeds). -/
def bool2str (b : Bool) : Bytes := if b then str "true" else str "false"

/-- glibc `tolower` in the C locale; glibc tables cover negative `char` values, which are
mapped to themselves.  Used at /repo/src/voucher/serialize.c:314. -/
def tolower (c : UInt8) : UInt8 := if 65 ≤ c ∧ c ≤ 90 then c + 32 else c

/-- C string view of a buffer: bytes before the first NUL, as seen by `strcmp` at
/repo/src/voucher/serialize.c:319-321. -/
def cstr (b : Bytes) : Bytes := b.takeWhile (· ≠ 0)

/-- `serialize_str2bool`, /repo/src/voucher/serialize.c:292-329, for a non-NULL pointer to
`length` readable bytes; `none` is -1.  The 6 byte local buffer is never exceeded because
`length ≤ 5` at that point. -/
def str2bool (s : Bytes) : Option Bool :=
  if s.length = 0 then none
  else if s.length > 5 then none
  else if s.take 1 = str "0" ∧ s.length = 1 then some false
  else if s.take 1 = str "1" ∧ s.length = 1 then some true
  else
    let buf := s.map tolower ++ [0]
    if cstr buf = str "false" then some false
    else if cstr buf = str "true" then some true
    else none

/-- The same function under the letter of ISO C (7.4p1): calling `tolower` with a negative
`char` (byte ≥ 0x80 on a signed-char platform) is undefined.
/repo/src/voucher/serialize.c:292-329. -/
def str2boolIso (s : Bytes) : Outcome (Option Bool) :=
  if s.length = 0 ∨ s.length > 5 ∨ (s.length = 1 ∧ (s = str "0" ∨ s = str "1")) then
    .ok (str2bool s)
  else if s.any (fun c => 128 ≤ c) then .ub
  else .ok (str2bool s)

/-! ## Time -/

/-- `struct tm` (fields used by the code).  `year` counts from 1900, `mon` from 0.
C library type used at /repo/src/voucher/serialize.c:331-361. -/
structure Tm where
  sec : Int
  min : Int
  hour : Int
  mday : Int
  mon : Int
  year : Int
  wday : Int
  yday : Int
  isdst : Int
deriving Repr, DecidableEq

/-- Result of `memset(tm, 0, …)`, /repo/src/voucher/serialize.c:353. -/
def Tm.zero : Tm := ⟨0, 0, 0, 0, 0, 0, 0, 0, 0⟩

/-- Aspects of the C library that differ between glibc versions and are irrelevant to the
results: whether `%Y` is zero-padded to four digits by `strftime`, and which characters
`strptime` skips before a number.  Used for /repo/src/voucher/serialize.c:334,355. -/
structure TimeLib where
  padYear : Bool
  isSpace : UInt8 → Bool
  digits_not_space : ∀ d : UInt8, 48 ≤ d → d ≤ 57 → isSpace d = false

/-- A concrete C library: no year padding, only blanks are skipped
(/repo/src/voucher/serialize.c:334,355). -/
def TimeLib.plain : TimeLib where
  padYear := false
  isSpace c := c == 32
  digits_not_space := by
    intro d h1 h2
    have : d ≠ 32 := by rintro rfl; exact absurd h1 (by decide)
    simpa using this

/-- Decimal digit character (libc number formatting behind
/repo/src/voucher/serialize.c:334). -/
def dig (n : Nat) : UInt8 := UInt8.ofNat (48 + n)

/-- Decimal text of a natural number (libc number formatting behind
/repo/src/voucher/serialize.c:334). -/
def natDec (n : Nat) : Bytes := if n < 10 then [dig n] else natDec (n / 10) ++ [dig (n % 10)]

/-- glibc `DO_NUMBER(w, v)`: decimal text zero-padded to width `w`, sign first
(`strftime` at /repo/src/voucher/serialize.c:334). -/
def numPad (w : Nat) (v : Int) : Bytes :=
  let body := natDec v.natAbs
  let sign : Bytes := if v < 0 then [45] else []
  sign ++ List.replicate (w - (body.length + sign.length)) 48 ++ body

/-- `serialize_time2str`, /repo/src/voucher/serialize.c:331-340: `strftime` into a buffer of
22 bytes (21 characters and NUL) with format `%Y-%m-%dT%H:%M:%SZ`; `none` is NULL. -/
def time2str (lib : TimeLib) (t : Tm) : Option Bytes :=
  let s := numPad (if lib.padYear then 4 else 1) (t.year + 1900) ++ [45] ++
    numPad 2 (t.mon + 1) ++ [45] ++ numPad 2 t.mday ++ [84] ++
    numPad 2 t.hour ++ [58] ++ numPad 2 t.min ++ [58] ++ numPad 2 t.sec ++ [90]
  if s.length ≤ 21 then some s else none

/-- ASCII digit test of glibc `get_number` (`strptime` at
/repo/src/voucher/serialize.c:355). -/
def isDigit (c : UInt8) : Bool := 48 ≤ c && c ≤ 57

/-- glibc `get_number`, continuation after the first digit: at most `k` more digits while
`val * 10 ≤ to` (`strptime` at /repo/src/voucher/serialize.c:355). -/
def moreDigits (to : Nat) : Nat → Nat → Bytes → Nat × Bytes
  | 0, v, r => (v, r)
  | k + 1, v, r =>
    if v * 10 ≤ to then
      match r with
      | d :: r' => if isDigit d then moreDigits to k (v * 10 + (d.toNat - 48)) r' else (v, r)
      | [] => (v, [])
    else (v, r)

/-- glibc `get_number(from, to, n)` (`strptime` at /repo/src/voucher/serialize.c:355). -/
def getNumber (lib : TimeLib) (lo hi n : Nat) (s : Bytes) : Option (Nat × Bytes) :=
  match s.dropWhile lib.isSpace with
  | d :: r =>
    if isDigit d then
      let (v, r) := moreDigits hi (n - 1) (d.toNat - 48) r
      if v < lo ∨ v > hi then none else some (v, r)
    else none
  | [] => none

/-- Literal character of the format (`strptime` at /repo/src/voucher/serialize.c:355). -/
def lit (c : UInt8) (s : Bytes) : Option Bytes :=
  match s with
  | d :: r => if d = c then some r else none
  | [] => none

/-- Gregorian leap year, glibc `__isleap` (`strptime` at
/repo/src/voucher/serialize.c:355). -/
def isLeap (y : Int) : Bool := y % 4 == 0 && (y % 100 != 0 || y % 400 == 0)

/-- glibc `__mon_yday[leap][mon]` (`strptime` at /repo/src/voucher/serialize.c:355). -/
def monYday (leap : Bool) (mon : Nat) : Int :=
  match mon with
  | 0 => 0 | 1 => 31
  | 2 => if leap then 60 else 59
  | 3 => if leap then 91 else 90
  | 4 => if leap then 121 else 120
  | 5 => if leap then 152 else 151
  | 6 => if leap then 182 else 181
  | 7 => if leap then 213 else 212
  | 8 => if leap then 244 else 243
  | 9 => if leap then 274 else 273
  | 10 => if leap then 305 else 304
  | _ => if leap then 335 else 334

/-- glibc `day_of_the_week` (`strptime` at /repo/src/voucher/serialize.c:355); `Int.tdiv`
and `Int.tmod` are C's `/` and `%`. -/
def dayOfWeek (year : Int) (mon : Nat) (mday : Int) : Int :=
  let corr := 1900 + year - (if mon < 2 then 1 else 0)
  let w := -473 + 365 * (year - 70) + corr.tdiv 4 - (corr.tdiv 4).tdiv 25 +
    (if (corr.tdiv 4).tmod 25 < 0 then 1 else 0) + ((corr.tdiv 4).tdiv 25).tdiv 4 +
    monYday false mon + mday - 1
  (w.tmod 7 + 7).tmod 7

/-- `strptime(str, "%Y-%m-%dT%H:%M:%SZ", tm)` on a zeroed `tm`; trailing characters are
left unread.  Used at /repo/src/voucher/serialize.c:355. -/
def strptime (lib : TimeLib) (s : Bytes) : Option Tm :=
  (getNumber lib 0 9999 4 s).bind fun (y, s) =>
  (lit 45 s).bind fun s =>
  (getNumber lib 1 12 2 s).bind fun (mo, s) =>
  (lit 45 s).bind fun s =>
  (getNumber lib 1 31 2 s).bind fun (d, s) =>
  (lit 84 s).bind fun s =>
  (getNumber lib 0 23 2 s).bind fun (h, s) =>
  (lit 58 s).bind fun s =>
  (getNumber lib 0 59 2 s).bind fun (mi, s) =>
  (lit 58 s).bind fun s =>
  (getNumber lib 0 61 2 s).bind fun (se, s) =>
  (lit 90 s).bind fun _ =>
  let year : Int := (y : Int) - 1900
  some { sec := se, min := mi, hour := h, mday := d, mon := (mo : Int) - 1, year := year,
         wday := dayOfWeek year (mo - 1) d,
         yday := monYday (isLeap (1900 + year)) (mo - 1) + (d - 1), isdst := 0 }

/-- `serialize_str2time`, /repo/src/voucher/serialize.c:342-361, for a non-NULL C string
and a non-NULL `tm`; `none` is -1. -/
def str2time (lib : TimeLib) (s : Bytes) : Option Tm := strptime lib s

end Brski.BoolTime
