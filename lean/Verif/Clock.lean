import Verif.BoolTime

/-!
# The clock (model)

`get_localtime` (/repo/src/utils/os.c:95-112), `serialize_localtime` (/repo/src/voucher/serialize.c:363-378) and the time
stamp of the log (/repo/src/utils/log.c:68-92).  The time zone is an arbitrary function from instants (seconds since
1970-01-01T00:00:00Z) to the offset of local time in seconds.  Simplified: the static buffer of `localtime` is not
shared with other threads.
-/

namespace Brski.Clock

open BoolTime

/-- Offset of local time from UTC in seconds, for each instant (`localtime`, /repo/src/utils/os.c:105). -/
abbrev Zone := Int → Int

/-- Year and day of the year of a day counted from 1970-01-01 (`localtime`, /repo/src/utils/os.c:105; the Gregorian
calendar by its cycles of 400, 100, 4 years and 1 year). -/
def yearAndDay (days : Int) : Int × Int :=
  let n := days + 719162
  let r := n % 146097
  let b := min 3 (r / 36524)
  let r1 := r - 36524 * b
  let r2 := r1 % 1461
  let e := min 3 (r2 / 365)
  (400 * (n / 146097) + 100 * b + 4 * (r1 / 1461) + e + 1, r2 - 365 * e)

/-- The month of a day of the year: the last month that begins not after it (glibc's loop behind `localtime`,
/repo/src/utils/os.c:105). -/
def monthOf (leap : Bool) (yday : Int) : Nat → Nat
  | 0 => 0
  | m + 1 => if yday < monYday leap (m + 1) then monthOf leap yday m else m + 1

/-- Broken-down time of a number of seconds (`localtime`, /repo/src/utils/os.c:105). -/
def breakDown (l : Int) : Tm :=
  let days := l / 86400
  let rem := l % 86400
  let y := (yearAndDay days).1
  let yday := (yearAndDay days).2
  let mon := monthOf (isLeap y) yday 11
  { sec := rem % 60, min := rem / 60 % 60, hour := rem / 3600, mday := yday - monYday (isLeap y) mon + 1, mon := mon,
    year := y - 1900, wday := (days + 4) % 7, yday := yday, isdst := 0 }

/-- `localtime(&ltime)`: NULL when the year does not fit into an `int` (/repo/src/utils/os.c:105). -/
def localtime (zone : Zone) (t : Int) : Option Tm :=
  let tm := breakDown (t + zone t)
  if -2147483648 ≤ tm.year ∧ tm.year ≤ 2147483647 then some tm else none

/-- `get_localtime` at the instant `t`, /repo/src/utils/os.c:95-112; `none` is -1. -/
def getLocaltime (zone : Zone) (t : Int) : Option Tm := localtime zone t

/-- `serialize_localtime` at the instant `t`, /repo/src/voucher/serialize.c:363-378; `none` is NULL. -/
def serializeLocaltime (lib : TimeLib) (zone : Zone) (t : Int) : Option Bytes :=
  (getLocaltime zone t).bind (time2str lib)

/-- The text of `sprintf` in `time_to_str`, /repo/src/utils/log.c:88-89. -/
def stampText (tm : Tm) (msec : Nat) : Bytes :=
  numPad 4 (tm.year + 1900) ++ [45] ++ numPad 2 (tm.mon + 1) ++ [45] ++ numPad 2 tm.mday ++ [32] ++
    numPad 2 tm.hour ++ [58] ++ numPad 2 tm.min ++ [58] ++ numPad 2 tm.sec ++ [46] ++ numPad 3 msec ++ [32]

/-- `time_to_str`, /repo/src/utils/log.c:68-92, for a buffer of `size` bytes: `sprintf` writes the text and a NUL whatever
the size is, `localtime` is dereferenced without a test. -/
def timeToStr (zone : Zone) (size : Nat) (t : Int) (usec : Nat) : Outcome Bytes :=
  match localtime zone t with
  | none => .ub
  | some tm =>
    let s := stampText tm (usec / 1000 % 65536)
    if s.length + 1 ≤ size then .ok s else .ub

end Brski.Clock
