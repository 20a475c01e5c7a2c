import Verif.Base64
import Verif.BoolTime

/-!
# Voucher record (model)

Value-level model of the attribute functions of /repo/src/voucher/voucher.c:26-518 and of
the array helpers of /repo/src/voucher/array.c:90-159 they use.  A return value `true`
stands for 0, `false` for -1.  Pointers held by the voucher are represented by the bytes
they point to; ownership and freeing of these blocks is modelled separately (heap model).
-/

namespace Brski.Voucher

open BoolTime (Tm TimeLib)

/-- `struct BinaryArray`, /repo/src/voucher/array.h:155-158.  `array = none` is the NULL
pointer, `array = some b` a pointer to the bytes `b`. -/
structure BinArr where
  array : Option Bytes
  length : Nat
deriving Repr, DecidableEq

/-- The zero-initialised array `{NULL, 0}`; `sys_zalloc` at
/repo/src/voucher/voucher.c:65, `= {0}` at /repo/src/voucher/voucher.c:272. -/
def BinArr.empty : BinArr := ⟨none, 0⟩

/-- An array holding exactly the bytes `b` (`struct BinaryArray`,
/repo/src/voucher/array.h:155-158). -/
def BinArr.of (b : Bytes) : BinArr := ⟨some b, b.length⟩

/-- `sys_memdup`, /repo/src/utils/os.c:39-53.  Reading more than the block holds is
undefined. -/
def memdup (al : Allocator) (src : Option Bytes) (len : Nat) : Outcome (Option Bytes) :=
  match src with
  | none => .ok none
  | some b =>
    match al.malloc len with
    | none => .ok none
    | some _ => if len ≤ b.length then .ok (some (b.take len)) else .ub

/-- `copy_binary_array` for non-NULL `dst` and `src`, /repo/src/voucher/array.c:100-119:
new contents of `dst` and return value.  The previous block of `dst` is not looked at. -/
def copyBinaryArray (al : Allocator) (src : BinArr) : Outcome (BinArr × Bool) :=
  (memdup al src.array src.length).bind fun r =>
  match r with
  | none => .ok (⟨none, 0⟩, false)
  | some b => .ok (⟨some b, src.length⟩, true)

/-- `sys_memcmp(dst->array, src->array, n)` on the two blocks: reading outside a block is
undefined; a NULL pointer may only be passed with `n = 0` (glibc; ISO C forbids it even
then, see DESIGN.md).  /repo/src/voucher/array.c:137. -/
def memcmpEq (a b : Option Bytes) (n : Nat) : Outcome Bool :=
  if n = 0 then .ok true
  else match a, b with
    | some x, some y =>
      if n ≤ x.length ∧ n ≤ y.length then .ok (x.take n == y.take n) else .ub
    | _, _ => .ub

/-- `compare_binary_array`, /repo/src/voucher/array.c:121-142; `none` is a NULL argument. -/
def compareBinaryArray (src dst : Option BinArr) : Outcome Int :=
  match src, dst with
  | none, _ => .ok (-1)
  | _, none => .ok (-1)
  | some s, some d =>
    if d.length ≠ s.length then .ok 0
    else (memcmpEq d.array s.array s.length).bind fun e => .ok (if e then 1 else 0)

/-- `enum VoucherAttributes`, /repo/src/voucher/voucher.h:59-204; `other` stands for any
value outside the enumeration (C enums are integers). -/
inductive Attr where
  | createdOn | expiresOn | assertion | serialNumber | idevidIssuer | pinnedDomainCert
  | revocationChecks | nonce | lastRenewalDate | priorSigned | proximityCert | other
deriving Repr, DecidableEq

/-- `struct Voucher`, /repo/src/voucher/voucher_defs.h:14-27 (`assertion` is a C `int`
sized enum; strings are their bytes without NUL). -/
structure Voucher where
  createdOn : Tm
  expiresOn : Tm
  assertion : Int
  serial : Option Bytes
  idevidIssuer : BinArr
  pinned : BinArr
  revocation : Bool
  nonce : BinArr
  lastRenewal : Tm
  prior : BinArr
  proximity : BinArr
deriving Repr, DecidableEq

/-- `init_voucher`, /repo/src/voucher/voucher.c:64-73 (allocation succeeded). -/
def Voucher.init : Voucher where
  createdOn := Tm.zero
  expiresOn := Tm.zero
  assertion := 0
  serial := none
  idevidIssuer := .empty
  pinned := .empty
  revocation := false
  nonce := .empty
  lastRenewal := Tm.zero
  prior := .empty
  proximity := .empty

/-- `is_attr_array_nonempty`, /repo/src/voucher/voucher.c:35-45. -/
def arrayNonempty (v : Option BinArr) : Bool :=
  match v with
  | none => false
  | some a => if a.array.isNone ∧ a.length = 0 then false else true

/-- `set_attr_bool_voucher`, /repo/src/voucher/voucher.c:75-90. -/
def setBool (v : Voucher) (a : Attr) (x : Bool) : Voucher × Bool :=
  match a with
  | .revocationChecks => ({ v with revocation := x }, true)
  | _ => (v, false)

/-- `set_attr_time_voucher`, /repo/src/voucher/voucher.c:110-134.  `memcpy` from a NULL
pointer is undefined. -/
def setTime (v : Voucher) (a : Attr) (x : Option Tm) : Outcome (Voucher × Bool) :=
  match a, x with
  | .createdOn, some t => .ok ({ v with createdOn := t }, true)
  | .expiresOn, some t => .ok ({ v with expiresOn := t }, true)
  | .lastRenewalDate, some t => .ok ({ v with lastRenewal := t }, true)
  | .createdOn, none => .ub
  | .expiresOn, none => .ub
  | .lastRenewalDate, none => .ub
  | _, _ => .ok (v, false)

/-- `set_attr_enum_voucher`, /repo/src/voucher/voucher.c:136-157. -/
def setEnum (v : Voucher) (a : Attr) (x : Int) : Voucher × Bool :=
  match a with
  | .assertion => if x < 1 ∨ x > 3 then (v, false) else ({ v with assertion := x }, true)
  | _ => (v, false)

/-- `sys_strndup`, /repo/src/utils/os.c:55-68, of a block holding `s` (non-NULL):
`calloc(length + 1)` and `strncpy`, which stops at the first NUL.  The caller guarantees
`length` readable bytes or an earlier NUL; here `s` has at least `length` bytes or is the
content of a C string. -/
def strndup (al : Allocator) (s : Bytes) (length : Nat) : Option Bytes :=
  match al.malloc (szWrap (length + 1)) with
  | none => none
  | some _ => some ((s.take length).takeWhile (· ≠ 0))

/-- `set_attr_nstr_voucher`, /repo/src/voucher/voucher.c:175-195; `MAX_SERIAL_NUMBER_SIZE`
is 128. -/
def setNstr (al : Allocator) (v : Voucher) (a : Attr) (s : Bytes) (length : Nat) :
    Voucher × Bool :=
  match a with
  | .serialNumber =>
    if length < 128 then
      match strndup al s length with
      | none => ({ v with serial := none }, false)
      | some d => ({ v with serial := some d }, true)
    else (v, false)
  | _ => (v, false)

/-- `sys_strnlen_s(value, max)` on a C string with bytes `s`, /repo/src/utils/os.c:86-93. -/
def strnlen (s : Bytes) (max : Nat) : Nat := min s.length max

/-- `set_attr_str_voucher`, /repo/src/voucher/voucher.c:197-216; `none` is a NULL pointer,
`some s` a C string with the (NUL free) bytes `s`. -/
def setStr (al : Allocator) (v : Voucher) (a : Attr) (x : Option Bytes) : Voucher × Bool :=
  match a with
  | .serialNumber =>
    match x with
    | none => (v, false)
    | some s => setNstr al v a s (strnlen s 128)
  | _ => (v, false)

/-- `set_attr_array_voucher`, /repo/src/voucher/voucher.c:218-267; `none` is a NULL
pointer. -/
def setArray (al : Allocator) (v : Voucher) (a : Attr) (x : Option BinArr) :
    Outcome (Voucher × Bool) :=
  match x with
  | none => .ok (v, false)
  | some x =>
    if arrayNonempty (some x) then
      match a with
      | .idevidIssuer => (copyBinaryArray al x).bind fun r => .ok ({ v with idevidIssuer := r.1 }, r.2)
      | .pinnedDomainCert => (copyBinaryArray al x).bind fun r => .ok ({ v with pinned := r.1 }, r.2)
      | .nonce => (copyBinaryArray al x).bind fun r => .ok ({ v with nonce := r.1 }, r.2)
      | .priorSigned => (copyBinaryArray al x).bind fun r => .ok ({ v with prior := r.1 }, r.2)
      | .proximityCert => (copyBinaryArray al x).bind fun r => .ok ({ v with proximity := r.1 }, r.2)
      | _ => .ok (v, false)
    else .ok (v, false)

/-- Argument of the variadic `set_attr_voucher`, typed as documented for the attribute at
/repo/src/voucher/voucher.h:324-344. -/
inductive VaArg where
  | time (t : Option Tm)
  | int (n : Int)
  | str (s : Option Bytes)
  | array (x : Option BinArr)
deriving Repr, DecidableEq

/-- `set_attr_voucher`, /repo/src/voucher/voucher.c:291-338.  Fetching an argument with a
type other than the one passed is undefined.  A bool argument is promoted to `int`. -/
def setVa (al : Allocator) (v : Voucher) (a : Attr) (arg : VaArg) : Outcome (Voucher × Bool) :=
  match a with
  | .createdOn | .expiresOn | .lastRenewalDate =>
    match arg with
    | .time t => setTime v a t
    | _ => .ub
  | .assertion =>
    match arg with
    | .int n => .ok (setEnum v a n)
    | _ => .ub
  | .serialNumber =>
    match arg with
    | .str s => .ok (setStr al v a s)
    | _ => .ub
  | .idevidIssuer | .pinnedDomainCert | .nonce | .priorSigned | .proximityCert =>
    match arg with
    | .array x => setArray al v a x
    | _ => .ub
  | .revocationChecks =>
    match arg with
    | .int n => .ok (setBool v a (n ≠ 0))
    | _ => .ub
  | .other => .ok (v, false)

/-- `is_attr_time_nonempty`, /repo/src/voucher/voucher.c:340-347. -/
def timeNonempty (t : Tm) : Bool :=
  if t.year = 0 ∧ t.yday = 0 ∧ t.mon = 0 ∧ t.wday = 0 ∧ t.mday = 0 ∧ t.hour = 0 ∧ t.min = 0 ∧
     t.sec = 0 then false else true

/-- `is_attr_voucher_nonempty` for a non-NULL voucher, /repo/src/voucher/voucher.c:349-377. -/
def attrNonempty (v : Voucher) (a : Attr) : Bool :=
  match a with
  | .createdOn => timeNonempty v.createdOn
  | .expiresOn => timeNonempty v.expiresOn
  | .lastRenewalDate => timeNonempty v.lastRenewal
  | .assertion => v.assertion ≠ 0
  | .serialNumber => v.serial.isSome
  | .idevidIssuer => arrayNonempty (some v.idevidIssuer)
  | .pinnedDomainCert => arrayNonempty (some v.pinned)
  | .nonce => arrayNonempty (some v.nonce)
  | .priorSigned => arrayNonempty (some v.prior)
  | .proximityCert => arrayNonempty (some v.proximity)
  | .revocationChecks => true
  | .other => false

/-- `clear_attr_voucher` for a non-NULL voucher, /repo/src/voucher/voucher.c:379-427; the
return value is always 0. -/
def clear (v : Voucher) (a : Attr) : Voucher :=
  match a with
  | .createdOn => { v with createdOn := Tm.zero }
  | .expiresOn => { v with expiresOn := Tm.zero }
  | .lastRenewalDate => { v with lastRenewal := Tm.zero }
  | .assertion => { v with assertion := 0 }
  | .serialNumber => { v with serial := none }
  | .idevidIssuer => { v with idevidIssuer := .empty }
  | .pinnedDomainCert => { v with pinned := .empty }
  | .nonce => { v with nonce := .empty }
  | .priorSigned => { v with prior := .empty }
  | .proximityCert => { v with proximity := .empty }
  | .revocationChecks => { v with revocation := false }
  | .other => v

/-- `get_attr_bool_voucher`, /repo/src/voucher/voucher.c:429-442; `none` is NULL. -/
def getBool (v : Voucher) (a : Attr) : Option Bool :=
  match a with
  | .revocationChecks => some v.revocation
  | _ => none

/-- `get_attr_time_voucher`, /repo/src/voucher/voucher.c:444-464; `none` is NULL. -/
def getTime (v : Voucher) (a : Attr) : Option Tm :=
  match a with
  | .createdOn => some v.createdOn
  | .expiresOn => some v.expiresOn
  | .lastRenewalDate => some v.lastRenewal
  | _ => none

/-- `get_attr_enum_voucher`, /repo/src/voucher/voucher.c:466-479; `none` is NULL. -/
def getEnum (v : Voucher) (a : Attr) : Option Int :=
  match a with
  | .assertion => some v.assertion
  | _ => none

/-- `get_attr_str_voucher`, /repo/src/voucher/voucher.c:481-494; outer `none` is a NULL
result, inner `none` a NULL string. -/
def getStr (v : Voucher) (a : Attr) : Option (Option Bytes) :=
  match a with
  | .serialNumber => some v.serial
  | _ => none

/-- `get_attr_array_voucher`, /repo/src/voucher/voucher.c:496-518; `none` is NULL. -/
def getArray (v : Voucher) (a : Attr) : Option BinArr :=
  match a with
  | .idevidIssuer => some v.idevidIssuer
  | .pinnedDomainCert => some v.pinned
  | .nonce => some v.nonce
  | .priorSigned => some v.prior
  | .proximityCert => some v.proximity
  | _ => none

/-- One public attribute call with its arguments and the allocation behaviour during the
call (/repo/src/voucher/voucher.h:266-354). -/
inductive Call where
  | bool (a : Attr) (x : Bool)
  | time (a : Attr) (x : Option Tm)
  | enum (a : Attr) (x : Int)
  | str (a : Attr) (x : Option Bytes) (al : Allocator)
  | array (a : Attr) (x : Option BinArr) (al : Allocator)
  | va (a : Attr) (x : VaArg) (al : Allocator)
  | clear (a : Attr)

/-- Execution of one call on a non-NULL voucher: new voucher and return value
(/repo/src/voucher/voucher.c:75-427). -/
def Call.run (v : Voucher) : Call → Outcome (Voucher × Bool)
  | .bool a x => .ok (setBool v a x)
  | .time a x => setTime v a x
  | .enum a x => .ok (setEnum v a x)
  | .str a x al => .ok (setStr al v a x)
  | .array a x al => setArray al v a x
  | .va a x al => setVa al v a x
  | .clear a => .ok (Voucher.clear v a, true)

/-- The same call on a possibly NULL voucher pointer: every public function first checks the
pointer and returns -1 (/repo/src/voucher/voucher.c:77,113,138,199,221,381).  The variadic function delegates to
the typed ones; for it this is stated for arguments of the documented type. -/
def Call.runPtr (v : Option Voucher) (c : Call) : Outcome (Option Voucher × Bool) :=
  match v with
  | none => .ok (none, false)
  | some v => (c.run v).bind fun r => .ok (some r.1, r.2)

/-- A sequence of calls; the result lists the return values in order
(/repo/src/voucher/voucher.c:75-427). -/
def runCalls (v : Voucher) : List Call → Outcome (Voucher × List Bool)
  | [] => .ok (v, [])
  | c :: cs =>
    (c.run v).bind fun r =>
    (runCalls r.1 cs).bind fun q => .ok (q.1, r.2 :: q.2)

end Brski.Voucher
