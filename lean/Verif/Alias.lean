import Verif.Voucher

/-!
# Attributes written back to the voucher they come from

The getters of /repo/src/voucher/voucher.c:429-518 return pointers into the voucher.  `Voucher.lean` takes the arguments of the
setters as values; here an argument is a pointer a getter has returned for the same voucher.
-/

namespace Brski.Alias
open BoolTime (Tm)
open Brski.Voucher (Attr BinArr Voucher memdup arrayNonempty getArray getTime getStr getEnum getBool setArray setTime setStr setEnum setBool)

/-- The array member of an attribute gets a new value (assignments of /repo/src/voucher/array.c:111-116 to the members chosen at
/repo/src/voucher/voucher.c:231-258). -/
def putArray (v : Voucher) (a : Attr) (x : BinArr) : Voucher :=
  match a with
  | .idevidIssuer => { v with idevidIssuer := x }
  | .pinnedDomainCert => { v with pinned := x }
  | .nonce => { v with nonce := x }
  | .priorSigned => { v with prior := x }
  | .proximityCert => { v with proximity := x }
  | _ => v

/-- `copy_binary_array` when `dst` and `src` are the same structure, /repo/src/voucher/array.c:100-119: the length is set to 0
before it is used. -/
def copyOntoItself (al : Allocator) (x : BinArr) : Outcome (BinArr × Bool) :=
  (memdup al x.array 0).bind fun r =>
  match r with
  | none => .ok (⟨none, 0⟩, false)
  | some d => .ok (⟨some d, 0⟩, true)

/-- `set_attr_array_voucher(v, b, get_attr_array_voucher(v, a))`, /repo/src/voucher/voucher.c:218-267,496-518. -/
def backArray (al : Allocator) (v : Voucher) (b a : Attr) : Outcome (Voucher × Bool) :=
  if a = b then
    match getArray v a with
    | none => .ok (v, false)
    | some x =>
      if arrayNonempty (some x) then (copyOntoItself al x).bind fun r => .ok (putArray v a r.1, r.2)
      else .ok (v, false)
  else setArray al v b (getArray v a)

/-- `set_attr_time_voucher(v, b, get_attr_time_voucher(v, a))`, /repo/src/voucher/voucher.c:110-134,444-464.  `memcpy` onto the
source itself is undefined (objects overlap). -/
def backTime (v : Voucher) (b a : Attr) : Outcome (Voucher × Bool) :=
  if a = b ∧ (getTime v a).isSome then .ub else setTime v b (getTime v a)

/-- The attribute `b` is set to what the getter of its kind returns for `a`: for strings and arrays the pointer, for the others what
is behind it (/repo/src/voucher/voucher.c:75-267,429-518).  A getter that returns NULL must not be dereferenced. -/
def back (al : Allocator) (v : Voucher) (b a : Attr) : Outcome (Voucher × Bool) :=
  match b with
  | .createdOn | .expiresOn | .lastRenewalDate => backTime v b a
  | .assertion => match getEnum v a with | some n => .ok (setEnum v b n) | none => .ub
  | .revocationChecks => match getBool v a with | some x => .ok (setBool v b x) | none => .ub
  | .serialNumber => match getStr v a with | some s => .ok (setStr al v b s) | none => .ub
  | .idevidIssuer | .pinnedDomainCert | .nonce | .priorSigned | .proximityCert => backArray al v b a
  | .other => .ok (v, false)

end Brski.Alias
