import Verif.Voucher

/-!
# Specification of the voucher record

An abstract typed record: a finite map from attributes to values, with a rule saying
which values an attribute may hold.  Written without the setters, getters and emptiness
tests of the model; only the argument types (`Attr`, `Tm`, `BinArr`, `Call`) are shared.
-/

namespace Brski.Spec

open Brski.Voucher BoolTime

/-- Values of the voucher YANG module as typed in /repo/src/voucher/voucher_defs.h:14-27. -/
inductive Val where
  | time (t : Tm)
  | enum (n : Int)
  | text (s : Bytes)
  | bytes (b : Bytes)
  | flag (b : Bool)
deriving Repr, DecidableEq

/-- Which values an attribute accepts: a time, one of the three assertions, a text shorter
than 128 bytes, a byte string, a flag (documented at
/repo/src/voucher/voucher.h:59-230,324-342). -/
def fits : Attr → Val → Bool
  | .createdOn, .time _ => true
  | .expiresOn, .time _ => true
  | .lastRenewalDate, .time _ => true
  | .assertion, .enum n => n = 1 ∨ n = 2 ∨ n = 3
  | .serialNumber, .text s => s.length ≤ 127
  | .idevidIssuer, .bytes _ => true
  | .pinnedDomainCert, .bytes _ => true
  | .nonce, .bytes _ => true
  | .priorSigned, .bytes _ => true
  | .proximityCert, .bytes _ => true
  | .revocationChecks, .flag _ => true
  | _, _ => false

/-- Abstract record: `none` is "not set".  Specification for
/repo/src/voucher/voucher_defs.h:14-27. -/
abbrev Record := Attr → Option Val

/-- The record in which nothing is set (/repo/src/voucher/voucher.h:232-238). -/
def blank : Record := fun _ => none

/-- Value offered by a set call; `none` for missing values and for `clear`
(/repo/src/voucher/voucher.h:266-354). -/
def offer : Call → Option (Attr × Val)
  | .bool a x => some (a, .flag x)
  | .time a x => x.map fun t => (a, .time t)
  | .enum a n => some (a, .enum n)
  | .str a x _ => x.map fun s => (a, .text s)
  | .array a x _ => x.bind fun y => y.array.map fun b => (a, .bytes b)
  | .va a (.time x) _ => x.map fun t => (a, .time t)
  | .va .revocationChecks (.int n) _ => some (.revocationChecks, .flag (n ≠ 0))
  | .va a (.int n) _ => some (a, .enum n)
  | .va a (.str x) _ => x.map fun s => (a, .text s)
  | .va a (.array x) _ => x.bind fun y => y.array.map fun b => (a, .bytes b)
  | .clear _ => none

/-- Effect and return value of a call on the abstract record
(/repo/src/voucher/voucher.h:266-354). -/
def step (r : Record) (c : Call) : Record × Bool :=
  match c with
  | .clear a => (fun x => if x = a then none else r x, true)
  | c =>
    match offer c with
    | none => (r, false)
    | some (a, v) =>
      if fits a v then (fun x => if x = a then some v else r x, true) else (r, false)

/-- Record and return values after a sequence of calls
(/repo/src/voucher/voucher.h:266-354). -/
def steps (r : Record) : List Call → Record × List Bool
  | [] => (r, [])
  | c :: cs => ((steps (step r c).1 cs).1, (step r c).2 :: (steps (step r c).1 cs).2)

/-- What a caller can observe about one attribute through the public getters
(/repo/src/voucher/voucher.h:356-416). -/
structure View where
  time : Option Tm
  enum : Option Int
  text : Option (Option Bytes)
  bytes : Option BinArr
  flag : Option Bool
  nonempty : Bool
deriving DecidableEq

/-- A getter of the wrong kind returns NULL (/repo/src/voucher/voucher.h:366-416). -/
def View.none : View := ⟨.none, .none, .none, .none, .none, false⟩

/-- Observation of attribute `a` of the abstract record.  An unset time reads as the zero
time, an unset assertion as 0, an unset flag as false.  A time counts as non-empty iff
some field other than the DST flag is not zero (the API has no other way to mark a time
as present); flags are always present.  (/repo/src/voucher/voucher.h:356-416). -/
def view (r : Record) (a : Attr) : View :=
  match a with
  | .createdOn | .expiresOn | .lastRenewalDate =>
    let t := match r a with | some (.time t) => t | _ => Tm.zero
    { View.none with time := some t, nonempty := decide ({ t with isdst := 0 } ≠ Tm.zero) }
  | .assertion =>
    match r a with
    | some (.enum n) => { View.none with enum := some n, nonempty := true }
    | _ => { View.none with enum := some 0 }
  | .serialNumber =>
    match r a with
    | some (.text s) => { View.none with text := some (some s), nonempty := true }
    | _ => { View.none with text := some .none }
  | .idevidIssuer | .pinnedDomainCert | .nonce | .priorSigned | .proximityCert =>
    match r a with
    | some (.bytes b) => { View.none with bytes := some ⟨some b, b.length⟩, nonempty := true }
    | _ => { View.none with bytes := some ⟨.none, 0⟩ }
  | .revocationChecks =>
    match r a with
    | some (.flag b) => { View.none with flag := some b, nonempty := true }
    | _ => { View.none with flag := some false, nonempty := true }
  | .other => View.none

/-- The caller's side of the contract: times are given, an array has its bytes behind the
pointer, strings are C strings, the variadic argument has the documented type
(/repo/src/voucher/voucher.h:266-354). -/
def arrayOk (x : Option BinArr) : Prop :=
  ∀ y, x = some y → match y.array with | some b => y.length = b.length | none => y.length = 0

/-- The time pointer is given when the attribute is a time attribute
(/repo/src/voucher/voucher.h:278-288). -/
def timeOk (a : Attr) (x : Option Tm) : Prop :=
  a = .createdOn ∨ a = .expiresOn ∨ a = .lastRenewalDate → x.isSome

/-- A C string has no NUL among its bytes (/repo/src/voucher/voucher.h:301-311). -/
def strOk (x : Option Bytes) : Prop := ∀ s, x = some s → (0 : UInt8) ∉ s

/-- Documented type of the variadic argument (/repo/src/voucher/voucher.h:324-344). -/
def vaOk : Attr → VaArg → Prop
  | .createdOn, .time x => x.isSome
  | .expiresOn, .time x => x.isSome
  | .lastRenewalDate, .time x => x.isSome
  | .assertion, .int _ => True
  | .revocationChecks, .int _ => True
  | .serialNumber, .str x => strOk x
  | .idevidIssuer, .array x => arrayOk x
  | .pinnedDomainCert, .array x => arrayOk x
  | .nonce, .array x => arrayOk x
  | .priorSigned, .array x => arrayOk x
  | .proximityCert, .array x => arrayOk x
  | .other, _ => True
  | _, _ => False

/-- Contract of a call (/repo/src/voucher/voucher.h:266-354). -/
def callOk : Call → Prop
  | .time a x => timeOk a x
  | .str _ x _ => strOk x
  | .array _ x _ => arrayOk x
  | .va a x _ => vaOk a x
  | _ => True

/-- Allocation succeeds during the call (/repo/src/utils/os.h:75). -/
def memOk : Call → Prop
  | .str _ _ al => ∀ n, al.malloc n ≠ none
  | .array _ _ al => ∀ n, al.malloc n ≠ none
  | .va _ _ al => ∀ n, al.malloc n ≠ none
  | _ => True

end Brski.Spec
