import Verif.SpecVoucher
import Verif.SpecBase64
import Verif.SpecTime

/-!
# Specification of the voucher JSON text (RFC 8366 section 5.2 subset)

Written without the serialisation functions of the model.
-/

namespace Brski.Spec

open Brski.Voucher

/-- Texts joined by commas.  Specification for /repo/src/voucher/serialize.c:48-109. -/
def commaJoin : List Bytes → Bytes
  | [] => []
  | [x] => x
  | x :: y :: r => x ++ (str "," ++ commaJoin (y :: r))

/-- A JSON object with the given (already encoded) keys and values.  Specification for
/repo/src/voucher/serialize.c:48-109. -/
def jsonObject (kvs : List (Bytes × Bytes)) : Bytes :=
  str "{" ++ commaJoin (kvs.map fun kv => kv.1 ++ str ":" ++ kv.2) ++ str "}"

/-- A JSON string whose characters need no escaping.  Specification for
/repo/src/voucher/serialize.c:380-397. -/
def quoted (s : Bytes) : Bytes := str "\"" ++ s ++ str "\""

/-- Attribute names of RFC 8366 / RFC 8995 in the order of the schema
(/repo/src/voucher/voucher_defs.h:30-44). -/
def schema : List (Attr × Bytes) :=
  [(.createdOn, str "created-on"), (.expiresOn, str "expires-on"),
   (.assertion, str "assertion"), (.serialNumber, str "serial-number"),
   (.idevidIssuer, str "idevid-issuer"), (.pinnedDomainCert, str "pinned-domain-cert"),
   (.revocationChecks, str "domain-cert-revocation-checks"), (.nonce, str "nonce"),
   (.lastRenewalDate, str "last-renewal-date"),
   (.priorSigned, str "prior-signed-voucher-request"),
   (.proximityCert, str "proximity-registrar-cert")]

/-! ## Flat voucher documents

The texts an RFC 8366 encoder can produce: an object with one member whose
value is an object with string or primitive values, with any white space between tokens. -/

/-- JSON white space (specification for the documents read at
/repo/src/voucher/voucher.c:798-873). -/
def isWs (c : UInt8) : Prop := c = 9 ∨ c = 10 ∨ c = 13 ∨ c = 32

/-- Characters a string may contain without escape (specification for the documents read at
/repo/src/voucher/voucher.c:798-873). -/
def isPlain (c : UInt8) : Prop := c ≠ 0 ∧ c ≠ 34 ∧ c ≠ 92

/-- Characters that may follow a backslash (RFC 8259 section 7; specification for the documents read at
/repo/src/voucher/voucher.c:798-873). -/
def isEscaped (c : UInt8) : Prop := c ∈ str "\"\\/bfnrt"

/-- Hexadecimal digits (RFC 8259 section 7; specification for the documents read at
/repo/src/voucher/voucher.c:798-873). -/
def isHexDigit (c : UInt8) : Prop := c ∈ str "0123456789abcdefABCDEF"

/-- The text between the quotes of a JSON string (RFC 8259 section 7; control characters other than NUL
are tolerated; specification for the documents read at /repo/src/voucher/voucher.c:798-873). -/
inductive StringText : Bytes → Prop where
  | nil : StringText []
  | plain {c : UInt8} {s : Bytes} : isPlain c → StringText s → StringText (c :: s)
  | escape {c : UInt8} {s : Bytes} : isEscaped c → StringText s → StringText (92 :: c :: s)
  | unicode {a b c d : UInt8} {s : Bytes} : isHexDigit a → isHexDigit b → isHexDigit c → isHexDigit d →
      StringText s → StringText (92 :: 117 :: a :: b :: c :: d :: s)

theorem StringText.of_plain : ∀ {s : Bytes}, (∀ c ∈ s, isPlain c) → StringText s
  | [], _ => .nil
  | _ :: _, h => .plain (h _ (by simp)) (of_plain fun c hc => h c (by simp [hc]))

/-- Characters of a bare value such as `true` or `12`: printable, not structural
(specification for the documents read at /repo/src/voucher/voucher.c:798-873). -/
def isBare (c : UInt8) : Prop :=
  33 ≤ c ∧ c ≤ 126 ∧ c ≠ 34 ∧ c ≠ 44 ∧ c ≠ 58 ∧ c ≠ 91 ∧ c ≠ 93 ∧ c ≠ 123 ∧ c ≠ 125

/-- A value: a string or a bare value (specification for the documents read at
/repo/src/voucher/voucher.c:798-873). -/
inductive FlatValue where
  | text (s : Bytes)
  | bare (s : Bytes)
deriving Repr, DecidableEq

/-- Its characters (specification for /repo/src/voucher/voucher.c:839-843). -/
def FlatValue.raw : FlatValue → Bytes
  | .text s => s
  | .bare s => s

/-- Its JSON text (specification for the documents read at
/repo/src/voucher/voucher.c:798-873). -/
def FlatValue.render : FlatValue → Bytes
  | .text s => quoted s
  | .bare s => s

/-- Well-formedness of a value (specification for the documents read at
/repo/src/voucher/voucher.c:798-873). -/
def FlatValue.Ok : FlatValue → Prop
  | .text s => StringText s
  | .bare s => s ≠ [] ∧ ∀ c ∈ s, isBare c

/-- A value without escapes (specification for the documents read at
/repo/src/voucher/voucher.c:798-873). -/
def FlatValue.Plain : FlatValue → Prop
  | .text s => ∀ c ∈ s, isPlain c
  | .bare s => s ≠ [] ∧ ∀ c ∈ s, isBare c

theorem FlatValue.Plain.ok {x : FlatValue} (h : x.Plain) : x.Ok := by
  cases x with
  | text s => exact .of_plain h
  | bare s => exact h

/-- A member with the white space around its parts (specification for the documents read at
/repo/src/voucher/voucher.c:798-873). -/
structure FlatMember where
  w0 : Bytes
  key : Bytes
  w1 : Bytes
  w2 : Bytes
  value : FlatValue
  w3 : Bytes
deriving Repr, DecidableEq

/-- JSON text of a member (specification for the documents read at
/repo/src/voucher/voucher.c:798-873). -/
def FlatMember.render (m : FlatMember) : Bytes :=
  m.w0 ++ quoted m.key ++ m.w1 ++ str ":" ++ m.w2 ++ m.value.render ++ m.w3

/-- Well-formedness of a member (specification for the documents read at
/repo/src/voucher/voucher.c:798-873). -/
def FlatMember.Ok (m : FlatMember) : Prop :=
  (∀ c ∈ m.w0, isWs c) ∧ StringText m.key ∧ (∀ c ∈ m.w1, isWs c) ∧
  (∀ c ∈ m.w2, isWs c) ∧ m.value.Ok ∧ (∀ c ∈ m.w3, isWs c)

/-- A member without escapes (specification for the documents read at
/repo/src/voucher/voucher.c:798-873). -/
def FlatMember.Plain (m : FlatMember) : Prop :=
  (∀ c ∈ m.w0, isWs c) ∧ (∀ c ∈ m.key, isPlain c) ∧ (∀ c ∈ m.w1, isWs c) ∧
  (∀ c ∈ m.w2, isWs c) ∧ m.value.Plain ∧ (∀ c ∈ m.w3, isWs c)

theorem FlatMember.Plain.ok {m : FlatMember} (h : m.Plain) : m.Ok :=
  ⟨h.1, .of_plain h.2.1, h.2.2.1, h.2.2.2.1, h.2.2.2.2.1.ok, h.2.2.2.2.2⟩

/-- A flat document: the name of the single top-level member, the members of its object and
the white space (specification for the documents read at
/repo/src/voucher/voucher.c:798-873). -/
structure FlatDoc where
  w0 : Bytes
  w1 : Bytes
  name : Bytes
  w2 : Bytes
  w3 : Bytes
  inner : Bytes
  members : List FlatMember
  w4 : Bytes
  w5 : Bytes
deriving Repr, DecidableEq

/-- JSON text of the document (specification for the documents read at
/repo/src/voucher/voucher.c:798-873). -/
def FlatDoc.render (d : FlatDoc) : Bytes :=
  d.w0 ++ str "{" ++ d.w1 ++ quoted d.name ++ d.w2 ++ str ":" ++ d.w3 ++ str "{" ++ d.inner ++
  commaJoin (d.members.map FlatMember.render) ++ str "}" ++ d.w4 ++ str "}" ++ d.w5

/-- Well-formedness of the document (specification for the documents read at
/repo/src/voucher/voucher.c:798-873). -/
def FlatDoc.Ok (d : FlatDoc) : Prop :=
  (∀ c ∈ d.w0, isWs c) ∧ (∀ c ∈ d.w1, isWs c) ∧ StringText d.name ∧
  (∀ c ∈ d.w2, isWs c) ∧ (∀ c ∈ d.w3, isWs c) ∧ (∀ c ∈ d.inner, isWs c) ∧
  (∀ m ∈ d.members, m.Ok) ∧ (∀ c ∈ d.w4, isWs c) ∧ (∀ c ∈ d.w5, isWs c)

/-- A document without escapes (specification for the documents read at
/repo/src/voucher/voucher.c:798-873). -/
def FlatDoc.Plain (d : FlatDoc) : Prop :=
  (∀ c ∈ d.w0, isWs c) ∧ (∀ c ∈ d.w1, isWs c) ∧ (∀ c ∈ d.name, isPlain c) ∧
  (∀ c ∈ d.w2, isWs c) ∧ (∀ c ∈ d.w3, isWs c) ∧ (∀ c ∈ d.inner, isWs c) ∧
  (∀ m ∈ d.members, m.Plain) ∧ (∀ c ∈ d.w4, isWs c) ∧ (∀ c ∈ d.w5, isWs c)

theorem FlatDoc.Plain.ok {d : FlatDoc} (h : d.Plain) : d.Ok :=
  ⟨h.1, h.2.1, .of_plain h.2.2.1, h.2.2.2.1, h.2.2.2.2.1, h.2.2.2.2.2.1, fun m hm => (h.2.2.2.2.2.2.1 m hm).ok,
    h.2.2.2.2.2.2.2⟩

/-- The document without white space (specification for the text written at
/repo/src/voucher/voucher.c:643-688). -/
def FlatDoc.compact (name : Bytes) (ms : List (Bytes × FlatValue)) : FlatDoc :=
  ⟨[], [], name, [], [], [], ms.map fun m => ⟨[], m.1, [], [], m.2, []⟩, [], []⟩

/-! ## What the serialiser has to write -/

/-- Is a time set?  (All date and time fields zero means "not set";
/repo/src/voucher/voucher.h:356-364.) -/
def timeSet (t : BoolTime.Tm) : Bool := decide ({ t with isdst := 0 } ≠ BoolTime.Tm.zero)

/-- Is an attribute of the voucher set?  The flag always counts as set
(/repo/src/voucher/voucher.h:356-364). -/
def present (v : Voucher) : Attr → Bool
  | .createdOn => timeSet v.createdOn
  | .expiresOn => timeSet v.expiresOn
  | .assertion => decide (v.assertion ≠ 0)
  | .serialNumber => v.serial.isSome
  | .idevidIssuer => decide (v.idevidIssuer ≠ ⟨none, 0⟩)
  | .pinnedDomainCert => decide (v.pinned ≠ ⟨none, 0⟩)
  | .revocationChecks => true
  | .nonce => decide (v.nonce ≠ ⟨none, 0⟩)
  | .lastRenewalDate => timeSet v.lastRenewal
  | .priorSigned => decide (v.prior ≠ ⟨none, 0⟩)
  | .proximityCert => decide (v.proximity ≠ ⟨none, 0⟩)
  | .other => false

/-- Fields of `struct tm` for a date and time; the derived fields (weekday, day of the year,
DST) are free (/repo/src/voucher/serialize.c:331-361). -/
def tmHolds (t : BoolTime.Tm) (v : DateTime) : Prop :=
  t.year = (v.y : Int) - 1900 ∧ t.mon = (v.mo : Int) - 1 ∧ t.mday = v.d ∧ t.hour = v.h ∧
  t.min = v.mi ∧ t.sec = v.s

/-- A time value is a string; for dates with a four digit year it is the RFC 3339 text
(/repo/src/voucher/voucher.c:520-535). -/
def IsTime (t : BoolTime.Tm) (x : FlatValue) : Prop :=
  ∃ s, x = .text s ∧ ∀ d : DateTime, tmHolds t d → d.Valid → 1000 ≤ d.y → s = rfc3339 d

/-- A byte string value is the RFC 4648 text of its bytes
(/repo/src/voucher/voucher.c:537-551). -/
def IsBytes (a : BinArr) (x : FlatValue) : Prop :=
  ∃ b, a = ⟨some b, b.length⟩ ∧ x = .text (rfc4648 b)

/-- The value written for an attribute (/repo/src/voucher/voucher.c:553-583). -/
def IsValue (v : Voucher) (a : Attr) (x : FlatValue) : Prop :=
  match a with
  | .createdOn => IsTime v.createdOn x
  | .expiresOn => IsTime v.expiresOn x
  | .lastRenewalDate => IsTime v.lastRenewal x
  | .assertion => (v.assertion = 1 ∧ x = .text (str "verified")) ∨
      (v.assertion = 2 ∧ x = .text (str "logged")) ∨
      (v.assertion = 3 ∧ x = .text (str "proximity"))
  | .serialNumber => ∃ s, v.serial = some s ∧ x = .text s
  | .idevidIssuer => IsBytes v.idevidIssuer x
  | .pinnedDomainCert => IsBytes v.pinned x
  | .nonce => IsBytes v.nonce x
  | .priorSigned => IsBytes v.prior x
  | .proximityCert => IsBytes v.proximity x
  | .revocationChecks => x = .bare (if v.revocation then str "true" else str "false")
  | .other => False

/-- The document for a voucher when attribute `a` has the text `val a`: one object with one
member, whose members are the attributes that are set, in schema order, without white space
(/repo/src/voucher/voucher.c:585-688). -/
def voucherDoc (v : Voucher) (val : Attr → FlatValue) : FlatDoc :=
  FlatDoc.compact (str "ietf-voucher:voucher")
    ((schema.filter fun p => present v p.1).map fun p => (p.2, val p.1))

/-- Same date and time of day (derived fields ignored;
/repo/src/voucher/serialize.c:331-361). -/
def sameTime (t u : BoolTime.Tm) : Prop :=
  t.year = u.year ∧ t.mon = u.mon ∧ t.mday = u.mday ∧ t.hour = u.hour ∧ t.min = u.min ∧
  t.sec = u.sec

/-- Same attributes (/repo/src/voucher/voucher_defs.h:14-27). -/
structure SameVoucher (v w : Voucher) : Prop where
  createdOn : sameTime v.createdOn w.createdOn
  expiresOn : sameTime v.expiresOn w.expiresOn
  lastRenewal : sameTime v.lastRenewal w.lastRenewal
  assertion : v.assertion = w.assertion
  serial : v.serial = w.serial
  idevidIssuer : v.idevidIssuer = w.idevidIssuer
  pinned : v.pinned = w.pinned
  revocation : v.revocation = w.revocation
  nonce : v.nonce = w.nonce
  prior : v.prior = w.prior
  proximity : v.proximity = w.proximity

/-! ## Meaning of a member -/

/-- Attribute with the given name (specification for /repo/src/voucher/voucher.c:711-796). -/
def attrOf (name : Bytes) : Option Attr := (schema.find? fun p => p.2 = name).map (·.1)

/-- The assertion values of RFC 8366 (specification for
/repo/src/voucher/voucher.c:159-173). -/
def assertionOf (s : Bytes) : Option Int :=
  if s = str "verified" then some 1
  else if s = str "logged" then some 2
  else if s = str "proximity" then some 3
  else none

/-- Value denoted by the characters `s` for attribute `a`, for given readers of time and
base64 text: texts shorter than 128 bytes, booleans, the three assertions, times and byte
strings (specification for /repo/src/voucher/voucher.c:711-796). -/
def valueOf (readTime : Bytes → Option BoolTime.Tm) (readBytes : Bytes → Option Bytes)
    (a : Attr) (s : Bytes) : Option Val :=
  match a with
  | .createdOn | .expiresOn | .lastRenewalDate => (readTime s).map .time
  | .assertion => (assertionOf s).map .enum
  | .serialNumber => if s.length < 128 then some (.text s) else none
  | .revocationChecks => (boolText s).map .flag
  | .idevidIssuer | .pinnedDomainCert | .nonce | .priorSigned | .proximityCert =>
    (readBytes s).map .bytes
  | .other => none

/-- The record denoted by a list of (name, characters) members, starting from `r`: every
member must have a known name and a valid value; the last one wins for repeated names
(specification for /repo/src/voucher/voucher.c:834-853). -/
def recordOf (readTime : Bytes → Option BoolTime.Tm) (readBytes : Bytes → Option Bytes) :
    Record → List (Bytes × Bytes) → Option Record
  | r, [] => some r
  | r, (k, s) :: ms =>
    match attrOf k with
    | none => none
    | some a =>
      match valueOf readTime readBytes a s with
      | none => none
      | some v => recordOf readTime readBytes (fun x => if x = a then some v else r x) ms

end Brski.Spec
