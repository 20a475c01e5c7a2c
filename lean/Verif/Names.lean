import Verif.DlList
import Verif.BoolTime

/-!
# Distinguished names (model)

The functions of /repo/src/voucher/crypto_ossl.c that read a certificate's serial number and names into key/value lists, and
their use for the peer's certificate at the registrar.  OpenSSL's view of a name is a sequence of entries; a value is given
by its UTF-8 text, which may contain NUL bytes.
-/

namespace Brski.Names

open DlList

/-- An `X509_NAME_ENTRY`: the number of its object and what `ASN1_STRING_to_UTF8` makes of its value, `none` when the
conversion fails (/repo/src/voucher/crypto_ossl.c:656-662). -/
structure Entry where
  nid : Nat
  text : Option Bytes
deriving Repr, DecidableEq

/-- A certificate: its serial number and names (`none` is NULL), /repo/src/voucher/crypto_ossl.c:708,719,731. -/
structure Cert where
  number : Option Int
  issuer : Option (List Entry)
  subject : Option (List Entry)

/-- `NNAMES`, /repo/src/voucher/crypto_ossl.c:44-53, with the numbers of OpenSSL's obj_mac.h. -/
def nnames : List (Nat × Bytes) :=
  [(14, str "C"), (16, str "ST"), (15, str "L"), (17, str "O"), (18, str "OU"), (13, str "CN"), (48, str "emailAddress"),
   (105, str "serialNumber"), (100, str "SN"), (99, str "GN")]

/-- The loop of `X509_NAME_get_index_by_NID`, called at /repo/src/voucher/crypto_ossl.c:645; the list begins with entry `i`. -/
def indexFrom (nid : Nat) : Nat → List Entry → Option Nat
  | _, [] => none
  | i, e :: es => if e.nid = nid then some i else indexFrom nid (i + 1) es

/-- `X509_NAME_get_index_by_NID(name, nid, start - 1)`, /repo/src/voucher/crypto_ossl.c:645; `none` is -1. -/
def indexByNid (name : List Entry) (nid start : Nat) : Option Nat := indexFrom nid start (name.drop start)

/-- The loop of `get_x509_entry`, /repo/src/voucher/crypto_ossl.c:644-650; running out of fuel stands for a loop that does
not end. -/
def entryLoop (name : List Entry) (nid : Nat) : Nat → Nat → Outcome (Option Entry)
  | 0, _ => .ub
  | fuel + 1, start =>
    match indexByNid name nid start with
    | none => .ok none
    | some p =>
      match name[p]? with
      | some e => .ok (some e)
      | none => entryLoop name nid fuel (p + 1)

/-- `get_x509_entry`, /repo/src/voucher/crypto_ossl.c:636-667: `none` is -1, `some none` a NULL pointer.  `al` says whether
OpenSSL gets memory for the text; it appends a NUL. -/
def getEntry (al : Bool) (m : Mem) (name : List Entry) (nid : Nat) : Outcome (Mem × Option (Option Nat)) :=
  (entryLoop name nid (name.length + 1) 0).bind fun e =>
    match e with
    | none => .ok (m, some none)
    | some e =>
      match e.text with
      | none => .ok (m, none)
      | some b => if al then .ok ((m.newData (b ++ [0])).1, some (some (m.newData (b ++ [0])).2)) else .ok (m, none)

/-- The loop of `get_x509_keyvalue`, /repo/src/voucher/crypto_ossl.c:669-690, from the name with index `i` on.  `al i` gives
the allocations for a name: 0 to 2 in `push_keyvalue_list`, 3 in OpenSSL. -/
def keyvalueLoop (al : Nat → Oracle) (name : List Entry) (list : Option Nat) :
    Nat → List (Nat × Bytes) → Mem → Outcome (Mem × Bool)
  | _, [], m => .ok (m, true)
  | i, k :: ks, m =>
    (getEntry (al i 3) m name k.1).bind fun q =>
      match q.2 with
      | none => .ok (q.1, false)
      | some none => keyvalueLoop al name list (i + 1) ks q.1
      | some (some p) =>
        match q.1.dat p with
        | none => .ub
        | some b =>
          (pushKv (al i) q.1 list (some k.2) (some (BoolTime.cstr b))).bind fun s =>
            (s.1.freeData p).bind fun m => if s.2 then keyvalueLoop al name list (i + 1) ks m else .ok (m, false)

/-- `get_x509_keyvalue`, /repo/src/voucher/crypto_ossl.c:669-690. -/
def getKeyvalue (al : Nat → Oracle) (m : Mem) (name : List Entry) (list : Option Nat) : Outcome (Mem × Bool) :=
  keyvalueLoop al name list 0 nnames m

/-- The serial number in the metadata, /repo/src/voucher/crypto_ossl.c:706-717: 0 when it is not an unsigned 64 bit number. -/
def number64 : Option Int → Nat
  | none => 0
  | some n => if 0 ≤ n ∧ n < 18446744073709551616 then n.toNat else 0

/-- `crypto_getcert_meta` for metadata that is not NULL, /repo/src/voucher/crypto_ossl.c:692-745; the result is the memory, the
serial number and whether 0 is returned. -/
def getMeta (alI alS : Nat → Oracle) (m : Mem) (cert : Option Cert) (issuer subject : Option Nat) :
    Outcome (Mem × Nat × Bool) :=
  match cert with
  | none => .ok (m, 0, false)
  | some c =>
    match c.issuer with
    | none => .ok (m, number64 c.number, false)
    | some i =>
      (getKeyvalue alI m i issuer).bind fun r =>
        if r.2 then
          match c.subject with
          | none => .ok (r.1, number64 c.number, false)
          | some s => (getKeyvalue alS r.1 s subject).bind fun r => .ok (r.1, number64 c.number, r.2)
        else .ok (r.1, number64 c.number, false)

/-- The body of the loop in `crypto_getcert_serial`, /repo/src/voucher/crypto_ossl.c:1718-1723. -/
def serialLoop (m : Mem) : List Nat → Outcome (Option Nat)
  | [] => .ok none
  | e :: es =>
    (m.get (some e)).bind fun n =>
      match n.own with
      | [k, v] =>
        match m.dat k with
        | some key => if key = str "serialNumber" then .ok (some v) else serialLoop m es
        | none => .ub
      | _ => .ub

/-- `crypto_getcert_serial`, /repo/src/voucher/crypto_ossl.c:1716-1726.  The traversal is computed first, which makes no
difference because the body does not change the list. -/
def getSerial (m : Mem) (subject : Option Nat) : Outcome (Option Nat) :=
  match subject with
  | none => .ub
  | some l => (eachSafe m l).bind fun els => serialLoop m els

/-- Reading a string (`%s`), /repo/src/brski/registrar/registrar_api.cpp:178, /repo/src/brski/brski.cpp:496. -/
def readString (m : Mem) : Option Nat → Outcome (Option Bytes)
  | none => .ok none
  | some p => match m.dat p with
    | some b => .ok (some b)
    | none => .ub

/-- The part of `registrar_requestvoucher` that determines the pledge's serial number,
/repo/src/brski/registrar/registrar_api.cpp:152-176: both lists are made, filled, searched and (by the destructor) released;
the serial number is returned by its content, `none` stands for an error.  The two list heads can be allocated. -/
def peerSerial (alI alS : Nat → Oracle) (m : Mem) (cert : Option Cert) : Outcome (Mem × Option Bytes) :=
  (initList (fun _ => true) m).bind fun i =>
  (initList (fun _ => true) i.1).bind fun s =>
  (getMeta alI alS s.1 cert i.2 s.2).bind fun r =>
    if r.2.2 then
      (getSerial r.1 s.2).bind fun p =>
      (readString r.1 p).bind fun b =>
      (freeList r.1 i.2).bind fun m => (freeList m s.2).bind fun m => .ok (m, b)
    else (freeList r.1 i.2).bind fun m => (freeList m s.2).bind fun m => .ok (m, none)

end Brski.Names
