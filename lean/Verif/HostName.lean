import Verif.Scan

/-!
# Whether a certificate is for a host

`SSLClient::verify_host` and what it calls (/repo/src/brski/http/httplib.h:9292-9427).  brski turns this check off
(/repo/src/brski/http/httplib_wrapper.cpp:249,275); the functions are those of the library it ships.
-/

namespace Brski.HostName
open Outcome Routes

/-- A name in the subject alternative name of a certificate (`GENERAL_NAME`, /repo/src/brski/http/httplib.h:9343-9349). -/
inductive Name where
  | dns (s : Bytes)
  | ip (s : Bytes)
  | other
deriving Repr, DecidableEq

/-- What the check reads of a certificate: the alternative names and the text of the common name as
`X509_NAME_get_text_by_NID` delivers it (/repo/src/brski/http/httplib.h:9334-9335,9380-9382). -/
structure Cert where
  names : List Name
  common : Option Bytes
deriving Repr, DecidableEq

/-- `inet_pton`: the address of 16 or of 4 bytes that a text denotes (/repo/src/brski/http/httplib.h:9325-9331). -/
structure Pton where
  v6 : Bytes → Option Bytes
  v4 : Bytes → Option Bytes

/-- `memcmp(a, b, n) == 0`: both objects must have `n` bytes (/repo/src/brski/http/httplib.h:9357-9358). -/
def same (a b : Bytes) (n : Nat) : Outcome Bool :=
  if n ≤ a.length ∧ n ≤ b.length then .ok (a.take n == b.take n) else .ub

/-- One component of the pattern against one of the host, /repo/src/brski/http/httplib.h:9415-9421:
`p.compare(0, p.size() - 1, h)` compares all of `h`. -/
def component (p h : Bytes) : Bool :=
  p == h || p == str "*" || (p.getLast? == some 42 && p.dropLast == h)

/-- The loop over the components, /repo/src/brski/http/httplib.h:9409-9426. -/
def components : List Bytes → List Bytes → Bool
  | [], [] => true
  | p :: ps, h :: hs => component p h && components ps hs
  | _, _ => false

/-- `check_host_name`: `host_ == pattern` compares with the C string (/repo/src/brski/http/httplib.h:9393-9427).  The
components of the host are those of the constructor (/repo/src/brski/http/httplib.h:9015-9018). -/
def checkName (host pattern : Bytes) : Outcome Bool :=
  if host.length = pattern.length ∧ host = BoolTime.cstr pattern then .ok true
  else
    (Scan.split 46 Scan.noLimit pattern).bind fun ps =>
    (Scan.split 46 Scan.noLimit host).bind fun hs => .ok (components ps hs)

/-- The kind of name that is looked for, and the two addresses, the one that is not set being zero
(/repo/src/brski/http/httplib.h:9320-9332). -/
inductive Want where
  | name
  | addr (a6 a4 : Bytes) (len : Nat)
deriving Repr, DecidableEq

/-- /repo/src/brski/http/httplib.h:9320-9332. -/
def want (p : Pton) (host : Bytes) : Want :=
  match p.v6 (BoolTime.cstr host) with
  | some a => .addr a (List.replicate 4 0) 16
  | none =>
    match p.v4 (BoolTime.cstr host) with
    | some a => .addr (List.replicate 16 0) a 4
    | none => .name

/-- The loop over the names: it ends at the first host name that matches (/repo/src/brski/http/httplib.h:9337-9368). -/
def altLoop (host : Bytes) (w : Want) : List Name → Bool → Outcome Bool
  | [], ipMatched => .ok ipMatched
  | n :: ns, ipMatched =>
    match w, n with
    | .name, .dns s => (checkName host s).bind fun r => if r then .ok true else altLoop host w ns ipMatched
    | .addr a6 a4 len, .ip s =>
      (same a6 s len).bind fun r =>
      if r then altLoop host w ns true
      else (same a4 s len).bind fun r => altLoop host w ns (ipMatched || r)
    | _, _ => altLoop host w ns ipMatched

/-- `verify_host`, /repo/src/brski/http/httplib.h:9292-9391. -/
def verifyHost (p : Pton) (host : Bytes) (c : Cert) : Outcome Bool :=
  (altLoop host (want p host) c.names false).bind fun r =>
  if r then .ok true
  else
    match c.common with
    | none => .ok false
    | some s => checkName host s

end Brski.HostName
