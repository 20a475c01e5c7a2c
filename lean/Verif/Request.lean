import Verif.Crypto

/-!
# Voucher requests and vouchers (model)

/repo/src/voucher/request.c, function by function, over the value-level voucher model and
uninterpreted OpenSSL.  Release of memory is left out here (the ownership of vouchers is modelled
in `VoucherHeap`, of lists in `DlList`).
-/

namespace Brski.Request
open Outcome Brski.Voucher VoucherJson Crypto BoolTime

/-- What the surroundings of a call decide: the environments of the JSON functions, the
allocations of the setters, and whether other allocations succeed.  One index per site
(/repo/src/voucher/request.c:20-581). -/
structure Rt where
  json : Nat → Env
  mem : Nat → Allocator
  ok : Nat → Nat → Bool

/-- Surroundings without memory exhaustion, for concrete instances (/repo/src/utils/os.h:75). -/
def Rt.plain : Rt := ⟨fun _ => Env.plain, fun _ => zeroAllocator, fun _ _ => true⟩

/-- `if (set_attr_voucher(…) < 0) { …; return NULL; }`, e.g. /repo/src/voucher/request.c:37-41. -/
def setOr {α : Type} (r : Outcome (Voucher × Bool)) (k : Voucher → Outcome (Option α)) :
    Outcome (Option α) :=
  r.bind fun p => if p.2 then k p.1 else .ok none

/-- `if (nonce != NULL) set_attr_voucher(…, ATTR_NONCE, nonce)`, /repo/src/voucher/request.c:50-55
and 354-359. -/
def setNonce (al : Allocator) (v : Voucher) (nonce : Option BinArr) : Outcome (Voucher × Bool) :=
  match nonce with
  | none => .ok (v, true)
  | some n => setVa al v .nonce (.array (some n))

/-- `sign_pledge_voucher_request`, /repo/src/voucher/request.c:20-98.  `none` arguments are NULL;
the result is the CMS, `none` is NULL. -/
def signPledgeVoucherRequest (O : Ossl) (rt : Rt) (createdOn : Option Tm) (serial : Option Bytes)
    (nonce registrarTlsCert signCert signKey : Option BinArr) (additional : Option CertList) :
    Outcome (Option Bytes) :=
  if rt.ok 0 0 then
    setOr (setVa (rt.mem 0) Voucher.init .createdOn (.time createdOn)) fun v =>
    setOr (setNonce (rt.mem 1) v nonce) fun v =>
    setOr (setVa (rt.mem 2) v .assertion (.int 3)) fun v =>
    setOr (setVa (rt.mem 3) v .proximityCert (.array registrarTlsCert)) fun v =>
    setOr (setVa (rt.mem 4) v .serialNumber (.str serial)) fun v =>
    signCmsVoucher O (rt.json 0) v signCert signKey additional
  else .ok none

/-- Copying the nonce of the pledge request, /repo/src/voucher/request.c:182-194. -/
def forwardNonce (al : Allocator) (v pv : Voucher) : Outcome (Voucher × Bool) :=
  if attrNonempty pv .nonce then
    match getArray pv .nonce with
    | none => .ok (v, false)
    | some n => setVa al v .nonce (.array (some n))
  else .ok (v, true)

/-- `sign_voucher_request` after the pledge request `pv` was accepted,
/repo/src/voucher/request.c:129-245.  The serial number pointer obtained at 131-132 is not NULL but
may point to NULL; `strcmp` at 139 then is undefined. -/
def registrarRequest (O : Ossl) (rt : Rt) (pv : Voucher) (pledgeCms : Option BinArr) (createdOn : Option Tm)
    (serial : Bytes) (issuer : BinArr) (registrarTlsCert signCert signKey : Option BinArr)
    (additional : Option CertList) : Outcome (Option Bytes) :=
  match getStr pv .serialNumber with
  | none => .ok none
  | some none => .ub
  | some (some s) =>
    if s ≠ serial then .ok none
    else
      (compareBinaryArray (getArray pv .proximityCert) registrarTlsCert).bind fun e =>
      if e < 1 then .ok none
      else
        match getEnum pv .assertion with
        | none => .ub
        | some a =>
          if a ≠ 3 then .ok none
          else if rt.ok 1 0 then
            setOr (setVa (rt.mem 0) Voucher.init .createdOn (.time createdOn)) fun v =>
            setOr (forwardNonce (rt.mem 1) v pv) fun v =>
            setOr (setVa (rt.mem 2) v .serialNumber (.str (some serial))) fun v =>
            setOr (setVa (rt.mem 3) v .idevidIssuer (.array (some issuer))) fun v =>
            setOr (setVa (rt.mem 4) v .priorSigned (.array pledgeCms)) fun v =>
            signCmsVoucher O (rt.json 1) v signCert signKey additional
          else .ok none

/-- `sign_voucher_request`, /repo/src/voucher/request.c:100-245. -/
def signVoucherRequest (O : Ossl) (rt : Rt) (pledgeCms : Option BinArr) (createdOn : Option Tm)
    (serial : Option Bytes) (issuer registrarTlsCert signCert signKey : Option BinArr)
    (verifyCerts verifyStore additional : Option CertList) : Outcome (Option Bytes) :=
  match serial, issuer with
  | some serial, some issuer =>
    (verifyCmsVoucher O (rt.json 0) (rt.ok 0) pledgeCms verifyCerts verifyStore false).bind fun r =>
    match r with
    | none => .ok none
    | some (pv, _) =>
      registrarRequest O rt pv pledgeCms createdOn serial issuer registrarTlsCert signCert signKey additional
  | _, _ => .ok none

/-- The callback of the MASA (/repo/src/voucher/voucher.h, `voucher_req_fn`): from the serial number
and the registrar's signer certificates to the certificate to pin; `none` is a negative result. -/
abbrev Callback := Bytes → Option CertList → Outcome (Option BinArr)

/-- A serial number that must be present, /repo/src/voucher/request.c:279-290,327-338,478-496: `none` is the
failure exit. -/
def needSerial (v : Voucher) : Outcome (Option Bytes) :=
  if attrNonempty v .serialNumber then
    match getStr v .serialNumber with
    | none => .ok none
    | some none => .ub
    | some (some s) => .ok (some s)
  else .ok none

/-- An array attribute if it is set, /repo/src/voucher/request.c:293-315. -/
def wantArray (v : Voucher) (a : Attr) : Option BinArr :=
  if attrNonempty v a then getArray v a else none

/-- `sign_masa_pledge_voucher` from the creation of the voucher on,
/repo/src/voucher/request.c:348-446. -/
def masaVoucher (O : Ossl) (rt : Rt) (serial : Bytes) (nonce : Option BinArr) (regCerts : Option CertList)
    (expiresOn : Tm) (cb : Callback) (signCert signKey : Option BinArr) (additional : Option CertList) :
    Outcome (Option Bytes) :=
  if rt.ok 2 0 then
    setOr (setNonce (rt.mem 0) Voucher.init nonce) fun v =>
    setOr (setVa (rt.mem 1) v .assertion (.int 3)) fun v =>
    (cb serial regCerts).bind fun pin =>
    match pin with
    | none => .ok none
    | some pin =>
      setOr (setVa (rt.mem 2) v .pinnedDomainCert (.array (some pin))) fun v =>
      setOr (setVa (rt.mem 3) v .serialNumber (.str (some serial))) fun v =>
      setOr (setVa (rt.mem 4) v .revocationChecks (.int 0)) fun v =>
      setOr (setVa (rt.mem 5) v .expiresOn (.time (some expiresOn))) fun v =>
      signCmsVoucher O (rt.json 2) v signCert signKey additional
  else .ok none

/-- `sign_masa_pledge_voucher`, /repo/src/voucher/request.c:247-446. -/
def signMasaPledgeVoucher (O : Ossl) (rt : Rt) (requestCms : Option BinArr) (expiresOn : Option Tm)
    (cb : Option Callback) (signCert signKey : Option BinArr)
    (registrarCerts registrarStore pledgeCerts pledgeStore additional : Option CertList) :
    Outcome (Option Bytes) :=
  match expiresOn, cb with
  | some expiresOn, some cb =>
    (verifyCmsVoucher O (rt.json 0) (rt.ok 0) requestCms registrarCerts registrarStore true).bind fun r =>
    match r with
    | none => .ok none
    | some (vr, regCerts) =>
      (needSerial vr).bind fun vserial =>
      match vserial with
      | none => .ok none
      | some vserial =>
        let nonce := wantArray vr .nonce
        match wantArray vr .priorSigned with
        | none => .ok none
        | some prior =>
          (verifyCmsVoucher O (rt.json 1) (rt.ok 1) (some prior) pledgeCerts pledgeStore false).bind fun r =>
          match r with
          | none => .ok none
          | some (pv, _) =>
            (needSerial pv).bind fun pserial =>
            match pserial with
            | none => .ok none
            | some pserial =>
              if vserial ≠ pserial then .ok none
              else masaVoucher O rt pserial nonce regCerts expiresOn cb signCert signKey additional
  | _, _ => .ok none

/-- The checks of `verify_masa_pledge_voucher` on the pinned certificate,
/repo/src/voucher/request.c:527-571.  The registrar certificate pointer is dereferenced
unchecked.  `none` is the failure exit. -/
def checkPinned (O : Ossl) (rt : Rt) (v : Voucher) (registrarTlsCert : Option BinArr)
    (domainStore : Option CertList) : Outcome (Option BinArr) :=
  match wantArray v .pinnedDomainCert with
  | none => .ok none
  | some pinned =>
    (copyBinaryArray (rt.mem 0) pinned).bind fun c =>
    if c.2 then
      match c.1.array with
      | none => .ok none
      | some pin =>
        if rt.ok 1 0 then
          match registrarTlsCert with
          | none => .ub
          | some reg =>
            (match reg.array with
              | none => Outcome.ok none
              | some _ => (arrBytes reg).bind fun b => .ok (some b)).bind fun reg =>
            if verifyCert O (rt.ok 2) reg (some [(pin.take c.1.length, 0)]) domainStore then
              (copyBinaryArray (rt.mem 1) pinned).bind fun d => .ok (if d.2 then some d.1 else none)
            else .ok none
        else .ok none
    else .ok none

/-- `verify_masa_pledge_voucher`, /repo/src/voucher/request.c:448-581, for a non-NULL output
argument: `some pinned` is the result 0 with the output, `none` the result -1. -/
def verifyMasaPledgeVoucher (O : Ossl) (rt : Rt) (cms : Option BinArr) (serial : Option Bytes)
    (nonce registrarTlsCert : Option BinArr) (domainStore verifyCerts verifyStore : Option CertList)
    (out : Bool) : Outcome (Option BinArr) :=
  match serial with
  | none => .ok none
  | some serial =>
    (verifyCmsVoucher O (rt.json 0) (rt.ok 0) cms verifyCerts verifyStore out).bind fun r =>
    match r with
    | none => .ok none
    | some (v, _) =>
      (needSerial v).bind fun s =>
      match s with
      | none => .ok none
      | some s =>
        if serial ≠ s then .ok none
        else
          match nonce with
          | none => checkPinned O rt v registrarTlsCert domainStore
          | some nonce =>
            match wantArray v .nonce with
            | none => .ok none
            | some mn =>
              (compareBinaryArray (some nonce) (some mn)).bind fun e =>
              if e < 1 then .ok none else checkPinned O rt v registrarTlsCert domainStore

end Brski.Request
