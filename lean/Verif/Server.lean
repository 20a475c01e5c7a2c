import Verif.Heap
import Verif.Base64
import Verif.Request

/-!
# The HTTP handlers (model)

`masa_requestvoucher` (/repo/src/brski/masa/masa_api.cpp:27-183), `registrar_requestvoucher` and
`registrar_est_simpleenroll` (/repo/src/brski/registrar/registrar_api.cpp:31-133,135-304,354-432) over the
block heap, the base64 model and the model of the voucher requests.

A `struct BinaryArray` returned by a function counts as one block (structure and content are always
released together); so does a list of certificates (its structure is modelled in `DlList`).
-/

namespace Brski.Server
open Outcome Brski.Voucher VoucherJson Crypto BoolTime Request Base64

/-- A block that was allocated and released again: its address is never reused here, a pointer to it
dangles (/repo/src/utils/os.h:60-90). -/
def burn (h : Heap) : Heap × Nat := (⟨h.next + 1, h.blk⟩, h.next)

/-- `sys_free`, `free_binary_array`, `free_array_list` on several possibly NULL pointers in this order
(/repo/src/voucher/array.c:144-159, /repo/src/brski/masa/masa_api.cpp:158-168,172-181). -/
def freeAll (h : Heap) : List (Option Nat) → Outcome Heap
  | [] => .ok h
  | p :: ps => (h.freePtr p).bind fun h => freeAll h ps

/-- What `file_to_x509buf` or `file_to_keybuf` finds (/repo/src/voucher/crypto_ossl.c:286-360): the path is
NULL, the file cannot be read, or its content. -/
inductive FileRes where
  | unset
  | bad
  | der (b : Bytes)
deriving Repr, DecidableEq

/-- `file_to_x509buf`, `file_to_keybuf` (/repo/src/voucher/crypto_ossl.c:286-360): a NULL path is handed to
`fopen`, which is undefined. -/
def readFile (h : Heap) : FileRes → Outcome (Heap × Option Nat)
  | .unset => .ub
  | .bad => .ok (h, none)
  | .der b => .ok ((h.alloc b).1, some (h.alloc b).2)

/-- The content of a file that could be read (/repo/src/voucher/crypto_ossl.c:286-360). -/
def FileRes.arr : FileRes → Option BinArr
  | .der b => some (.of b)
  | _ => none

/-- The four ways `load_cert_files` ends (/repo/src/brski/config.c:673-710, see C43): nothing configured,
a list, no memory for the list, or a failure after which the caller holds a pointer to the released
list. -/
inductive Loaded where
  | absent
  | list (l : CertList)
  | noMem
  | freed
deriving Repr, DecidableEq

/-- `load_cert_files` (/repo/src/brski/config.c:673-710): heap, pointer and return value. -/
def loadList (h : Heap) : Loaded → Heap × Option Nat × Bool
  | .absent => (h, none, true)
  | .list _ => ((h.alloc []).1, some (h.alloc []).2, true)
  | .noMem => (h, none, false)
  | .freed => ((burn h).1, some (burn h).2, false)

/-- The list itself (/repo/src/brski/config.c:673-710). -/
def Loaded.certs : Loaded → Option CertList
  | .list l => some l
  | _ => none

/-- Several `load_cert_files` up to the first failure (/repo/src/brski/masa/masa_api.cpp:110-136): heap, the
pointers set so far, and whether all succeeded. -/
def loadLists (h : Heap) : List Loaded → Heap × List (Option Nat) × Bool
  | [] => (h, [], true)
  | l :: ls =>
    let r := loadList h l
    if r.2.2 then
      let s := loadLists r.1 ls
      (s.1, r.2.1 :: s.2.1, s.2.2)
    else (r.1, [r.2.1], false)

/-- A decoded body: heap, return value (`none` is -1) and the pointer in the output argument. -/
structure Body where
  heap : Heap
  ret : Option Nat
  ptr : Option Nat
  bytes : Bytes

/-- `serialize_base64str2array(request_body.c_str(), strlen(…), &array)`
(/repo/src/brski/masa/masa_api.cpp:76,87-89, /repo/src/brski/registrar/registrar_api.cpp:147,194-196,372-378):
the body up to its first NUL is decoded; for the possible pointers see `Base64.OutPtr`. -/
def decodeBody (al : Allocator) (blk : Bytes) (h : Heap) (body : Bytes) : Outcome Body :=
  (base64str2array al blk (cstr body)).bind fun r =>
  match r with
  | (some n, .owned b) => .ok ⟨(h.alloc b).1, some n, some (h.alloc b).2, b⟩
  | (none, .null) => .ok ⟨h, none, none, []⟩
  | (none, .dangling) => .ok ⟨(burn h).1, none, some (burn h).2, []⟩
  | _ => .ub

/-- The `struct BinaryArray` filled with the result: its member `length` is a `size_t`
(/repo/src/voucher/array.h:155-158), so the return value -1 is stored as `SIZE_MAX`; the pointer beside it
(NULL or dangling) is not read because `d2i_CMS_ContentInfo` refuses the length
(/repo/src/voucher/crypto_ossl.c:127-131). -/
def Body.arr (b : Body) : BinArr :=
  match b.ret with
  | some n => ⟨some b.bytes, n⟩
  | none => ⟨none, sizeMax⟩

/-! ## MASA -/

/-- Everything `masa_requestvoucher` depends on beside the request: the configuration (already read from
the files) and the outcome of allocations (/repo/src/brski/masa/masa_api.cpp:57-183). -/
structure MasaEnv where
  lib : TimeLib
  expiresOn : Option Bytes
  al : Allocator
  blk : Bytes
  ldevid : FileRes
  signCert : FileRes
  signKey : FileRes
  registrarCerts : Loaded
  registrarStore : Loaded
  pledgeCerts : Loaded
  pledgeStore : Loaded
  additional : Loaded
  rt : Rt
  cbMem : Allocator
  out : Allocator

/-- `voucher_req_cb`, /repo/src/brski/masa/masa_api.cpp:27-55: a copy of what `context->ldevid_ca_cert` points
to. -/
def voucherReqCb (al : Allocator) (h : Heap) (ctx : Option Nat) : Callback := fun _ _ =>
  match ctx with
  | none => .ok none
  | some p =>
    (h.read p).bind fun b =>
    (copyBinaryArray al (.of b)).bind fun c => .ok (if c.2 then some c.1 else none)

/-- Result of a handler: heap, the pointer left in `context->ldevid_ca_cert`, status and body. -/
structure Reply where
  heap : Heap
  ctx : Option Nat
  status : Nat
  body : Bytes

/-- `masa_requestvoucher_fail:`, /repo/src/brski/masa/masa_api.cpp:171-182.  `ps` are the local pointers in
the order of release (NULL ones may be left out). -/
def masaFail (h : Heap) (ctx : Option Nat) (ps : List (Option Nat)) : Outcome Reply :=
  (freeAll h (ctx :: ps)).bind fun h => .ok ⟨h, ctx, 400, []⟩

/-- `masa_requestvoucher` after the files are read, /repo/src/brski/masa/masa_api.cpp:138-169. -/
def masaIssue (O : Ossl) (e : MasaEnv) (t : Tm) (req : BinArr) (h : Heap) (ctx cert key : Option Nat)
    (ls : List (Option Nat)) (cms : Option Nat) : Outcome Reply :=
  (signMasaPledgeVoucher O e.rt (some req) (some t) (some (voucherReqCb e.cbMem h ctx)) e.signCert.arr e.signKey.arr
    e.registrarCerts.certs e.registrarStore.certs e.pledgeCerts.certs e.pledgeStore.certs e.additional.certs).bind
      fun r =>
  match r with
  | none => masaFail h ctx (cert :: key :: ls ++ [cms])
  | some v =>
    let hv := h.alloc v
    (array2base64str e.out v).bind fun s =>
    match s with
    | none => masaFail hv.1 ctx (cert :: key :: ls ++ [cms, some hv.2])
    | some (buf, _) =>
      let hb := hv.1.alloc buf
      (freeAll hb.1 (some hb.2 :: ctx :: key :: cert :: ls ++ [cms, some hv.2])).bind fun h =>
      .ok ⟨h, ctx, 200, cstr buf⟩

/-- `masa_requestvoucher`, /repo/src/brski/masa/masa_api.cpp:57-183.  `ctx` is the pointer found in
`context->ldevid_ca_cert`.  The test for a decoding failure at 87-92 compares a `size_t` with 0 and never
succeeds. -/
def masaRequestVoucher (O : Ossl) (e : MasaEnv) (body : Bytes) (h : Heap) (ctx : Option Nat) : Outcome Reply :=
  match e.expiresOn.bind (str2time e.lib) with
  | none => masaFail h ctx []
  | some t =>
    (decodeBody e.al e.blk h body).bind fun b =>
    (readFile b.heap e.ldevid).bind fun f =>
    match f.2 with
    | none => masaFail f.1 none [b.ptr]
    | some ldevid =>
      (readFile f.1 e.signCert).bind fun c =>
      match c.2 with
      | none => masaFail c.1 (some ldevid) [b.ptr]
      | some cert =>
        (readFile c.1 e.signKey).bind fun k =>
        match k.2 with
        | none => masaFail k.1 (some ldevid) [some cert, b.ptr]
        | some key =>
          let l := loadLists k.1 [e.registrarCerts, e.registrarStore, e.pledgeCerts, e.pledgeStore, e.additional]
          if l.2.2 then masaIssue O e t b.arr l.1 (some ldevid) (some cert) (some key) l.2.1 b.ptr
          else masaFail l.1 (some ldevid) (some cert :: some key :: l.2.1 ++ [b.ptr])

/-! ## Registrar: voucher requests -/

/-- Everything `registrar_requestvoucher` depends on beside the request
(/repo/src/brski/registrar/registrar_api.cpp:135-304): what the client certificate yields, the configuration
(already read from the files), the outcome of allocations, and the MASA: `host` is its `bind_address`, `keyPath`
the registrar's `tls_key_path`, `masa` maps the text sent to status and body of the answer, `none` when there is
no answer. -/
structure RegEnv where
  known : Bool
  serial : Option Bytes
  issuer : Option Bytes
  mem : Bool
  al : Allocator
  blk : Bytes
  now : Option Tm
  tlsCert : FileRes
  signCert : FileRes
  signKey : FileRes
  pledgeCerts : Loaded
  pledgeStore : Loaded
  additional : Loaded
  rt : Rt
  out : Allocator
  host : Option Bytes
  keyPath : Option Bytes
  masa : Bytes → Option (Nat × Bytes)

/-- `post_voucher_request`, /repo/src/brski/registrar/registrar_api.cpp:90-133: `none` is -1; `some r` a
non-negative return value with `r` the new content of `response` (`none` = left as it was, at 121-127).  At
112-114 strings are made of the key path and the address, which is undefined if they are NULL (libstdc++ throws;
`tls_cert_path` has been read before, see `registrarRequestVoucher`). -/
def postVoucherRequest (e : RegEnv) (cms : Bytes) : Outcome (Option (Option Bytes)) :=
  (array2base64str e.out cms).bind fun s =>
  match s with
  | none => .ok none
  | some (buf, _) =>
    if e.host = none ∨ e.keyPath = none then .ub
    else match e.masa (cstr buf) with
    | none => .ok none
    | some (status, body) => .ok (some (if status ≥ 400 then none else some body))

/-- The text of the 502 answer, /repo/src/brski/registrar/registrar_api.cpp:297-299. -/
def badGateway : Bytes :=
  str "Voucher request to the MASA server failed. Please contact the webmaster of the registrar server if this error persists."

/-- A `return` of `registrar_requestvoucher`: the destructors of the `unique_ptr`s constructed so far release
their objects, the last one first (/repo/src/brski/registrar/registrar_api.cpp:180-287). -/
def regReturn (h : Heap) (owned : List (Option Nat)) (status : Nat) (body : Bytes) : Outcome Reply :=
  (freeAll h owned).bind fun h => .ok ⟨h, none, status, body⟩

/-- `registrar_requestvoucher` after the files are read, /repo/src/brski/registrar/registrar_api.cpp:278-303. -/
def regForward (O : Ossl) (e : RegEnv) (t : Tm) (serial issuer : Bytes) (req : BinArr) (h : Heap)
    (owned : List (Option Nat)) : Outcome Reply :=
  (signVoucherRequest O e.rt (some req) (some t) (some serial) (some (.of issuer)) e.tlsCert.arr e.signCert.arr
    e.signKey.arr e.pledgeCerts.certs e.pledgeStore.certs e.additional.certs).bind fun r =>
  match r with
  | none => regReturn h owned 400 []
  | some v =>
    let hv := h.alloc v
    (postVoucherRequest e v).bind fun p =>
    match p with
    | none => regReturn hv.1 (some hv.2 :: owned) 502 badGateway
    | some r => regReturn hv.1 (some hv.2 :: owned) 200 (r.getD [])

/-- Loading of the three certificate lists, /repo/src/brski/registrar/registrar_api.cpp:236-276: only
successfully loaded lists are owned (`reset` is not reached otherwise). -/
def regLists (h : Heap) (owned : List (Option Nat)) : List Loaded → Heap × List (Option Nat) × Bool
  | [] => (h, owned, true)
  | l :: ls =>
    let r := loadList h l
    if r.2.2 then regLists r.1 (r.2.1 :: owned) ls else (r.1, owned, false)

/-- `registrar_requestvoucher`, /repo/src/brski/registrar/registrar_api.cpp:135-304.  Memory for the lists
of the certificate names (152-164) is assumed.  The structure allocated at 191 is dereferenced unchecked;
its member `array` is set by the decoder in all cases; the test for a decoding failure at 194-199 compares
a `size_t` with 0 and never succeeds.  The structure and its content are separate blocks here. -/
def registrarRequestVoucher (O : Ossl) (e : RegEnv) (body : Bytes) (h : Heap) : Outcome Reply :=
  if e.known then
    match e.serial with
    | none => .ok ⟨h, none, 400, []⟩
    | some serial =>
      match e.issuer with
      | none => .ok ⟨h, none, 400, []⟩
      | some issuer =>
        let hi := h.alloc issuer
        if e.mem then
          let hs := hi.1.alloc []
          (decodeBody e.al e.blk hs.1 body).bind fun b =>
          let o0 := [b.ptr, some hs.2, some hi.2]
          match e.now with
          | none => regReturn b.heap o0 500 []
          | some t =>
            (readFile b.heap e.tlsCert).bind fun f =>
            match f.2 with
            | none => regReturn f.1 o0 500 []
            | some tls =>
              (readFile f.1 e.signCert).bind fun c =>
              match c.2 with
              | none => regReturn c.1 (some tls :: o0) 500 []
              | some cert =>
                (readFile c.1 e.signKey).bind fun k =>
                match k.2 with
                | none => regReturn k.1 (some cert :: some tls :: o0) 500 []
                | some key =>
                  let l := regLists k.1 (some key :: some cert :: some tls :: o0)
                    [e.pledgeCerts, e.pledgeStore, e.additional]
                  if l.2.2 then regForward O e t serial issuer b.arr l.1 l.2.1
                  else regReturn l.1 l.2.1 500 []
        else .ub
  else .ok ⟨h, none, 400, []⟩

/-! ## Registrar: enrolment -/

/-- The certificate operations of `crypto_sign_cert` (/repo/src/voucher/crypto_ossl.c:1106-1186):
`X509_set_issuer_name` from the subject of the CA certificate, and signing with SHA-256. -/
structure Ca (O : Ossl) where
  setIssuer : O.Cert → O.Cert → Option O.Cert
  sign : O.Cert → O.Key → Option O.Cert

/-- The new certificate of `crypto_sign_cert`, /repo/src/voucher/crypto_ossl.c:1130-1172; `none` is -1. -/
def signCert (O : Ossl) (ca : Ca O) (key caCert cert : Bytes) : Option Bytes :=
  (O.d2iKey key).bind fun k =>
  (O.d2iX509 caCert).bind fun c =>
  (O.d2iX509 cert).bind fun x =>
  (ca.setIssuer x c).bind fun x =>
  (ca.sign x k).bind fun x => O.i2dX509 x

/-- What `crypto_getcert_meta` and `crypto_getcert_serial` yield for a certificate
(/repo/src/voucher/crypto_ossl.c:692-745,1716-1726). -/
structure Meta where
  number : Nat
  serial : Option Bytes
deriving Repr, DecidableEq

/-- Everything `registrar_est_simpleenroll` depends on beside the request
(/repo/src/brski/registrar/registrar_api.cpp:354-432).  `certInfo` is `crypto_getcert_meta` with
`crypto_getcert_serial` (`none` is failure), `logOpen` tells whether the log file can be opened, `time` is
the clock. -/
structure EnrollEnv (O : Ossl) where
  al : Allocator
  blk : Bytes
  caCert : FileRes
  caKey : FileRes
  ca : Ca O
  out : Allocator
  certInfo : O.Cert → Option Meta
  logOpen : Bool
  time : Nat

/-- A hexadecimal digit as printed by `%" PRIx64 "` (/repo/src/brski/registrar/registrar_api.cpp:76). -/
def hexDig (n : Nat) : UInt8 := UInt8.ofNat (if n < 10 then 48 + n else 87 + n)

/-- Hexadecimal text of a number without leading zeros, `%" PRIx64 "`
(/repo/src/brski/registrar/registrar_api.cpp:76). -/
def hexNat (n : Nat) : Bytes := if n < 16 then [hexDig n] else hexNat (n / 16) ++ [hexDig (n % 16)]

/-- `(serial != NULL) ? serial : "NULL"`, /repo/src/brski/registrar/registrar_api.cpp:77-78. -/
def serialText (m : Meta) : Bytes := m.serial.getD (str "NULL")

/-- The line written by `save_to_log`, /repo/src/brski/registrar/registrar_api.cpp:76-78. -/
def logLine (time : Nat) (i l : Meta) : Bytes :=
  natDec time ++ str " 0x" ++ hexNat i.number ++ str " \"" ++ serialText i ++ str "\" 0x" ++ hexNat l.number ++
    str " \"" ++ serialText l ++ str "\"\n"

/-- `save_to_log`, /repo/src/brski/registrar/registrar_api.cpp:31-88 (memory for the name lists available):
the text appended to the log file, if any.  A NULL client certificate makes `crypto_getcert_meta` fail. -/
def saveToLog (O : Ossl) (e : EnrollEnv O) (client : Option O.Cert) (issued : O.Cert) : Bytes :=
  match client.bind e.certInfo with
  | none => []
  | some i =>
    match e.certInfo issued with
    | none => []
    | some l => if e.logOpen then logLine e.time i l else []

/-- Result of an enrolment: reply and the text appended to the log. -/
structure EnrollReply where
  heap : Heap
  status : Nat
  body : Bytes
  log : Bytes

/-- `registrar_signcert_err:`, /repo/src/brski/registrar/registrar_api.cpp:427-431. -/
def enrollFail (h : Heap) (ps : List (Option Nat)) : Outcome EnrollReply :=
  (freeAll h ps).bind fun h => .ok ⟨h, 400, [], []⟩

/-- The rest of `registrar_est_simpleenroll` after `crypto_sign_cert`, which replaces the submitted certificate
(/repo/src/voucher/crypto_ossl.c:1173-1176) by the signed one: encoding, log and release
(/repo/src/brski/registrar/registrar_api.cpp:399-431). -/
def enrollSigned (O : Ossl) (e : EnrollEnv O) (client : Option O.Cert) (ptr : Option Nat) (hk : Heap) (cp kp : Nat)
    (signed : Option Bytes) : Outcome EnrollReply :=
  match signed with
  | none => enrollFail hk [ptr, some cp, some kp]
  | some der =>
    let hn := hk.alloc der
    (hn.1.freePtr ptr).bind fun h =>
    (array2base64str e.out der).bind fun s =>
    match s with
    | none => enrollFail h [some hn.2, some cp, some kp]
    | some (buf, _) =>
      let hb := h.alloc buf
      (freeAll hb.1 [some hb.2, some hn.2, some cp, some kp]).bind fun h =>
      .ok ⟨h, 200, cstr buf,
        match O.d2iX509 der with
        | none => []
        | some x => saveToLog O e client x⟩

/-- `registrar_est_simpleenroll`, /repo/src/brski/registrar/registrar_api.cpp:354-432.  `client` is the
certificate of the TLS client. -/
def simpleEnroll (O : Ossl) (e : EnrollEnv O) (client : Option O.Cert) (body : Bytes) (h : Heap) :
    Outcome EnrollReply :=
  (decodeBody e.al e.blk h body).bind fun b =>
  match b.ret with
  | none => enrollFail b.heap [b.ptr]
  | some _ =>
    (readFile b.heap e.caCert).bind fun c =>
    match c.2 with
    | none => enrollFail c.1 [b.ptr]
    | some cp =>
      (readFile c.1 e.caKey).bind fun k =>
      match k.2 with
      | none => enrollFail k.1 [b.ptr, some cp]
      | some kp =>
        (match e.caKey.arr, e.caCert.arr with
          | some key, some ca => Outcome.ok (signCert O e.ca (key.array.getD []) (ca.array.getD []) b.bytes)
          | _, _ => .ub).bind fun signed => enrollSigned O e client b.ptr k.1 cp kp signed

end Brski.Server
