import Verif.Server

/-!
# The client side of the pledge (model)

`voucher_pledge_request_to_array`, `voucher_pledge_request_to_base64`
(/repo/src/brski/pledge/pledge_utils.c:22-111,136-159), `verify_masa_pledge_request`,
`post_voucher_pledge_request`, `create_cert_string`, `generate_sign_cert`, `post_sign_cert`
(/repo/src/brski/pledge/pledge_request.cpp:35-202,204-210,224-297,299-374) over the block heap.

The conventions are those of `Server`: a `struct BinaryArray` returned by a function and a list of
certificates count as one block each; where the code allocates the structure and its content separately
(the nonce) they are two blocks.  The peer certificate of a connection (an `X509` object) is one block
holding its DER form.  The network is a parameter: it answers each connection as it likes.
-/

namespace Brski.Pledge
open Outcome Brski.Voucher VoucherJson Crypto BoolTime Request Base64 Server

/-- An answer received over TLS, /repo/src/brski/http/httplib_wrapper.cpp:251-256: status, the copy of the
certificate the server presented (`none`: `crypto_copycert` gave NULL) and the body. -/
structure Answer where
  status : Nat
  cert : Option Bytes
  body : Bytes
deriving Repr, DecidableEq

/-- What the network does (/repo/src/brski/http/httplib_wrapper.cpp:238-288): the answer to the first
connection (empty body), to the second (with the request as body) and to the enrolment (with the trust anchor
and the body); `none` when the connection fails. -/
structure Net where
  first : Option Answer
  second : Bytes → Option Answer
  enrol : Bytes → Bytes → Option (Nat × Bytes)

/-- What the client functions depend on beside the network: the configuration (already read from the files) and
the outcome of allocations, one entry per place
(/repo/src/brski/pledge/pledge_utils.c:22-159, /repo/src/brski/pledge/pledge_request.cpp:35-374). -/
structure PledgeEnv where
  address : Option Bytes
  keyPath : Option Bytes
  certPath : Option Bytes
  lib : TimeLib
  createdOn : Option Bytes
  now : Option Tm
  nonce : Option Bytes
  serial : Option Bytes
  signCert : FileRes
  signKey : FileRes
  additional : Loaded
  verifyCerts : Loaded
  verifyStore : Loaded
  nonceMem : Nat → Bool
  nonceAl : Nat → Allocator
  blk : Bytes
  reqRt : Rt
  reqOut : Allocator
  bufMem : Nat → Bool
  masaAl : Allocator
  verRt : Rt

/-- A decoded nonce: heap, the pointers to release (content, then structure), the array handed on (`none` is
NULL) and whether the function goes on. -/
structure NonceBuf where
  heap : Heap
  ptrs : List (Option Nat)
  arr : Option BinArr
  ok : Bool

/-- Reading the configured nonce, the same code at /repo/src/brski/pledge/pledge_utils.c:48-65 and
/repo/src/brski/pledge/pledge_request.cpp:45-59: nothing for a NULL text, otherwise a new structure (`mem`: there
is memory for it) whose content is the decoded text. -/
def readNonce (mem : Bool) (al : Allocator) (blk : Bytes) (text : Option Bytes) (h : Heap) : Outcome NonceBuf :=
  match text with
  | none => .ok ⟨h, [], none, true⟩
  | some s =>
    if mem then
      let hs := h.alloc []
      (decodeBody al blk hs.1 s).bind fun b =>
      .ok ⟨b.heap, [b.ptr, some hs.2], some b.arr, b.ret.isSome⟩
    else .ok ⟨h, [], none, false⟩

/-- A failure exit returning NULL or -1 after the release of `ps`
(/repo/src/brski/pledge/pledge_utils.c:60,103-111, /repo/src/brski/pledge/pledge_request.cpp:85-89). -/
def failed (h : Heap) (ps : List (Option Nat)) : Outcome (Heap × Option Nat) :=
  (freeAll h ps).bind fun h => .ok (h, none)

/-- The time of the request, /repo/src/brski/pledge/pledge_utils.c:35-46. -/
def requestTime (e : PledgeEnv) : Option Tm :=
  match e.createdOn with
  | none => e.now
  | some s => str2time e.lib s

/-- `voucher_pledge_request_to_array`, /repo/src/brski/pledge/pledge_utils.c:22-111: heap and the pointer
returned. -/
def requestArray (O : Ossl) (e : PledgeEnv) (reg : Bytes) (h : Heap) : Outcome (Heap × Option Nat) :=
  match requestTime e with
  | none => .ok (h, none)
  | some t =>
    (readNonce (e.nonceMem 0) (e.nonceAl 0) e.blk e.nonce h).bind fun n =>
    if n.ok then
      (readFile n.heap e.signCert).bind fun c =>
      match c.2 with
      | none => failed c.1 n.ptrs
      | some cert =>
        (readFile c.1 e.signKey).bind fun k =>
        match k.2 with
        | none => failed k.1 (n.ptrs ++ [some cert])
        | some key =>
          let l := loadList k.1 e.additional
          if l.2.2 then
            (signPledgeVoucherRequest O e.reqRt (some t) e.serial n.arr (some (.of reg)) e.signCert.arr e.signKey.arr
              e.additional.certs).bind fun r =>
            match r with
            | none => failed l.1 (n.ptrs ++ [some cert, some key, l.2.1])
            | some cms =>
              let hc := l.1.alloc cms
              (freeAll hc.1 (n.ptrs ++ [some cert, some key, l.2.1])).bind fun h => .ok (h, some hc.2)
          else failed l.1 (n.ptrs ++ [some cert, some key, l.2.1])
    else failed n.heap n.ptrs

/-- `voucher_pledge_request_to_base64`, /repo/src/brski/pledge/pledge_utils.c:136-159. -/
def requestText (O : Ossl) (e : PledgeEnv) (reg : Bytes) (h : Heap) : Outcome (Heap × Option Nat) :=
  (requestArray O e reg h).bind fun a =>
  match a.2 with
  | none => .ok (a.1, none)
  | some p =>
    (a.1.read p).bind fun cms =>
    (array2base64str e.reqOut cms).bind fun s =>
    match s with
    | none => failed a.1 [some p]
    | some (buf, _) =>
      let hb := a.1.alloc buf
      (freeAll hb.1 [some p]).bind fun h => .ok (h, some hb.2)

/-- `verify_masa_pledge_request`, /repo/src/brski/pledge/pledge_request.cpp:35-90: heap and the content of
`pinned_domain_cert` (`none` when -1 is returned).  When the nonce cannot be decoded it is released at 55 and again
at 86. -/
def verifyRequest (O : Ossl) (e : PledgeEnv) (cms : BinArr) (reg : Bytes) (h : Heap) : Outcome (Heap × Option Nat) :=
  (readNonce (e.nonceMem 1) (e.nonceAl 1) e.blk e.nonce h).bind fun n =>
  if n.ok then
    let l := loadLists n.heap [e.verifyCerts, e.verifyStore]
    if l.2.2 then
      (verifyMasaPledgeVoucher O e.verRt (some cms) e.serial n.arr (some (.of reg)) none e.verifyCerts.certs
        e.verifyStore.certs false).bind fun r =>
      match r with
      | none => failed l.1 (n.ptrs ++ l.2.1)
      | some pin =>
        let hp := l.1.alloc ((pin.array.getD []).take pin.length)
        (freeAll hp.1 (n.ptrs ++ l.2.1)).bind fun h => .ok (h, some hp.2)
    else failed l.1 (n.ptrs ++ l.2.1)
  else failed n.heap (n.ptrs ++ n.ptrs)

/-- `crypto_copycert(cli.server_cert())`, /repo/src/brski/http/httplib_wrapper.cpp:252. -/
def peerCert (h : Heap) : Option Bytes → Heap × Option Nat
  | none => (h, none)
  | some b => ((h.alloc b).1, some (h.alloc b).2)

/-- `crypto_cert2buf`, /repo/src/voucher/crypto_ossl.c:263-284; `mem`: the buffer could be made. -/
def certBuf (mem : Bool) (h : Heap) : Option Nat → Outcome (Heap × Option Nat)
  | none => .ok (h, none)
  | some p =>
    (h.read p).bind fun b => if mem then .ok ((h.alloc b).1, some (h.alloc b).2) else .ok (h, none)

/-- A message sent by the pledge: a POST to `/.well-known/brski/requestvoucher` over a connection that does not
verify the server (/repo/src/brski/pledge/pledge_request.cpp:118-120,151-153), or a POST to
`/.well-known/est/simpleenroll` over a connection that verifies it against `ca`
(/repo/src/brski/pledge/pledge_request.cpp:335-337). -/
inductive Msg where
  | voucher (body : Bytes)
  | enrol (ca body : Bytes)
deriving Repr, DecidableEq

/-- Result of `post_voucher_pledge_request`: heap, the content of `pinned_domain_cert` (`none` when -1 is
returned) and the messages sent. -/
structure Ran where
  heap : Heap
  pinned : Option Nat
  sent : List Msg

/-- A return of -1, /repo/src/brski/pledge/pledge_request.cpp:122-125,142-145,155-158,163-165,198-201. -/
def giveUp (h : Heap) (ps : List (Option Nat)) (sent : List Msg) : Outcome Ran :=
  (freeAll h ps).bind fun h => .ok ⟨h, none, sent⟩

/-- `post_voucher_pledge_request` from the second answer on, /repo/src/brski/pledge/pledge_request.cpp:160-201.
The test for a decoding failure at 178-184 compares a `size_t` with 0 and never succeeds. -/
def judge (O : Ossl) (e : PledgeEnv) (a : Answer) (sent : List Msg) (h : Heap) : Outcome Ran :=
  let x := peerCert h a.cert
  if a.status ≥ 400 then giveUp x.1 [x.2] sent
  else
    (certBuf (e.bufMem 1) x.1 x.2).bind fun b =>
    match b.2 with
    | none => giveUp b.1 [x.2] sent
    | some p =>
      (b.1.freePtr x.2).bind fun h =>
      (decodeBody e.masaAl e.blk h a.body).bind fun m =>
      (m.heap.read p).bind fun reg =>
      (verifyRequest O e m.arr reg m.heap).bind fun v =>
      match v.2 with
      | none => giveUp v.1 [m.ptr, some p] sent
      | some pin => (freeAll v.1 [m.ptr, some p]).bind fun h => .ok ⟨h, some pin, sent⟩

/-- `post_voucher_pledge_request`, /repo/src/brski/pledge/pledge_request.cpp:92-202.  The first connection only
serves to see the certificate; its status is not looked at. -/
def postVoucher (O : Ossl) (e : PledgeEnv) (net : Net) (h : Heap) : Outcome Ran :=
  if e.address = none ∨ e.keyPath = none ∨ e.certPath = none then .ok ⟨h, none, []⟩
  else
    match net.first with
    | none => .ok ⟨h, none, [.voucher []]⟩
    | some a =>
      let x := peerCert h a.cert
      (certBuf (e.bufMem 0) x.1 x.2).bind fun b =>
      match b.2 with
      | none => giveUp b.1 [x.2] [.voucher []]
      | some p =>
        (b.1.freePtr x.2).bind fun h =>
        (h.read p).bind fun reg =>
        (requestText O e reg h).bind fun q =>
        (q.1.freePtr (some p)).bind fun h =>
        match q.2 with
        | none => .ok ⟨h, none, [.voucher []]⟩
        | some t =>
          (h.read t).bind fun text =>
          (h.freePtr (some t)).bind fun h =>
          match net.second (cstr text) with
          | none => .ok ⟨h, none, [.voucher [], .voucher (cstr text)]⟩
          | some a => judge O e a [.voucher [], .voucher (cstr text)] h

/-! ## Enrolment -/

/-- `create_cert_string`, /repo/src/brski/pledge/pledge_request.cpp:204-210. -/
def certString (text : Bytes) : Bytes :=
  str "-----BEGIN CERTIFICATE-----\n" ++ text ++ str "\n" ++ str "-----END CERTIFICATE-----"

/-- What `generate_sign_cert` achieves (/repo/src/brski/pledge/pledge_request.cpp:224-297): `prepared` is false
when it returns -1 (random bytes or name lists are missing; nothing is left allocated for the caller).  A missing key or
certificate (`none`) is not noticed there, because the negative length is converted to `size_t` before the
comparison (272-284); without a key no certificate is made (/repo/src/voucher/crypto_ossl.c:988-991).  The outcome of
the two encoders of `post_sign_cert` (318-331) and of the decoder (354-355) is given too. -/
structure Gen where
  prepared : Bool
  key : Option Bytes
  cert : Bytes → Option Bytes
  caOut : Allocator
  bodyOut : Allocator
  al : Allocator
  blk : Bytes

/-- Result of `post_sign_cert`: heap, the contents of `out_cert` and `out_key` (`none` when -1 is returned) and the
messages sent. -/
structure Enrolled where
  heap : Heap
  out : Option (Nat × Nat)
  sent : List Msg

/-- `post_sign_cert_err:`, /repo/src/brski/pledge/pledge_request.cpp:369-373. -/
def enrolFail (h : Heap) (ps : List (Option Nat)) (sent : List Msg) : Outcome Enrolled :=
  (freeAll h ps).bind fun h => .ok ⟨h, none, sent⟩

/-- `post_sign_cert` from the answer to the enrolment on, /repo/src/brski/pledge/pledge_request.cpp:339-373: `out_cert`
is released and then set by the decoder. -/
def enrolAnswer (g : Gen) (cert key pin : Nat) (sent : List Msg) (h : Heap) : Option (Nat × Bytes) → Outcome Enrolled
  | none => enrolFail h [some cert, some key, some pin] sent
  | some (status, body) =>
    if status ≥ 400 then enrolFail h [some cert, some key, some pin] sent
    else
      (h.freePtr (some cert)).bind fun h =>
      (decodeBody g.al g.blk h body).bind fun b =>
      match b.ret, b.ptr with
      | some _, some p => (freeAll b.heap [some pin]).bind fun h => .ok ⟨h, some (p, key), sent⟩
      | _, p => enrolFail b.heap [p, some key, some pin] sent

/-- `post_sign_cert` with key and certificate made and the voucher accepted,
/repo/src/brski/pledge/pledge_request.cpp:318-373.  The texts (blocks at `pki_str`) are copied to strings and
released. -/
def enrol (g : Gen) (net : Net) (cert key : Option Nat) (pin : Nat) (sent : List Msg) (h : Heap) : Outcome Enrolled :=
  (h.read pin).bind fun pinned =>
  (array2base64str g.caOut pinned).bind fun s =>
  match s with
  | none => enrolFail h [cert, key, some pin] sent
  | some (ca, _) =>
    match cert, key with
    | some c, some k =>
      (h.read c).bind fun own =>
      (array2base64str g.bodyOut own).bind fun s =>
      match s with
      | none => enrolFail h [cert, key, some pin] sent
      | some (body, _) =>
        enrolAnswer g c k pin (sent ++ [.enrol (certString (cstr ca)) (cstr body)]) h
          (net.enrol (certString (cstr ca)) (cstr body))
    | _, _ => enrolFail h [cert, key, some pin] sent

/-- `post_sign_cert`, /repo/src/brski/pledge/pledge_request.cpp:299-374.  A certificate that could not be made has the
length `SIZE_MAX`, which `serialize_array2base64str` refuses (/repo/src/voucher/serialize.c:118-121, see C02). -/
def postSignCert (O : Ossl) (e : PledgeEnv) (g : Gen) (net : Net) (h : Heap) : Outcome Enrolled :=
  if g.prepared then
    let k := peerCert h g.key
    let c := peerCert k.1 (g.key.bind g.cert)
    (postVoucher O e net c.1).bind fun r =>
    match r.pinned with
    | none => enrolFail r.heap [c.2, k.2] r.sent
    | some pin => enrol g net c.2 k.2 pin r.sent r.heap
  else .ok ⟨h, none, []⟩

end Brski.Pledge
