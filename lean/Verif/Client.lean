import Verif.Tls
import Verif.Cut

/-!
# The client: connecting, sending, sending again (model)

`httplib_post_request` (/repo/src/brski/http/httplib_wrapper.cpp:238-262) with everything it calls on the way to the reply:
`SSLClient::SSLClient`, `initialize_ssl`, `~SSLClient` (/repo/src/brski/http/httplib.h:9009-9029,9049-9060,9199-9260),
`ClientImpl::send`, `send_`, `handle_request`, `write_request`, `process_request` (7327-7524,7621-7738,7851-7945), `write_data`
(4304-4315).  What the client does to the outside is recorded as a list of events.

Simplified: `keep_alive_`, `follow_location_`, proxies and authentication are off, as in this project; the messages of the log and the
value of `error` are left out, except whether it is `SSLPeerCouldBeClosed_`.  Locks are left out: a client is used by one thread.
-/

namespace Brski.Client
open Outcome Wire Routes

/-- Things a client acquires and has to release: the context (9014), and for each connection the socket (7239), the session (8669)
and the reference to the certificate of the server (9237), /repo/src/brski/http/httplib.h:7239-9237. -/
inductive Handle where
  | ctx
  | sock (n : Nat)
  | ssl (n : Nat)
  | cert (n : Nat)
deriving Repr, DecidableEq

/-- What a client does (/repo/src/brski/http/httplib.h:7327-9260): acquire, release, hand bytes to the connection with a number. -/
inductive Ev where
  | acquire (h : Handle)
  | release (h : Handle)
  | wrote (n : Nat) (b : Bytes)
deriving Repr, DecidableEq

/-- What the client meets in one `send_`: `socket`: a socket could be connected (/repo/src/brski/http/httplib.h:7239-7247); `session`:
`SSL_new` gave a session (8669); `handshake`: `SSL_connect` succeeded (9212-9217); `chain`: what the server presented; `writes`: the
results of `Stream::write` (8826-8858), after the last one it fails; `closed`: `SSL_peek` finds that the server has closed the
session (7864-7865); `reply`: what arrives otherwise. -/
structure Attempt (L : Tls.Lib) where
  socket : Bool
  session : Bool
  handshake : Bool
  chain : List L.Cert
  writes : List Int
  closed : Bool
  reply : Cut.Strm

/-- What a request is made of (/repo/src/brski/http/httplib_wrapper.cpp:238-246): `host` is the value of the field `Host`
(/repo/src/brski/http/httplib.h:7630-7644), `store` the anchors in the context, `system` those of the system. -/
structure Job (L : Tls.Lib) where
  verify : Bool
  store : List L.Cert
  system : List L.Cert
  host : Bytes
  path : Bytes
  ctype : Bytes
  body : Bytes

/-- The client (/repo/src/brski/http/httplib.h: `socket_`, `server_cert_`) with the fields of the request and the events so far. -/
structure St (L : Tls.Lib) where
  sock : Option Nat
  ssl : Option Nat
  cert : Option (Nat × L.Cert)
  fields : List Field
  trace : List Ev

/-- Another event (/repo/src/brski/http/httplib.h:7327-9260). -/
def St.log {L : Tls.Lib} (s : St L) (e : List Ev) : St L := { s with trace := s.trace ++ e }

/-! ## Writing -/

/-- `write_data`, /repo/src/brski/http/httplib.h:4304-4315, with the results of `Stream::write` to come: whether everything was
written, what was written, the results left. -/
def writeData : List Int → Bytes → Bool × Bytes × List Int
  | ws, [] => (true, [], ws)
  | [], _ :: _ => (false, [], [])
  | w :: ws, c :: d =>
    if w < 0 then (false, [], ws)
    else ((writeData ws ((c :: d).drop w.toNat)).1, (c :: d).take w.toNat ++ (writeData ws ((c :: d).drop w.toNat)).2.1,
      (writeData ws ((c :: d).drop w.toNat)).2.2)

/-- A field is added unless there is one of the name (/repo/src/brski/http/httplib.h:7624-7656,7671-7679). -/
def addOnce (hs : List Field) (k v : Bytes) : List Field := if hasField hs k then hs else addField hs k v

/-- The first part of `ClientImpl::write_request`, /repo/src/brski/http/httplib.h:7621-7680: the fields of a POST.  With an empty
body `Content-Length` is added whether there is one or not (7666-7669). -/
def prepare (host body : Bytes) (hs : List Field) : List Field :=
  let hs := addOnce hs (str "Connection") (str "close")
  let hs := addOnce hs (str "Host") host
  let hs := addOnce hs (str "Accept") (str "*/*")
  let hs := addOnce hs (str "User-Agent") (str "cpp-httplib/0.14.3")
  if body = [] then addField hs (str "Content-Length") (str "0")
  else addOnce (addOnce hs (str "Content-Type") (str "text/plain")) (str "Content-Length") (BoolTime.natDec body.length)

/-- Request line and fields, /repo/src/brski/http/httplib.h:7711-7719. -/
def headText (path : Bytes) (hs : List Field) : Bytes :=
  str "POST " ++ encodeUrl path ++ str " HTTP/1.1" ++ [13, 10] ++ fieldsText hs

/-- `ClientImpl::write_request`, /repo/src/brski/http/httplib.h:7621-7738, on connection `n`: whether everything was written. -/
def writeRequest {L : Tls.Lib} (J : Job L) (n : Nat) (ws : List Int) (s : St L) : Bool × St L :=
  let s := { s with fields := prepare J.host J.body s.fields }
  let h := writeData ws (headText J.path s.fields)
  let s := s.log [.wrote n h.2.1]
  if h.1 then
    let b := writeData h.2.2 J.body
    (b.1, s.log [.wrote n b.2.1])
  else (false, s)

/-! ## Connections -/

/-- `shutdown_ssl`, `shutdown_socket` and `close_socket`, /repo/src/brski/http/httplib.h:7247-7282,9256-9272; what is closed already is
left alone. -/
def St.close {L : Tls.Lib} (s : St L) : St L :=
  match s.sock with
  | none => s
  | some n =>
    let s := match s.ssl with
      | none => s
      | some m => { s with ssl := none }.log [.release (.ssl m)]
    { s with sock := none }.log [.release (.sock n)]

/-- `SSLClient::initialize_ssl`, /repo/src/brski/http/httplib.h:9199-9260, and `ssl_new` (8664-8692): whether the session can be used.
Without verification the certificate of the server is kept, and the one kept before is forgotten (9236-9237). -/
def initSsl {L : Tls.Lib} (J : Job L) (n : Nat) (a : Attempt L) (s : St L) : Bool × St L :=
  if a.session then
    if a.handshake && Tls.connect L J.system J.verify (some J.store) a.chain then
      let s := if J.verify then s
        else match a.chain with
          | [] => { s with cert := none }
          | c :: _ => { s with cert := some (n, c) }.log [.acquire (.cert n)]
      (true, { s with ssl := some n }.log [.acquire (.ssl n)])
    else (false, (s.log [.acquire (.ssl n), .release (.ssl n)]).close)
  else (false, s.close)

/-- How `send_` ends: a reply, `SSLPeerCouldBeClosed_`, or another error (/repo/src/brski/http/httplib.h:1042,7337-7411). -/
inductive End where
  | reply (status : Nat) (body : Bytes)
  | peerClosed
  | failed
deriving Repr, DecidableEq

/-- `ClientImpl::process_request`, /repo/src/brski/http/httplib.h:7851-7945. -/
def processRequest {L : Tls.Lib} (J : Job L) (n : Nat) (a : Attempt L) (s : St L) : Outcome (End × St L) :=
  match writeRequest J n a.writes s with
  | (false, s) => .ok (.failed, s)
  | (true, s) =>
    if a.closed then .ok (.peerClosed, s)
    else (Cut.readReply a.reply).bind fun r =>
      match r with
      | none => .ok (.failed, s)
      | some (st, b) => .ok (.reply st b, s)

/-- `ClientImpl::send_`, /repo/src/brski/http/httplib.h:7337-7411, and `handle_request` (7427-7524), the `n`th time.  The socket is closed
whatever happens (`close_connection` is set, 7390); closing it once more in `handle_request` (7458-7472) changes nothing.  An empty path
is refused (7430-7433).  A session that was opened before is not open any more, so that 7348-7361 is never reached. -/
def send_ {L : Tls.Lib} (J : Job L) (n : Nat) (a : Attempt L) (s : St L) : Outcome (End × St L) :=
  if a.socket then
    match initSsl J n a ({ s with sock := some n }.log [.acquire (.sock n)]) with
    | (false, s) => .ok (.failed, s)
    | (true, s) =>
      if J.path = [] then .ok (.failed, s.close)
      else (processRequest J n a s).bind fun r => .ok (r.1, r.2.close)
  else .ok (.failed, s)

/-- `ClientImpl::send`, /repo/src/brski/http/httplib.h:7327-7335. -/
def send {L : Tls.Lib} (J : Job L) (a b : Attempt L) (s : St L) : Outcome (End × St L) :=
  (send_ J 0 a s).bind fun r =>
    match r.1 with
    | .peerClosed => send_ J 1 b r.2
    | _ => .ok r

/-! ## A request -/

/-- `SSLClient::~SSLClient`, /repo/src/brski/http/httplib.h:9049-9060, with a context. -/
def St.destroy {L : Tls.Lib} (s : St L) : St L :=
  let s := s.log [.release .ctx]
  let s := match s.cert with
    | none => s
    | some (n, _) => s.log [.release (.cert n)]
  s.close

/-- What `httplib_post_request` gives: status, body and a copy of the certificate, or -1, and what it has done
(/repo/src/brski/http/httplib_wrapper.cpp:252-261). -/
structure Result (L : Tls.Lib) where
  value : Option (Nat × Bytes × Option L.Cert)
  trace : List Ev

/-- `httplib_post_request`, /repo/src/brski/http/httplib_wrapper.cpp:238-262; `files`: certificate and key of the client can be read, else
the context is released at once and nothing is sent (/repo/src/brski/http/httplib.h:9009-9029,9093-9095).  `a` and `b` are what the first
and the second attempt meet. -/
def post {L : Tls.Lib} (files : Bool) (J : Job L) (a b : Attempt L) : Outcome (Result L) :=
  let s : St L := ⟨none, none, none, if J.ctype = [] then [] else addField [] (str "Content-Type") J.ctype, [.acquire .ctx]⟩
  if files then
    (send J a b s).bind fun r =>
      match r.1 with
      | .reply st body => .ok ⟨some (st, body, r.2.cert.map (·.2)), r.2.destroy.trace⟩
      | _ => .ok ⟨none, r.2.destroy.trace⟩
  else .ok ⟨none, [.acquire .ctx, .release .ctx]⟩

end Brski.Client
