import Verif.Wire
import Verif.Tls
import Verif.Main

/-!
# Pledge, registrar and MASA connected (model)

The network of the pledge when the registrar at the configured address is a server of this program, and the network of this
registrar when the MASA is one too: TLS (`Tls`), the bytes of requests and replies (`Wire`), the routes (`Routes`) and the
handlers (`Server`).

Simplified: a server finds whatever heap it has when a connection comes in (no assumption on what it did before); the
certificate a server presents is the one in the file its handlers read; a server that crashes gives no answer.
-/

namespace Brski.Deploy
open Outcome Brski.Voucher Crypto Server Pledge Routes Wire Tls

/-! ## A server whose handlers may crash -/

/-- The implemented handler a request line leads to, and its reply (`Server::process_request`,
/repo/src/brski/http/httplib.h:7000-7030,7093-7110); without one nothing is run. -/
def runHandler (rs : List Route) (run : Endpoint → Outcome Routes.Reply) (line : Bytes) : Outcome Routes.Reply :=
  if 8192 < line.length then .ok ⟨0, []⟩
  else
    match parseRequestLine line with
    | none => .ok ⟨0, []⟩
    | some l =>
      match routing rs l with
      | some (some e) => match e.stub with
        | some r => .ok r
        | none => run e
      | _ => .ok ⟨0, []⟩

/-- The end of `Server::process_request`, /repo/src/brski/http/httplib.h:7093-7125: the handler is run and its reply sent. -/
def finish (rs : List Route) (run : Endpoint → Outcome Routes.Reply) (close : Bool) (line : Bytes) : Outcome (Option Res) :=
  (runHandler rs run line).bind fun rep => .ok (some (process rs (fun _ => rep) close line))

/-- `Server::process_request`, /repo/src/brski/http/httplib.h:6982-7125, like `Wire.serve`, but with handlers that may have
undefined behaviour. -/
def serveO (rs : List Route) (mp : Multipart) (run : List Field → Bytes → Endpoint → Outcome Routes.Reply) (close : Bool)
    (s : Bytes) : Outcome (Option Res) :=
  match getLine s with
  | none => .ok none
  | some (l, r) =>
    match if 8192 < l.length then none else parseRequestLine l with
    | none => finish rs (run [] []) close l
    | some line =>
      match readLines r with
      | (ls, none) => .ok (some (writeResponse (closes close (readHeaders ls)) line.method false ⟨400, [], []⟩))
      | (ls, some r) =>
        if expectsContent line.method then
          (readBody mp line.method (readHeaders ls) r).bind fun b =>
          match b with
          | .error st => .ok (some (writeResponse (closes close (readHeaders ls)) line.method false ⟨st, [], []⟩))
          | .ok (b, more) => finish rs (run (readHeaders (ls ++ more)) b) (closes close (readHeaders (ls ++ more))) l
        else finish rs (run (readHeaders ls) []) (closes close (readHeaders ls)) l

/-- A POST to a server and back, /repo/src/brski/http/httplib_wrapper.cpp:238-288: request, answer of the server, what the client
makes of it.  Nothing when the server crashes or the answer cannot be read. -/
def postTo (rs : List Route) (mp : Multipart) (run : List Field → Bytes → Endpoint → Outcome Routes.Reply) (close : Bool)
    (host path ctype body : Bytes) : Option (Nat × Bytes) :=
  match serveO rs mp run close (requestText host path ctype body) with
  | .ok (some w) => match readReply (replyText w) with
    | .ok a => a
    | .ub => none
  | _ => none

/-! ## The servers -/

/-- A connection to a server: the chain it presents, the chain the client presents, and the server's context
(/repo/src/brski/http/httplib.h:8882-8922,9199-9260); `host` is the `Host` field the client sends. -/
structure Link (L : Lib) where
  host : Bytes
  server : List L.Cert
  client : List L.Cert
  ctx : ServerCtx L
  env : ClientEnv L

/-- Registrar and MASA as servers of this program (/repo/src/brski/registrar/registrar_server.cpp:26-73,
/repo/src/brski/masa/masa_server.cpp:24-90): what their handlers depend on (`reg.masa` is not used), their heaps when a
connection comes in, the certificate the registrar presents, and the client certificate it sees. -/
structure Site (O : Ossl) (L : Lib) where
  reg : RegEnv
  enr : EnrollEnv O
  masa : MasaEnv
  regHeap : Nat → Heap
  masaHeap : Heap
  masaCtx : Option Nat
  tls : Bytes
  client : Option O.Cert
  toReg : Link L
  toMasa : Link L
  mp : Multipart
  close : Bool

/-- The path of voucher requests, /repo/src/brski/masa/masa_api.hpp:18-19. -/
def voucherPath : Bytes := str "/.well-known/brski/requestvoucher"

/-- The path of enrolments, /repo/src/brski/masa/masa_api.hpp:25-26. -/
def enrolPath : Bytes := str "/.well-known/est/simpleenroll"

/-- The type of the content posted, /repo/src/brski/pledge/pledge_request.cpp:115,
/repo/src/brski/registrar/registrar_api.cpp:106. -/
def voucherType : Bytes := str "application/voucher-cms+json"

/-- The handlers of the MASA (/repo/src/brski/masa/masa_server.cpp:24-64). -/
def masaRun {O : Ossl} {L : Lib} (D : Site O L) (_ : List Field) (body : Bytes) : Endpoint → Outcome Routes.Reply
  | .masaRequestVoucher =>
    (masaRequestVoucher O D.masa body D.masaHeap D.masaCtx).bind fun r => .ok ⟨r.status, r.body⟩
  | _ => .ok ⟨0, []⟩

/-- What a client gets over a link that is used if the client accepts the server and the server the client
(/repo/src/brski/http/httplib.h:8911-8920,9199-9260). -/
def peerOf {L : Lib} (k : Link L) (answer : Bytes → Option (Nat × Bytes)) : Peer L :=
  ⟨k.server, fun body => if admits L k.ctx k.client then answer body else none⟩

/-- `https_post_request` of the registrar to the MASA, which does not verify the MASA
(/repo/src/brski/registrar/registrar_api.cpp:113-116). -/
def masaOf {O : Ossl} {L : Lib} (D : Site O L) (text : Bytes) : Option (Nat × Bytes) :=
  Tls.post L D.toMasa.env false
    (peerOf D.toMasa fun b => postTo masaRoutes D.mp (masaRun D) D.close D.toMasa.host voucherPath voucherType b) text

/-- The handlers of the registrar (/repo/src/brski/registrar/registrar_server.cpp:26-46) on the heap of connection `k`. -/
def regRun {O : Ossl} {L : Lib} (D : Site O L) (k : Nat) (_ : List Field) (body : Bytes) : Endpoint → Outcome Routes.Reply
  | .registrarRequestVoucher =>
    (registrarRequestVoucher O { D.reg with masa := masaOf D } body (D.regHeap k)).bind fun r => .ok ⟨r.status, r.body⟩
  | .registrarSimpleEnroll =>
    (simpleEnroll O D.enr D.client body (D.regHeap k)).bind fun r => .ok ⟨r.status, r.body⟩
  | _ => .ok ⟨0, []⟩

/-- `https_post_request` of the pledge to the registrar, which does not verify the registrar
(/repo/src/brski/pledge/pledge_request.cpp:118-120,151-153). -/
def regAnswer {O : Ossl} {L : Lib} (D : Site O L) (k : Nat) (body : Bytes) : Option Answer :=
  (Tls.post L D.toReg.env false
    (peerOf D.toReg fun b => postTo registrarRoutes D.mp (regRun D k) D.close D.toReg.host voucherPath voucherType b) body).map
    fun r => ⟨r.1, some D.tls, r.2⟩

/-- The network of the pledge (/repo/src/brski/pledge/pledge_request.cpp:118-120,151-153,335-337). -/
def netOf {O : Ossl} {L : Lib} (D : Site O L) : Net where
  first := regAnswer D 0 []
  second := regAnswer D 1
  enrol := fun ca body => postCa L D.toReg.env
    (peerOf D.toReg fun b => postTo registrarRoutes D.mp (regRun D 2) D.close D.toReg.host enrolPath voucherType b) ca body

end Brski.Deploy
