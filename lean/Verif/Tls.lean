import Verif.Pledge
import Verif.Routes

/-!
# TLS: whom the clients and the servers talk to, and how a server starts (model)

`httplib_post_request`, `httplib_post_request_ca`, `httplib_start`, `httplib_stop`
(/repo/src/brski/http/httplib_wrapper.cpp:191-288) over `SSLClient` and `SSLServer`
(/repo/src/brski/http/httplib.h:8874-9260), `registrar_start`, `registrar_stop`
(/repo/src/brski/registrar/registrar_server.cpp:48-80), `masa_start`, `masa_stop`
(/repo/src/brski/masa/masa_server.cpp:66-97).

OpenSSL is a parameter: reading PEM text, and whether a chain presented by a peer verifies against a set of trust
anchors.  Revocation lists in the PEM text are left out.
-/

namespace Brski.Tls
open Outcome Brski.Pledge

/-- OpenSSL as used at /repo/src/brski/http/httplib.h:8613-8644,9199-9260: `pem` is `PEM_X509_INFO_read_bio`
(`none`: NULL), `chainOk` tells whether `SSL_get_verify_result` gives `X509_V_OK` for the anchors and the chain the peer
presented. -/
structure Lib where
  Cert : Type
  pem : Bytes → Option (List Cert)
  chainOk : List Cert → List Cert → Bool

/-! ## Clients -/

/-- `SSLClient::SSLClient`, /repo/src/brski/http/httplib.h:9009-9029: the context with its (empty) store, or NULL when
certificate or key cannot be read; without paths nothing is read. -/
def newClient (L : Lib) (paths filesOk : Bool) : Option (List L.Cert) := if paths && !filesOk then none else some []

/-- `create_ca_cert_store`, /repo/src/brski/http/httplib.h:8613-8644; `mem`: the buffer and the store could be made. -/
def caStore (L : Lib) (mem : Bool) (ca : Bytes) : Option (List L.Cert) := if mem then L.pem ca else none

/-- `SSLClient::set_ca_cert_store`, /repo/src/brski/http/httplib.h:9065-9076: a NULL store is ignored. -/
def setStore {C : Type} (ctx store : Option (List C)) : Option (List C) :=
  match store, ctx with
  | some s, some _ => some s
  | _, ctx => ctx

/-- `SSLClient::load_certs`, /repo/src/brski/http/httplib.h:9166-9197: no path is ever set
(`ca_cert_file_path_`, `ca_cert_dir_path_`), so the certificates trusted by the system are added to the store. -/
def loadCerts {C : Type} (system store : List C) : List C := store ++ system

/-- `SSLClient::initialize_ssl`, /repo/src/brski/http/httplib.h:9199-9260, and `is_valid` (9093-9095): whether the
connection is used.  The handshake itself never fails because of the certificate (`SSL_VERIFY_NONE`); the result of the
verification is looked at afterwards, it is `X509_V_OK` if the peer presents no certificate.  Host names are not
verified (/repo/src/brski/http/httplib_wrapper.cpp:249,274). -/
def connect (L : Lib) (system : List L.Cert) (verify : Bool) (ctx : Option (List L.Cert)) (chain : List L.Cert) : Bool :=
  match ctx with
  | none => false
  | some store =>
    if verify then (chain.isEmpty || L.chainOk (loadCerts system store) chain) && !chain.isEmpty else true

/-- A server somewhere in the network: the chain it presents and how it answers a POST. -/
structure Peer (L : Lib) where
  chain : List L.Cert
  answer : Bytes → Option (Nat × Bytes)

/-- What a client depends on beside the peer: the system's trusted certificates, whether key and certificate can be
read, memory (/repo/src/brski/http/httplib_wrapper.cpp:238-288). -/
structure ClientEnv (L : Lib) where
  system : List L.Cert
  filesOk : Bool
  mem : Bool

/-- `httplib_post_request_ca`, /repo/src/brski/http/httplib_wrapper.cpp:264-288, with the paths set; `none` is -1. -/
def postCa (L : Lib) (e : ClientEnv L) (p : Peer L) (ca body : Bytes) : Option (Nat × Bytes) :=
  if connect L e.system true (setStore (newClient L true e.filesOk) (caStore L e.mem ca)) p.chain then p.answer body
  else none

/-- `httplib_post_request`, /repo/src/brski/http/httplib_wrapper.cpp:238-262, with the paths set. -/
def post (L : Lib) (e : ClientEnv L) (verify : Bool) (p : Peer L) (body : Bytes) : Option (Nat × Bytes) :=
  if connect L e.system verify (newClient L true e.filesOk) p.chain then p.answer body else none

/-! ## Servers -/

/-- The context of a server (/repo/src/brski/http/httplib.h:8882-8922): the anchors for client certificates and whether
the default verification is replaced by `SSL_verify_fn`, which accepts everything (8874-8879). -/
structure ServerCtx (L : Lib) where
  anchors : List L.Cert
  anyCert : Bool

/-- What starting a server depends on: `ctxOk`: `SSL_CTX_new` gives a context; `filesOk`: certificate chain and key can be
read; `clientCa`: the certificates in the file (`none`: it cannot be read, which is not noticed, 8908-8909); `newOk`,
`routesThrow`: exceptions; `sockOk`: the address can be bound; `runs`: what `listen_internal` returns
(/repo/src/brski/http/httplib.h:6651-6760,8882-8922). -/
structure StartEnv (L : Lib) where
  ctxOk : Bool
  filesOk : Bool
  clientCa : Bytes → Option (List L.Cert)
  contextOk : Bool
  newOk : Bool
  routesThrow : Bool
  sockOk : Bool
  runs : Bool

/-- `SSLServer::SSLServer`, /repo/src/brski/http/httplib.h:8882-8922 (no directory, no password).  When the files cannot be
read the context is released and set to NULL; without a client CA it is then handed to `SSL_CTX_set_verify`, which
dereferences it. -/
def newServer (L : Lib) (e : StartEnv L) (clientCaPath : Option Bytes) : Outcome (Option (ServerCtx L)) :=
  if e.ctxOk then
    match clientCaPath with
    | none => if e.filesOk then .ok (some ⟨[], true⟩) else .ub
    | some path => if e.filesOk then .ok (some ⟨(e.clientCa path).getD [], false⟩) else .ok none
  else .ok none

/-- Whether the handshake with a client succeeds (`SSL_VERIFY_PEER | SSL_VERIFY_FAIL_IF_NO_PEER_CERT`,
/repo/src/brski/http/httplib.h:8911-8920). -/
def admits (L : Lib) (c : ServerCtx L) (chain : List L.Cert) : Bool :=
  !chain.isEmpty && (c.anyCert || L.chainOk c.anchors chain)

/-- `struct http_config`, /repo/src/brski/http/http.hpp:60-68 (members used here). -/
structure HttpConfig where
  address : Option Bytes
  certPath : Option Bytes
  keyPath : Option Bytes
  clientCaPath : Option Bytes

/-- How a start ended: the value returned, `*srv_ctx`, whether the server ran (accepted connections), with which
context. -/
structure Started (L : Lib) where
  ret : Int
  heap : Heap
  srv : Option Nat
  served : Option (ServerCtx L)

/-- `httplib_start`, /repo/src/brski/http/httplib_wrapper.cpp:199-236.  Every exception ends in the handler at 229-232, which
hands `srv_ctx` (the address of the pointer, not the server) to `httplib_stop`; this calls a member function of and deletes
something that is no server.  Exceptions: `new`, the routes, and the construction of a string from a NULL address
(226; libstdc++ throws).  The bool returned by `listen` is ignored.  `httplib_register_routes` fails only for unknown
methods, which neither server uses (`Routes.registrarRoutes`, `Routes.masaRoutes`); that exit is left out. -/
def httplibStart (L : Lib) (e : StartEnv L) (c : HttpConfig) (h : Heap) : Outcome (Started L) :=
  if c.certPath = none ∨ c.keyPath = none then .ok ⟨-1, h, none, none⟩
  else if e.newOk then
    (newServer L e c.clientCaPath).bind fun ctx =>
    let p := h.alloc []
    if e.routesThrow then .ub
    else match c.address with
      | none => .ub
      | some _ => .ok ⟨0, p.1, some p.2, if e.sockOk then ctx else none⟩
  else .ub

/-- The value returned by `Server::listen`, /repo/src/brski/http/httplib.h:6229-6233,6651-6660. -/
def listenResult (L : Lib) (e : StartEnv L) (ctx : Option (ServerCtx L)) : Bool := ctx.isSome && e.sockOk && e.runs

/-- `httplib_stop` for a server that no longer runs, /repo/src/brski/http/httplib_wrapper.cpp:191-197. -/
def httplibStop (h : Heap) (srv : Option Nat) : Outcome Heap := h.freePtr srv

/-- A server with its context (`struct RegistrarContext`, `struct MasaContext`): result of `registrar_start` and
`masa_start`. -/
structure Running (L : Lib) where
  ret : Int
  heap : Heap
  context : Option Nat
  srv : Option Nat
  served : Option (ServerCtx L)

/-- `registrar_start` and `masa_start` from the allocation of the context on
(/repo/src/brski/registrar/registrar_server.cpp:54-73, /repo/src/brski/masa/masa_server.cpp:71-89). -/
def startWith (L : Lib) (e : StartEnv L) (c : HttpConfig) (h : Heap) : Outcome (Running L) :=
  if e.contextOk then
    let p := h.alloc []
    (httplibStart L e c p.1).bind fun s => .ok ⟨s.ret, s.heap, some p.2, s.srv, s.served⟩
  else .ok ⟨-1, h, none, none, none⟩

/-- `registrar_start`, /repo/src/brski/registrar/registrar_server.cpp:48-73: no client CA. -/
def registrarStart (L : Lib) (e : StartEnv L) (address certPath keyPath : Option Bytes) (h : Heap) :
    Outcome (Running L) :=
  startWith L e ⟨address, certPath, keyPath, none⟩ h

/-- `masa_start`, /repo/src/brski/masa/masa_server.cpp:66-90: the client CA is the registrar's `tls_ca_cert_path`. -/
def masaStart (L : Lib) (e : StartEnv L) (address certPath keyPath registrarCaPath : Option Bytes) (h : Heap) :
    Outcome (Running L) :=
  startWith L e ⟨address, certPath, keyPath, registrarCaPath⟩ h

/-- `registrar_stop` and `masa_stop` (/repo/src/brski/registrar/registrar_server.cpp:75-80,
/repo/src/brski/masa/masa_server.cpp:92-97). -/
def stopServer {L : Lib} (r : Running L) : Outcome Heap :=
  match r.context with
  | none => .ok r.heap
  | some c => (httplibStop r.heap r.srv).bind fun h => h.free c

end Brski.Tls
