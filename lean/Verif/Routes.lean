import Verif.BoolTime

/-!
# Requests, routes and responses of the HTTPS server (model)

`httplib_wrapper.cpp` and the parts of the bundled /repo/src/brski/http/httplib.h it relies on: the request
line, percent decoding, the header multimap, dispatch by regular expression, and the headers of a response.

Simplified: a request has no `Range` and no `Expect` header, content is never compressed, reading the content of
a request succeeds, and handlers throw no exception.  The path patterns contain no regular expression operator
other than `.` (`Props.patterns_plain`).
-/

namespace Brski.Routes

/-! ## Request line -/

/-- The methods of /repo/src/brski/http/http.hpp:28-39 and /repo/src/brski/http/httplib.h:6284-6286. -/
inductive Method where
  | get | head | post | put | delete | connect | options | trace | patch | pri
deriving Repr, DecidableEq

/-- `methods.find(req.method)`, /repo/src/brski/http/httplib.h:6284-6290. -/
def parseMethod (s : Bytes) : Option Method :=
  [(str "GET", Method.get), (str "HEAD", .head), (str "POST", .post), (str "PUT", .put), (str "DELETE", .delete),
    (str "CONNECT", .connect), (str "OPTIONS", .options), (str "TRACE", .trace), (str "PATCH", .patch),
    (str "PRI", .pri)].lookup s

/-- `is_space_or_tab`, /repo/src/brski/http/httplib.h:2642. -/
def isBlank (c : UInt8) : Bool := c == 32 || c == 9

/-- `trim`, /repo/src/brski/http/httplib.h:2644-2653. -/
def trim (s : Bytes) : Bytes := ((s.dropWhile isBlank).reverse.dropWhile isBlank).reverse

/-- The parts of `s` between the delimiters, loop of `split` (/repo/src/brski/http/httplib.h:2678-2688). -/
def pieces (d : UInt8) : Bytes → List Bytes
  | [] => [[]]
  | c :: s =>
    if c = d then [] :: pieces d s
    else
      match pieces d s with
      | [] => [[c]]
      | p :: ps => (c :: p) :: ps

/-- `split` without limit: the callback sees the trimmed parts that are not empty
(/repo/src/brski/http/httplib.h:2667-2696). -/
def splitAll (d : UInt8) (s : Bytes) : List Bytes := ((pieces d s).map trim).filter (· ≠ [])

/-- `split` with limit 2 (/repo/src/brski/http/httplib.h:2672-2696). -/
def splitTwo (d : UInt8) (s : Bytes) : List Bytes :=
  let a := s.takeWhile (· ≠ d)
  let r := s.dropWhile (· ≠ d)
  (((if r = [] then [a] else [a, r.tail])).map trim).filter (· ≠ [])

/-- `is_hex`, /repo/src/brski/http/httplib.h:2356-2368. -/
def hexVal (c : UInt8) : Option Nat :=
  if 48 ≤ c ∧ c ≤ 57 then some (c.toNat - 48)
  else if 65 ≤ c ∧ c ≤ 70 then some (c.toNat - 55)
  else if 97 ≤ c ∧ c ≤ 102 then some (c.toNat - 87)
  else none

/-- `from_hex_to_i` on the text from position `i` on, `cnt` digits (/repo/src/brski/http/httplib.h:2370-2389).
Past the end the string has its NUL, which is no digit. -/
def fromHex : Nat → Nat → Bytes → Option Nat
  | 0, v, _ => some v
  | _ + 1, _, [] => none
  | n + 1, v, c :: s =>
    match hexVal c with
    | none => none
    | some d => fromHex n (v * 16 + d) s

/-- `to_utf8` for the codes of four hexadecimal digits (/repo/src/brski/http/httplib.h:2401-2430). -/
def toUtf8 (code : Nat) : Bytes :=
  if code < 0x80 then [UInt8.ofNat code]
  else if code < 0x800 then [UInt8.ofNat (0xC0 + code / 64 % 32), UInt8.ofNat (0x80 + code % 64)]
  else if 0xD800 ≤ code ∧ code < 0xE000 then []
  else [UInt8.ofNat (0xE0 + code / 4096 % 16), UInt8.ofNat (0x80 + code / 64 % 64), UInt8.ofNat (0x80 + code % 64)]

/-- `decode_url(s, false)`, /repo/src/brski/http/httplib.h:2585-2620. -/
def decodeUrl : Bytes → Bytes
  | [] => []
  | [c] => [c]
  | c :: d :: s =>
    if c = 37 then
      if d = 117 then
        match fromHex 4 0 s with
        | some v => toUtf8 v ++ decodeUrl (s.drop 4)
        | none => c :: decodeUrl (d :: s)
      else
        match fromHex 2 0 (d :: s) with
        | some v => UInt8.ofNat v :: decodeUrl (s.drop 1)
        | none => c :: decodeUrl (d :: s)
    else c :: decodeUrl (d :: s)
termination_by s => s.length
decreasing_by all_goals simp only [List.length_cons, List.length_drop]; omega

/-- The path of a request target: the fragment is removed, the first part is decoded
(/repo/src/brski/http/httplib.h:6296-6329). -/
def parsePath (target : Bytes) : Bytes :=
  match splitTwo 63 (target.takeWhile (· ≠ 35)) with
  | [] => []
  | a :: _ => decodeUrl a

/-- What the handlers can see of a request line (/repo/src/brski/http/httplib.h:6253-6334). -/
structure Line where
  method : Method
  path : Bytes
deriving Repr, DecidableEq

/-- `parse_request_line`, /repo/src/brski/http/httplib.h:6253-6334. -/
def parseRequestLine (line : Bytes) : Option Line :=
  let s := BoolTime.cstr line
  if s.length < 2 ∨ s.drop (s.length - 2) ≠ [13, 10] then none
  else
    match splitAll 32 (s.take (s.length - 2)) with
    | [m, target, version] =>
      match parseMethod m with
      | none => none
      | some m =>
        if version = str "HTTP/1.1" ∨ version = str "HTTP/1.0" then some ⟨m, parsePath target⟩ else none
    | _ => none

/-- The first word of a request line: what becomes of the method of a request even if the line is refused later
(/repo/src/brski/http/httplib.h:6253-6267). -/
def firstWord (line : Bytes) : Option Bytes :=
  let s := BoolTime.cstr line
  if s.length < 2 ∨ s.drop (s.length - 2) ≠ [13, 10] then none else (splitAll 32 (s.take (s.length - 2))).head?

/-- The method that counts for the answer to a line that is refused: `HEAD` or anything else
(/repo/src/brski/http/httplib.h:6382,6410). -/
def refusedMethod (line : Bytes) : Method := if firstWord line = some (str "HEAD") then .head else .get

/-! ## Routes -/

/-- The handlers (/repo/src/brski/registrar/registrar_api.cpp:135-432, /repo/src/brski/masa/masa_api.cpp:57-327). -/
inductive Endpoint where
  | registrarRequestVoucher | registrarVoucherStatus | registrarRequestAuditLog | registrarEnrollStatus
  | registrarSimpleEnroll
  | masaRequestVoucher | masaVoucherStatus | masaRequestAuditLog | masaEnrollStatus
  | masaCaCerts | masaSimpleEnroll | masaSimpleReenroll | masaFullCmc | masaServerKeygen | masaCsrAttrs
deriving Repr, DecidableEq

/-- `struct RouteTuple`, /repo/src/brski/http/http.hpp:49-53. -/
structure Route where
  path : Bytes
  method : Method
  handle : Endpoint
deriving Repr, DecidableEq

/-- `setup_registrar_routes`, /repo/src/brski/registrar/registrar_server.cpp:26-46; paths in
/repo/src/brski/masa/masa_api.hpp:18-30. -/
def registrarRoutes : List Route :=
  [⟨str "/.well-known/brski/requestvoucher", .post, .registrarRequestVoucher⟩,
    ⟨str "/.well-known/brski/voucher_status", .post, .registrarVoucherStatus⟩,
    ⟨str "/.well-known/brski/requestauditlog", .post, .registrarRequestAuditLog⟩,
    ⟨str "/.well-known/brski/enrollstatus", .post, .registrarEnrollStatus⟩,
    ⟨str "/.well-known/est/simpleenroll", .post, .registrarSimpleEnroll⟩]

/-- `setup_masa_routes`, /repo/src/brski/masa/masa_server.cpp:24-64. -/
def masaRoutes : List Route :=
  [⟨str "/.well-known/brski/requestvoucher", .post, .masaRequestVoucher⟩,
    ⟨str "/.well-known/brski/voucher_status", .post, .masaVoucherStatus⟩,
    ⟨str "/.well-known/brski/requestauditlog", .post, .masaRequestAuditLog⟩,
    ⟨str "/.well-known/brski/enrollstatus", .post, .masaEnrollStatus⟩,
    ⟨str "/.well-known/est/cacerts", .get, .masaCaCerts⟩,
    ⟨str "/.well-known/est/simpleenroll", .post, .masaSimpleEnroll⟩,
    ⟨str "/.well-known/est/simplereenroll", .post, .masaSimpleReenroll⟩,
    ⟨str "/.well-known/est/fullcmc", .post, .masaFullCmc⟩,
    ⟨str "/.well-known/est/serverkeygen", .post, .masaServerKeygen⟩,
    ⟨str "/.well-known/est/csrattrs", .get, .masaCsrAttrs⟩]

/-- `std::regex_match` (ECMAScript) for a pattern of ordinary characters and `.`, which matches every character
but line feed and carriage return (/repo/src/brski/http/httplib.h:5989-5992,6008-6014). -/
def regexMatch : Bytes → Bytes → Bool
  | [], [] => true
  | p :: ps, c :: cs => (if p = 46 then c ≠ 10 ∧ c ≠ 13 else p = c) && regexMatch ps cs
  | _, _ => false

/-- `httplib_register_routes`: the handlers registered for a method, in order
(/repo/src/brski/http/httplib_wrapper.cpp:52-161); nothing is registered for HEAD, CONNECT, TRACE and PRI. -/
def registered (rs : List Route) (m : Method) : List Route :=
  match m with
  | .head | .connect | .trace | .pri => []
  | m => rs.filter (·.method = m)

/-- `Server::routing` and `dispatch_request` (/repo/src/brski/http/httplib.h:6762-6852): `none` is status 400,
`some none` no handler. -/
def routing (rs : List Route) (l : Line) : Option (Option Endpoint) :=
  let dispatch := fun m => some (((registered rs m).find? fun r => regexMatch r.path l.path).map (·.handle))
  match l.method with
  | .get | .head => dispatch .get
  | .post => dispatch .post
  | .put => dispatch .put
  | .delete => dispatch .delete
  | .options => dispatch .options
  | .patch => dispatch .patch
  | .connect | .trace | .pri => none

/-! ## Headers -/

/-- A header field. -/
abbrev Field := Bytes × Bytes

/-- `::tolower` in the C locale (/repo/src/brski/http/httplib.h:316-324). -/
def lower (c : UInt8) : UInt8 := if 65 ≤ c ∧ c ≤ 90 then c + 32 else c

/-- `detail::ci`: lexicographic comparison of the lower case texts (/repo/src/brski/http/httplib.h:316-324). -/
def ciLt : Bytes → Bytes → Bool
  | [], [] => false
  | [], _ :: _ => true
  | _ :: _, [] => false
  | a :: s, b :: t => lower a < lower b || (lower a == lower b && ciLt s t)

/-- `headers.emplace` on `std::multimap`: behind the fields with an equivalent name
(/repo/src/brski/http/httplib.h:433). -/
def emplace (hs : List Field) (f : Field) : List Field :=
  hs.takeWhile (fun g => !ciLt f.1 g.1) ++ f :: hs.dropWhile (fun g => !ciLt f.1 g.1)

/-- `parse_header` for a line without its CRLF (/repo/src/brski/http/httplib.h:3976-4016): the value is percent
decoded unless the field is `Location`; a field without value is dropped. -/
def parseHeader (line : Bytes) : Option Field :=
  let s := (line.reverse.dropWhile isBlank).reverse
  let key := s.takeWhile (· ≠ 58)
  match s.dropWhile (· ≠ 58) with
  | [] => none
  | _ :: rest =>
    let v := rest.dropWhile isBlank
    if v = [] ∨ key = [] then none
    else some (key, if key.map lower = str "location" then v else decodeUrl v)

/-- The header multimap after reading the header lines in this order; a line that is no field is skipped
(/repo/src/brski/http/httplib.h:4018-4064). -/
def readHeaders (lines : List Bytes) : List Field := (lines.filterMap parseHeader).foldl emplace []

/-- `std::map` as an association list without repeated keys: `request_header[k] = v`
(/repo/src/brski/http/httplib_wrapper.cpp:30-32).  The order of the keys is not observable through lookups. -/
def mapSet (m : List Field) (k v : Bytes) : List Field :=
  match m with
  | [] => [(k, v)]
  | e :: m => if e.1 = k then (k, v) :: m else e :: mapSet m k v

/-- The body of the loop of `get_request_header`, /repo/src/brski/http/httplib_wrapper.cpp:28-33. -/
def mergeField (m : List Field) (f : Field) : List Field :=
  match m.lookup f.1 with
  | some v => mapSet m f.1 (v ++ str ", " ++ f.2)
  | none => mapSet m f.1 f.2

/-- `get_request_header`, /repo/src/brski/http/httplib_wrapper.cpp:25-35. -/
def getRequestHeader (hs : List Field) : List Field := hs.foldl mergeField []

/-! ## Responses -/

/-- `struct Response`, as far as it is used (/repo/src/brski/http/httplib.h:589-660). -/
structure Res where
  status : Nat
  headers : List Field
  body : Bytes
deriving Repr, DecidableEq

/-- `has_crlf`, /repo/src/brski/http/httplib.h:5186-5195; it stops at a NUL. -/
def hasCrlf (s : Bytes) : Bool := (BoolTime.cstr s).any fun c => c == 13 || c == 10

/-- `Response::set_header`: adds a field (/repo/src/brski/http/httplib.h:5678-5683). -/
def setHeader (r : Res) (k v : Bytes) : Res :=
  if !hasCrlf k && !hasCrlf v then { r with headers := emplace r.headers (k, v) } else r

/-- `Response::has_header` (/repo/src/brski/http/httplib.h:5664-5666). -/
def hasHeader (r : Res) (k : Bytes) : Bool := r.headers.any fun f => !ciLt f.1 k && !ciLt k f.1

/-- `Response::set_content` (/repo/src/brski/http/httplib.h:5696-5708). -/
def setContent (r : Res) (s ct : Bytes) : Res :=
  setHeader { r with
    body := s
    headers := r.headers.filter fun f => ciLt f.1 (str "Content-Type") || ciLt (str "Content-Type") f.1 }
    (str "Content-Type") ct

/-- `set_response` (/repo/src/brski/http/httplib_wrapper.cpp:37-50); a missing content type is the empty text. -/
def setResponse (r : Res) (response : Bytes) (hdr : List Field) (status : Nat) : Res :=
  { setContent (hdr.foldl (fun r f => setHeader r f.1 f.2) r) response ((hdr.lookup (str "Content-Type")).getD [])
    with status := status }

/-- `set_error_handler` (/repo/src/brski/http/httplib_wrapper.cpp:163-172). -/
def errorHandler (r : Res) : Res :=
  setHeader (if r.body = [] then { r with body := str "Router error" } else r) (str "Content-Type") (str "text/plain")

/-- The `Connection` or `Keep-Alive` field of a response (/repo/src/brski/http/httplib.h:6363-6371,25-30). -/
def keepField (close : Bool) : Field :=
  if close then (str "Connection", str "close") else (str "Keep-Alive", str "timeout=5, max=5")

/-- `write_response_core` (/repo/src/brski/http/httplib.h:6346-6430): what is sent.  `ranges` tells whether the
content length is computed for statuses below 400. -/
def writeResponse (close : Bool) (m : Method) (ranges : Bool) (r : Res) : Res :=
  let r1 := if 400 ≤ r.status then errorHandler r else r
  let r2 := if (ranges ∨ 400 ≤ r.status) ∧ r1.body ≠ [] then
      setHeader r1 (str "Content-Length") (BoolTime.natDec r1.body.length) else r1
  let r3 := setHeader r2 (keepField close).1 (keepField close).2
  let r4 := if !hasHeader r3 (str "Content-Type") && r3.body ≠ [] then
      setHeader r3 (str "Content-Type") (str "text/plain") else r3
  let r5 := if !hasHeader r4 (str "Content-Length") && r4.body = [] then
      setHeader r4 (str "Content-Length") (str "0") else r4
  let r6 := if !hasHeader r5 (str "Accept-Ranges") && m = .head then
      setHeader r5 (str "Accept-Ranges") (str "bytes") else r5
  { r6 with body := if m = .head then [] else r6.body }

/-- The reply of a handler before it is sent: status and `response`
(/repo/src/brski/http/http.hpp:43-47). -/
structure Reply where
  status : Nat
  body : Bytes
deriving Repr, DecidableEq

/-- The content type each handler sets before anything else (/repo/src/brski/registrar/registrar_api.cpp:150,318,
334,350,374, /repo/src/brski/masa/masa_api.cpp:79,197,213,229,245,261,277,293,309,325). -/
def Endpoint.contentType : Endpoint → Bytes
  | .registrarRequestVoucher => str "application/voucher-cms+json"
  | _ => str "text/plain"

/-- The handlers that are not implemented answer with a constant (/repo/src/brski/registrar/registrar_api.cpp:306-352,
/repo/src/brski/masa/masa_api.cpp:185-327). -/
def Endpoint.stub : Endpoint → Option Reply
  | .registrarRequestVoucher => none
  | .registrarVoucherStatus => some ⟨200, str "registrar_voucher_status"⟩
  | .registrarRequestAuditLog => some ⟨200, str "registrar_requestauditlog"⟩
  | .registrarEnrollStatus => some ⟨200, str "registrar_enrollstatus"⟩
  | .registrarSimpleEnroll => none
  | .masaRequestVoucher => none
  | .masaVoucherStatus => some ⟨200, str "masa_voucher_status"⟩
  | .masaRequestAuditLog => some ⟨200, str "masa_requestauditlog"⟩
  | .masaEnrollStatus => some ⟨200, str "masa_enrollstatus"⟩
  | .masaCaCerts => some ⟨503, str "get_est_cacerts"⟩
  | .masaSimpleEnroll => some ⟨503, str "post_est_simpleenroll"⟩
  | .masaSimpleReenroll => some ⟨503, str "post_est_simplereenroll"⟩
  | .masaFullCmc => some ⟨503, str "post_est_fullcmc"⟩
  | .masaServerKeygen => some ⟨503, str "post_est_serverkeygen"⟩
  | .masaCsrAttrs => some ⟨503, str "get_est_csrattrs"⟩

/-- `Server::process_request` (/repo/src/brski/http/httplib.h:6985-7125): the answer to a request line.  `dyn` are
the replies of the implemented handlers to this request (modelled in `Server.lean`), `close` tells whether the
connection is closed afterwards. -/
def process (rs : List Route) (dyn : Endpoint → Reply) (close : Bool) (line : Bytes) : Res :=
  if 8192 < line.length then writeResponse close .get false ⟨414, [], []⟩
  else
    match parseRequestLine line with
    | none => writeResponse close (refusedMethod line) false ⟨400, [], []⟩
    | some l =>
      match routing rs l with
      | none => writeResponse close l.method false ⟨400, [], []⟩
      | some none => writeResponse close l.method false ⟨404, [], []⟩
      | some (some e) =>
        let r := e.stub.getD (dyn e)
        writeResponse close l.method true (setResponse ⟨0, [], []⟩ r.body [(str "Content-Type", e.contentType)] r.status)

end Brski.Routes
