import Verif.Wire
import Verif.Ranges

/-!
# Several requests on one connection (model)

`process_server_socket_core` (/repo/src/brski/http/httplib.h:3112-3132) around `Server::process_request`, with what each
request leaves unread for the next one.  TLS delivers the bytes one after another, and nothing is read ahead
(`SSLSocketStream`), so what is left over is exactly what was not read.

`Range` and `Expect` fields are respected, in contrast to `Wire`.  Simplified as there: all bytes of the connection are there
from the beginning.
-/

namespace Brski.Conn
open Outcome Routes Wire Ranges

/-- Where `read_headers` stops, /repo/src/brski/http/httplib.h:4018-4063. -/
def afterLines (s : Bytes) : Bytes :=
  match h : getLine s with
  | none => []
  | some (l, r) =>
    have := getLine_lt h
    if endsCrlf l = true ∧ (l.length = 2 ∨ l.length > 8192) then r else afterLines r
termination_by s.length

/-- Where the loop over the chunks stops when it fails, /repo/src/brski/http/httplib.h:4137-4169. -/
def chunksStop (line s : Bytes) : Bytes :=
  match strtoull 16 line with
  | none => s
  | some n =>
    if n = 2 ^ 64 - 1 ∨ n = 0 then s
    else if s.length < n then []
    else
      match h1 : getLine (s.drop n) with
      | none => []
      | some (l, r) =>
        have := getLine_lt h1
        if BoolTime.cstr l ≠ [13, 10] then r
        else
          match h2 : getLine r with
          | none => []
          | some (l2, r2) =>
            have := getLine_lt h2
            have : r2.length < s.length := by simp only [List.length_drop] at *; omega
            chunksStop l2 r2
termination_by s.length

/-- Where the trailer ends or is given up, /repo/src/brski/http/httplib.h:4173-4197. -/
def trailerStop (s : Bytes) : Bytes :=
  match h : getLine s with
  | none => []
  | some (l, r) =>
    have := getLine_lt h
    if BoolTime.cstr l = [13, 10] ∨ l.length > 8192 then r else trailerStop r
termination_by s.length

/-- What `read_content` leaves unread, /repo/src/brski/http/httplib.h:4065-4284, whether it succeeds or not. -/
def contentRest (hs : List Field) (s : Bytes) : Bytes :=
  let enc := headerValue hs (str "Content-Encoding")
  if enc = str "gzip" ∨ enc = str "deflate" ∨ hasBr enc = true then s
  else if isChunked hs then
    match getLine s with
    | none => []
    | some (l, r) =>
      match chunks l r with
      | none => chunksStop l r
      | some (_, r) => trailerStop r
  else if !hasField hs (str "Content-Length") then []
  else s.drop (contentLength hs)

/-- What `Server::read_content` leaves unread, /repo/src/brski/http/httplib.h:6483-6523,6534-6588.  The parser for multipart
content may stop anywhere (`stop`). -/
def bodyRest (mp : Multipart) (stop : Bytes → Nat) (m : Method) (hs : List Field) (s : Bytes) : Bytes :=
  let ct := headerValue hs (str "Content-Type")
  let multi := startsWith (str "multipart/form-data") ct
  if multi && !mp.boundary ct then s
  else if m = .delete ∧ hasField hs (str "Content-Length") = false then s
  else if multi then
    match readContent hs s with
    | .ok (.read b r _) => if mp.valid ct b then r else s.drop (stop s)
    | _ => s.drop (stop s)
  else contentRest hs s

/-- The third word of a request line, /repo/src/brski/http/httplib.h:6253-6281. -/
def versionOf (line : Bytes) : Bytes :=
  let s := BoolTime.cstr line
  (splitAll 32 (s.take (s.length - 2))).getD 2 []

/-- The server ends the connection after this request: `connection_closed`, /repo/src/brski/http/httplib.h:7028-7035. -/
def asksClose (line : Bytes) (hs : List Field) : Bool :=
  headerValue hs (str "Connection") == str "close" ||
    (versionOf line == str "HTTP/1.0" && headerValue hs (str "Connection") != str "Keep-Alive")

/-- What one request does: whether `100 Continue` is sent first, the reply, the handler that ran with fields and body, what is
left unread and whether the server ends the connection (/repo/src/brski/http/httplib.h:6982-7125). -/
structure Done where
  interim : Bool
  reply : Res
  ran : Option (Endpoint × List Field × Bytes)
  rest : Bytes
  closed : Bool
deriving DecidableEq

/-- The handler for a request line (/repo/src/brski/http/httplib.h:6789-6900). -/
def runs (rs : List Route) (line : Line) (hs : List Field) (b : Bytes) : Option (Endpoint × List Field × Bytes) :=
  match routing rs line with
  | some (some e) => some (e, hs, b)
  | _ => none

/-- The ranges of a request and whether they are understood, /repo/src/brski/http/httplib.h:7046-7052. -/
def rangesOf (hs : List Field) : List Rng × Bool :=
  if hasField hs (str "Range") then parseRanges (headerValue hs (str "Range")) else ([], true)

/-- `Server::process_request`, /repo/src/brski/http/httplib.h:6982-7125, as `Wire.serve` has it, with `Range` and `Expect` fields
and with what it leaves behind: a line that is not understood leaves everything behind it unread, one that is too long is
followed by the reading of header lines, ranges that are not understood leave the content unread.  `bd` is the random
boundary. -/
def serveNext (rs : List Route) (mp : Multipart) (bd : Bytes) (stop : Bytes → Nat) (dyn : List Field → Bytes → Endpoint → Reply)
    (close : Bool) (s : Bytes) : Outcome (Option Done) :=
  match getLine s with
  | none => .ok none
  | some (l, r) =>
    match if 8192 < l.length then none else parseRequestLine l with
    | none => .ok (some ⟨false, process rs (dyn [] []) close l, none, if 8192 < l.length then afterLines r else r, false⟩)
    | some line =>
      match readLines r with
      | (ls, none) =>
        .ok (some ⟨false, respond (closes close (readHeaders ls)) line.method [] bd false ⟨400, [], []⟩, none, afterLines r, false⟩)
      | (ls, some r) =>
        let hs := readHeaders ls
        let rg := (rangesOf hs).1
        if (rangesOf hs).2 = false then
          .ok (some ⟨false, respond (closes close hs) line.method rg bd false ⟨416, [], []⟩, none, r, asksClose l hs⟩)
        else
          let interim := headerValue hs (str "Expect") == str "100-continue"
          if expectsContent line.method then
            (readBody mp line.method hs r).bind fun b =>
            match b with
            | .error st =>
              .ok (some ⟨interim, respond (closes close hs) line.method rg bd false ⟨st, [], []⟩, none,
                bodyRest mp stop line.method hs r, asksClose l hs⟩)
            | .ok (b, more) =>
              let hs' := readHeaders (ls ++ more)
              .ok (some ⟨interim, answer rs (dyn hs' b) (closes close hs') rg bd line, runs rs line hs' b,
                bodyRest mp stop line.method hs r, asksClose l hs⟩)
          else .ok (some ⟨interim, answer rs (dyn hs []) (closes close hs) rg bd line, runs rs line hs [], r, asksClose l hs⟩)

/-- What the environment decides (/repo/src/brski/http/httplib.h:3091-3132,6420-6430): whether the socket becomes readable in time
for the `k`th request and the server still runs, whether the reply can be sent, the random boundary, how far the parser for
multipart content reads; and the handlers, whose answers may differ from request to request. -/
structure Env where
  alive : Nat → Bool
  sent : Nat → Bool
  bd : Nat → Bytes
  stop : Nat → Bytes → Nat
  dyn : Nat → List Field → Bytes → Endpoint → Reply

/-- The loop of `process_server_socket_core`, /repo/src/brski/http/httplib.h:3112-3132: `k` requests were handled, `n` more may be. -/
def loop (rs : List Route) (mp : Multipart) (E : Env) (k : Nat) : Nat → Bytes → Outcome (List Done)
  | 0, _ => .ok []
  | n + 1, s =>
    if E.alive k then
      (serveNext rs mp (E.bd k) (E.stop k) (E.dyn k) (n == 0) s).bind fun d =>
      match d with
      | none => .ok []
      | some d =>
        if !E.sent k || d.closed then .ok [d]
        else (loop rs mp E (k + 1) n d.rest).bind fun ds => .ok (d :: ds)
    else .ok []

/-- A connection: `CPPHTTPLIB_KEEPALIVE_MAX_COUNT` requests at most (/repo/src/brski/http/httplib.h:21-23,3112-3132). -/
def connection (rs : List Route) (mp : Multipart) (E : Env) (s : Bytes) : Outcome (List Done) := loop rs mp E 0 5 s

end Brski.Conn
