import Verif.Conn

/-!
# Sending replies (model)

`Server::write_response_core` (/repo/src/brski/http/httplib.h:6346-6430) hands the head of a reply and then its body to
`detail::write_data` (4304-4315), which calls `SSLSocketStream::write` (8826-8858).  `Conn` has what is sent; here is what of it gets to
the client when sending fails.

Simplified: `SSL_write` does not return 0 (OpenSSL returns a negative number when it fails, unless the length is 0, which does not
occur); time is not measured, a call of `select` finds the socket writable or not; data that are pending in the session are not mistaken for
other data because these lie at the same address.
-/

namespace Brski.Send
open Outcome Routes Wire Conn

/-- The result of a call of `SSL_write`, /repo/src/brski/http/httplib.h:8831,8844.  `SSL_MODE_ENABLE_PARTIAL_WRITE` is not set, so a
call that succeeds has written everything; one that has to be repeated, or that fails, may have sent `n` more bytes. -/
inductive Ssl where
  | done
  | want (n : Nat)
  | fail (n : Nat)
deriving Repr, DecidableEq

/-- What a call of `is_writable`, /repo/src/brski/http/httplib.h:8787-8790, and the call of `SSL_write` behind it meet. -/
structure Try where
  writable : Bool
  result : Ssl
deriving Repr, DecidableEq

/-- The sending side of a connection (/repo/src/brski/http/httplib.h:8826-8858): the events to come; whether the session is unusable:
it failed, or data are pending in it that are not going to be written again, so that OpenSSL refuses every other call (`bad write
retry`). -/
structure Side where
  tries : List Try
  dead : Bool
deriving Repr, DecidableEq

/-- The calls of `SSL_write` for the data `d`, /repo/src/brski/http/httplib.h:8826-8857, of which `n` are left; `begun`: there was one,
`p` bytes are sent.  With whether everything was written, what is sent, and the side afterwards. -/
def attempts (d : Bytes) : Nat → Bool → Nat → List Try → Bool × Bytes × Side
  | 0, _, p, ts => (false, d.take p, ⟨ts, true⟩)
  | _ + 1, _, p, [] => (false, d.take p, ⟨[], true⟩)
  | n + 1, begun, p, t :: ts =>
    if t.writable then
      match t.result with
      | .done => (true, d, ⟨ts, false⟩)
      | .want m => attempts d n true (p + m) ts
      | .fail m => (false, d.take (p + m), ⟨ts, true⟩)
    else (false, d.take p, ⟨ts, begun⟩)

/-- The largest number of bytes written at once, /repo/src/brski/http/httplib.h:8828-8829. -/
def intMax : Nat := 2147483647

/-- `SSLSocketStream::write`, /repo/src/brski/http/httplib.h:8826-8858: a call and up to 1000 repetitions. -/
def Side.write (s : Side) (d : Bytes) : Bool × Bytes × Side :=
  if s.dead then (false, [], s) else attempts (d.take intMax) 1001 false 0 s.tries

/-- `write_data`, /repo/src/brski/http/httplib.h:4304-4315. -/
def writeData (s : Side) : Bytes → Bool × Bytes × Side
  | [] => (true, [], s)
  | c :: d =>
    let r := s.write (c :: d)
    if r.1 then
      let q := writeData r.2.2 ((c :: d).drop intMax)
      (q.1, r.2.1 ++ q.2.1, q.2.2)
    else r
termination_by d => d.length
decreasing_by simp [intMax]; omega

/-- Status line and fields of a reply, /repo/src/brski/http/httplib.h:6391-6407. -/
def headText (r : Res) : Bytes :=
  str "HTTP/1.1 " ++ BoolTime.natDec r.status ++ [32] ++ reason r.status ++ [13, 10] ++ fieldsText r.headers

/-- The last part of `write_response_core`, /repo/src/brski/http/httplib.h:6388-6430: the result for the head is not looked at (6407).  A
reply to HEAD has no body here. -/
def sendReply (s : Side) (r : Res) : Bool × Bytes × Side :=
  let h := writeData s (headText r)
  if r.body = [] then (true, h.2)
  else
    let b := writeData h.2.2 r.body
    (b.1, h.2.1 ++ b.2.1, b.2.2)

/-- The interim reply, /repo/src/brski/http/httplib.h:7066-7067. -/
def interimText : Bytes := str "HTTP/1.1 100 Continue\r\n\r\n"

/-- The interim reply, if there is one, is written by one call, the result is not looked at (/repo/src/brski/http/httplib.h:7059-7073,
`write_format` at 1836-1860). -/
def sendInterim (s : Side) (d : Done) : Bytes × Side := if d.interim then (s.write interimText).2 else ([], s)

/-- The loop of `process_server_socket_core`, /repo/src/brski/http/httplib.h:3112-3132, as `Conn.loop` has it, with what the client
receives. -/
def loop (rs : List Route) (mp : Multipart) (E : Conn.Env) (k : Nat) : Nat → Side → Bytes → Outcome (List Done × Bytes)
  | 0, _, _ => .ok ([], [])
  | n + 1, s, inp =>
    if E.alive k then
      (serveNext rs mp (E.bd k) (E.stop k) (E.dyn k) (n == 0) inp).bind fun d =>
      match d with
      | none => .ok ([], [])
      | some d =>
        let i := sendInterim s d
        let r := sendReply i.2 d.reply
        if !r.1 || d.closed then .ok ([d], i.1 ++ r.2.1)
        else (loop rs mp E (k + 1) n r.2.2 d.rest).bind fun q => .ok (d :: q.1, i.1 ++ r.2.1 ++ q.2)
    else .ok ([], [])

/-- A connection: `CPPHTTPLIB_KEEPALIVE_MAX_COUNT` requests at most (/repo/src/brski/http/httplib.h:21-23,3112-3132). -/
def connection (rs : List Route) (mp : Multipart) (E : Conn.Env) (ts : List Try) (inp : Bytes) : Outcome (List Done × Bytes) :=
  loop rs mp E 0 5 ⟨ts, false⟩ inp

/-- A POST and what the client makes of what it receives, /repo/src/brski/http/httplib.h:7621-7738,6982-7125. -/
def exchange (rs : List Route) (mp : Multipart) (dyn : List Field → Bytes → Endpoint → Reply) (close : Bool) (ts : List Try)
    (host path ctype body : Bytes) : Outcome (Option (Nat × Bytes)) :=
  (serve rs mp dyn close (requestText host path ctype body)).bind fun r =>
  match r with
  | none => .ok none
  | some w => readReply (sendReply ⟨ts, false⟩ w).2.1

end Brski.Send
