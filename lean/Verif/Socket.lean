import Verif.Records

/-!
# The number of the descriptor (model)

cpp-httplib is built without `CPPHTTPLIB_USE_POLL`, so it waits with `select`, which takes descriptors below `FD_SETSIZE` (1024 on
Linux) only.  For larger ones `select_read` and `select_write` report at once that the socket is ready
(/repo/src/brski/http/httplib.h:2913-2917,2943-2947), and `process_request` answers every request with 500
(/repo/src/brski/http/httplib.h:7003-7011).
-/

namespace Brski.Socket
open Outcome Routes Wire Ranges Conn

/-- `FD_SETSIZE` of Linux, /repo/src/brski/http/httplib.h:2914,2944,7005. -/
def setSize : Nat := 1024

/-- What a call of `SSL_accept` results in (`SSL_get_error`), /repo/src/brski/http/httplib.h:8714-8729. -/
inductive Tls where
  | done
  | wantRead
  | wantWrite
  | failed
deriving DecidableEq

/-- The behaviour of the other side during the handshake (/repo/src/brski/http/httplib.h:8714-8731): the result of the `i`th call of
`SSL_accept`, and after how many milliseconds the socket becomes ready then (`none`: never). -/
structure Peer where
  res : Nat → Tls
  ready : Nat → Option Nat

/-- `select_read`/`select_write` with the time limit of the server of 5 seconds
(/repo/src/brski/http/httplib.h:33-35,2902-2960): whether the result is positive, and the milliseconds spent.  Errors of `select` are
left out. -/
def wait (sock : Nat) (r : Option Nat) : Bool × Nat :=
  if sock ≥ setSize then (true, 0)
  else
    match r with
    | some d => if d ≤ 5000 then (true, d) else (false, 5000)
    | none => (false, 5000)

/-- `ssl_connect_or_accept_nonblocking`, /repo/src/brski/http/httplib.h:8709-8733, from the `i`th call on, with `t` milliseconds spent:
the result and the time, `none` when it has not ended after `n` calls. -/
def handshake (sock : Nat) (P : Peer) : Nat → Nat → Nat → Option (Bool × Nat)
  | 0, _, _ => none
  | n + 1, i, t =>
    match P.res i with
    | .done => some (true, t)
    | .failed => some (false, t)
    | _ => if (wait sock (P.ready i)).1 then handshake sock P n (i + 1) (t + (wait sock (P.ready i)).2)
      else some (false, t + (wait sock (P.ready i)).2)

/-- `Server::process_request` with a large descriptor, /repo/src/brski/http/httplib.h:6982-7011: a line and header lines are read, the
reply is 500.  The method of the request is the empty text here, which like GET is not HEAD. -/
def refuse (bd : Bytes) (close : Bool) (s : Bytes) : Option Done :=
  (getLine s).map fun p => ⟨false, respond close .get [] bd false ⟨500, [], []⟩, none, afterLines p.2, false⟩

/-- The loop of `process_server_socket_core`, /repo/src/brski/http/httplib.h:3091-3132, with a large descriptor: `keep_alive` does not
wait. -/
def refusals (E : Env) (k : Nat) : Nat → Bytes → List Done
  | 0, _ => []
  | n + 1, s =>
    if E.alive k then
      match refuse (E.bd k) (n == 0) s with
      | none => []
      | some d => if E.sent k then d :: refusals E (k + 1) n d.rest else [d]
    else []

/-- A connection with this descriptor on which these records arrive, /repo/src/brski/http/httplib.h:3091-3132,6982-7125,8970-9000. -/
def connection (sock : Nat) (rs : List Route) (mp : Multipart) (E : Env) (recs : List Bytes) : Outcome (List Done) :=
  if sock ≥ setSize then .ok (refusals E 0 5 recs.flatten) else Records.connection rs mp E recs

end Brski.Socket
