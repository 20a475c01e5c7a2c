import Verif.Base

/-!
# A connection of a server, from `accept` to `close` (model)

`SSLServer::process_and_close_socket` (/repo/src/brski/http/httplib.h:8970-9000), which runs in a thread of the pool, with `ssl_new`,
`ssl_connect_or_accept_nonblocking`, `ssl_delete` (8663-8733), `process_server_socket_core` and `keep_alive` (3091-3131).  What is
read and answered in between is in `Conn` and `Send`; here it is what is acquired and released, in which order, and how long it takes.

Time is in milliseconds.  The limits are those of this project: five seconds for each wait during the handshake
(`CPPHTTPLIB_READ_TIMEOUT_SECOND`, 33-35,924), five seconds of idleness and five requests (21-23,17-19).
Simplified: exceptions do not leave `process_request` (C96, C111 are about those).
-/

namespace Brski.Session

/-- What a connection does (/repo/src/brski/http/httplib.h:8663-9000): lock and unlock `ctx_mutex_`; create and free the session;
make the socket nonblocking or blocking; call `SSL_accept`, with the answer that the handshake is complete or not; wait in `select`;
call `SSL_shutdown`; handle a request; shut down and close the socket. -/
inductive Ev where
  | lock
  | unlock
  | create
  | free
  | nonblocking (on : Bool)
  | accept (complete : Bool)
  | wait
  | goodbye
  | request
  | shut
  | close
deriving Repr, DecidableEq

/-- What a call of `SSL_accept` leads to (/repo/src/brski/http/httplib.h:8713-8728): the handshake is complete; the session waits to
read or to write, with the result of `select` and the time it took; another error. -/
inductive Shake where
  | complete
  | wantRead (ready : Int) (ms : Nat)
  | wantWrite (ready : Int) (ms : Nat)
  | failed
deriving Repr, DecidableEq

/-- One turn of the loop over requests (/repo/src/brski/http/httplib.h:3120-3129): whether `svr_sock_` is still valid, the results of
`select` in `keep_alive` with the time until the next one, and what `process_request` gives: its result, `connection_closed`, and the
time it took. -/
structure Turn where
  valid : Bool
  polls : List (Int × Nat)
  ret : Bool
  closed : Bool
  ms : Nat
deriving Repr, DecidableEq

/-- What the client and the system do: whether `SSL_new` gives a session (/repo/src/brski/http/httplib.h:8670), the handshake, the
requests.  After the end of a list the client has gone. -/
structure Client where
  session : Bool
  shakes : List Shake
  turns : List Turn
deriving Repr, DecidableEq

/-- `ssl_connect_or_accept_nonblocking`, /repo/src/brski/http/httplib.h:8706-8733: whether the handshake succeeded, the events, the
time. -/
def handshake : List Shake → Bool × List Ev × Nat
  | [] => (false, [.accept false], 0)
  | .complete :: _ => (true, [.accept true], 0)
  | .failed :: _ => (false, [.accept false], 0)
  | .wantRead ready ms :: ss | .wantWrite ready ms :: ss =>
    if ready > 0 then ((handshake ss).1, .accept false :: .wait :: (handshake ss).2.1, ms + (handshake ss).2.2)
    else (false, [.accept false, .wait], ms)

/-- `ssl_new`, /repo/src/brski/http/httplib.h:8663-8692: whether there is a session, the events, the time. -/
def sslNew (C : Client) : Bool × List Ev × Nat :=
  if C.session then
    let h := handshake C.shakes
    if h.1 then (true, [.lock, .create, .unlock, .nonblocking true] ++ h.2.1 ++ [.nonblocking false], h.2.2)
    else (false, [.lock, .create, .unlock, .nonblocking true] ++ h.2.1 ++ [.goodbye, .lock, .free, .unlock, .nonblocking false], h.2.2)
  else (false, [.lock, .unlock], 0)

/-- `keep_alive`, /repo/src/brski/http/httplib.h:3091-3110, `spent` milliseconds after its start: whether there is something to read,
and the time it took.  When `select` fails, or when it found nothing for more than five seconds, it gives up. -/
def keepAlive (spent : Nat) : List (Int × Nat) → Bool × Nat
  | [] => (false, spent)
  | (val, ms) :: ps =>
    if val < 0 then (false, spent + ms)
    else if val = 0 then
      if spent + ms > 5 * 1000 then (false, spent + ms) else keepAlive (spent + ms) ps
    else (true, spent + ms)

/-- `process_server_socket_core`, /repo/src/brski/http/httplib.h:3112-3131, with `count` requests to go and the result so far: its
result, the events, the time. -/
def serve : Nat → Bool → List Turn → Bool × List Ev × Nat
  | 0, ret, _ => (ret, [], 0)
  | _ + 1, ret, [] => (ret, [], 0)
  | count + 1, ret, t :: ts =>
    if t.valid then
      let k := keepAlive 0 t.polls
      if k.1 then
        if !t.ret || t.closed then (t.ret, [.request], k.2 + t.ms)
        else ((serve count t.ret ts).1, .request :: (serve count t.ret ts).2.1, k.2 + t.ms + (serve count t.ret ts).2.2)
      else (ret, [], k.2)
    else (ret, [], 0)

/-- `ssl_delete`, /repo/src/brski/http/httplib.h:8694-8704. -/
def sslDelete (gracefully : Bool) : List Ev := (if gracefully then [.goodbye] else []) ++ [.lock, .free, .unlock]

/-- `SSLServer::process_and_close_socket`, /repo/src/brski/http/httplib.h:8970-9000: its result, the events, the time. -/
def process (C : Client) : Bool × List Ev × Nat :=
  let n := sslNew C
  if n.1 then
    let r := serve 5 false C.turns
    (r.1, n.2.1 ++ r.2.1 ++ sslDelete r.1 ++ [.shut, .close], n.2.2 + r.2.2)
  else (false, n.2.1 ++ [.shut, .close], n.2.2)

end Brski.Session
