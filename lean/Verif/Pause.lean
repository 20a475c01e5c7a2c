import Verif.CutConn

/-!
# Connections whose client pauses (model)

A read that finds nothing for five seconds fails (/repo/src/brski/http/httplib.h:8792-8824, see `Reading`), but the connection is still
there.  `process_request` (6982-7125) then answers with status 400 or, in the first line, gives up; unless it gives up, the loop of
`process_server_socket_core` (3112-3132) waits another five seconds for the next request and reads what arrives then.  Here a connection
is what arrives before the first pause, and what arrives after each of them.

Simplified: a request reads nothing after a read that failed, so that a pause lies between what `CutConn` reads from one part and what it
reads from the next; a part arrives while `keep_alive` (3091-3110) waits, or not at all.
-/

namespace Brski.Pause
open Outcome Routes Conn Cut

/-- Where the next request begins: in what is left, or after the pause (/repo/src/brski/http/httplib.h:3112-3132). -/
def next (t : Strm) (later : List Strm) : Strm × List Strm :=
  if t.bytes = [] then
    match later with
    | [] => (t, [])
    | u :: us => (u, us)
  else (t, later)

/-- The loop of `process_server_socket_core`, /repo/src/brski/http/httplib.h:3112-3132, see `CutConn.loop`. -/
def loop (rs : List Route) (ok : Bytes → Bool) (E : Env) (k : Nat) : Nat → Strm → List Strm → Outcome (List Done)
  | 0, _, _ => .ok []
  | n + 1, s, later =>
    if E.alive k then
      (CutConn.serveNext rs ok (E.bd k) (E.dyn k) (n == 0) s).bind fun d =>
      match d with
      | none => .ok []
      | some (d, t) =>
        if !E.sent k || d.closed then .ok [d]
        else (loop rs ok E (k + 1) n (next t later).1 (next t later).2).bind fun ds => .ok (d :: ds)
    else .ok []

/-- A connection (/repo/src/brski/http/httplib.h:21-23,3112-3132). -/
def connection (rs : List Route) (ok : Bytes → Bool) (E : Env) (s : Strm) (later : List Strm) : Outcome (List Done) :=
  loop rs ok E 0 5 s later

end Brski.Pause
