import Verif.Conn

/-!
# Several requests on one TLS connection (model)

TLS delivers the bytes of a connection in records.  OpenSSL decrypts a record as a whole and keeps what the program has not
read yet; the records behind it stay in the socket (`SSL_read` without read-ahead, which is the default and is not changed).
Before each request `keep_alive` (/repo/src/brski/http/httplib.h:3091-3111) waits until the *socket* is readable: it does not see
what OpenSSL has already taken from it (`SSL_pending` is asked in `SSLSocketStream::read` only, 8793).

Here all records have arrived, and the client waits for its replies: nothing more comes, so that the socket is readable exactly
when a record is left in it.
-/

namespace Brski.Records
open Outcome Routes Wire Ranges Conn

/-- The records left in the socket when `n` bytes of the connection have not been read
(/repo/src/brski/http/httplib.h:8792-8824): a record is taken from the socket when its first byte is read. -/
def inSocket : List Bytes → Nat → List Bytes
  | [], _ => []
  | r :: rs, n => if (r :: rs).flatten.length ≤ n then r :: rs else inSocket rs n

/-- The loop of `process_server_socket_core` with `keep_alive`, /repo/src/brski/http/httplib.h:3091-3132: `s` has not been read, the
records `recs` of it are in the socket; `k` requests were handled, `n` more may be. -/
def loop (rs : List Route) (mp : Multipart) (E : Env) (k : Nat) : Nat → Bytes → List Bytes → Outcome (List Done)
  | 0, _, _ => .ok []
  | n + 1, s, recs =>
    if E.alive k && !recs.isEmpty then
      (serveNext rs mp (E.bd k) (E.stop k) (E.dyn k) (n == 0) s).bind fun d =>
      match d with
      | none => .ok []
      | some d =>
        if !E.sent k || d.closed then .ok [d]
        else (loop rs mp E (k + 1) n d.rest (inSocket recs d.rest.length)).bind fun ds => .ok (d :: ds)
    else .ok []

/-- A connection over TLS on which these records arrive, /repo/src/brski/http/httplib.h:21-23,3112-3132,8970-9000. -/
def connection (rs : List Route) (mp : Multipart) (E : Env) (recs : List Bytes) : Outcome (List Done) :=
  loop rs mp E 0 5 recs.flatten recs

end Brski.Records
