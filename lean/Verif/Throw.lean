import Verif.Conn

/-!
# Handlers that end with an exception (model)

`Conn` with handlers that return or throw: `Server::process_request` catches what `routing` throws
(/repo/src/brski/http/httplib.h:7075-7112) and calls the exception handler of
/repo/src/brski/http/httplib_wrapper.cpp:174-189.  A handler that throws leaves the response as it was, because `set_response`
is called behind it (/repo/src/brski/http/httplib_wrapper.cpp:68-70).

Simplified as `Conn`; the exception handler and the code outside `routing` throw nothing (there an exception ends the process,
see C96).
-/

namespace Brski.Throw
open Outcome Routes Wire Ranges Conn

/-- What is thrown: something derived from `std::exception`, with its text, or anything else
(/repo/src/brski/http/httplib_wrapper.cpp:179-185). -/
inductive Exc where
  | std (what : Bytes)
  | other
deriving DecidableEq

/-- How a handler ends (/repo/src/brski/http/httplib_wrapper.cpp:68-70, /repo/src/brski/http/httplib.h:7079-7103). -/
inductive Ran where
  | returned (r : Reply)
  | threw (x : Exc)
deriving DecidableEq

/-- The text written to `buf`: at most `BUFSIZ - 1` characters, /repo/src/brski/http/httplib_wrapper.cpp:178-185. -/
def excText : Exc → Bytes
  | .std what => (BoolTime.cstr what).take 8191
  | .other => (str "Unknown Exception").take 8191

/-- The exception handler, /repo/src/brski/http/httplib_wrapper.cpp:174-189. -/
def excHandler (r : Res) (x : Exc) : Res := { setContent r (excText x) (str "text/plain") with status := 505 }

/-- `Ranges.answer` with the `try` around `routing`, /repo/src/brski/http/httplib.h:7068-7124.  The handlers that are not
implemented throw nothing. -/
def answer (rs : List Route) (dyn : Endpoint → Ran) (close : Bool) (rg : List Rng) (bd : Bytes) (l : Line) : Res :=
  match routing rs l with
  | none => respond close l.method rg bd false ⟨400, [], []⟩
  | some none => respond close l.method rg bd false ⟨404, [], []⟩
  | some (some e) =>
    match (e.stub.map Ran.returned).getD (dyn e) with
    | .returned r =>
      respond close l.method rg bd true (setResponse ⟨0, [], []⟩ r.body [(str "Content-Type", e.contentType)] r.status)
    | .threw x => respond close l.method rg bd true (excHandler ⟨0, [], []⟩ x)

/-- A line that is too long or not understood runs no handler (/repo/src/brski/http/httplib.h:7014-7027). -/
def noHandler : Endpoint → Reply := fun _ => ⟨0, []⟩

/-- `Conn.serveNext` with handlers that may throw, /repo/src/brski/http/httplib.h:6982-7125. -/
def serveNext (rs : List Route) (mp : Multipart) (bd : Bytes) (stop : Bytes → Nat) (dyn : List Field → Bytes → Endpoint → Ran)
    (close : Bool) (s : Bytes) : Outcome (Option Done) :=
  match getLine s with
  | none => .ok none
  | some (l, r) =>
    match if 8192 < l.length then none else parseRequestLine l with
    | none => .ok (some ⟨false, process rs noHandler close l, none, if 8192 < l.length then afterLines r else r, false⟩)
    | some line =>
      match readLines r with
      | (ls, none) =>
        .ok (some ⟨false, respond (closes close (readHeaders ls)) line.method [] bd false ⟨400, [], []⟩, none, afterLines r, false⟩)
      | (ls, some r) =>
        let hs := readHeaders ls
        let rg := (rangesOf hs).1
        if (rangesOf hs).2 = false then
          .ok (some ⟨false, respond (closes close hs) line.method rg bd false ⟨416, [], []⟩, none, r, asksClose l hs⟩)
        else
          let interim := headerValue hs (str "Expect") == str "100-continue"
          if expectsContent line.method then
            (readBody mp line.method hs r).bind fun b =>
            match b with
            | .error st =>
              .ok (some ⟨interim, respond (closes close hs) line.method rg bd false ⟨st, [], []⟩, none,
                bodyRest mp stop line.method hs r, asksClose l hs⟩)
            | .ok (b, more) =>
              let hs' := readHeaders (ls ++ more)
              .ok (some ⟨interim, answer rs (dyn hs' b) (closes close hs') rg bd line, runs rs line hs' b,
                bodyRest mp stop line.method hs r, asksClose l hs⟩)
          else .ok (some ⟨interim, answer rs (dyn hs []) (closes close hs) rg bd line, runs rs line hs [], r, asksClose l hs⟩)

/-- What the environment decides, as `Conn.Env` has it, with handlers that may throw
(/repo/src/brski/http/httplib.h:3091-3132,6420-6430,7075-7112). -/
structure Env where
  alive : Nat → Bool
  sent : Nat → Bool
  bd : Nat → Bytes
  stop : Nat → Bytes → Nat
  dyn : Nat → List Field → Bytes → Endpoint → Ran

/-- The loop of `process_server_socket_core`, /repo/src/brski/http/httplib.h:3112-3132. -/
def loop (rs : List Route) (mp : Multipart) (E : Env) (k : Nat) : Nat → Bytes → Outcome (List Done)
  | 0, _ => .ok []
  | n + 1, s =>
    if E.alive k then
      (serveNext rs mp (E.bd k) (E.stop k) (E.dyn k) (n == 0) s).bind fun d =>
      match d with
      | none => .ok []
      | some d =>
        if !E.sent k || d.closed then .ok [d]
        else (loop rs mp E (k + 1) n d.rest).bind fun ds => .ok (d :: ds)
    else .ok []

/-- A connection, /repo/src/brski/http/httplib.h:21-23,3112-3132. -/
def connection (rs : List Route) (mp : Multipart) (E : Env) (s : Bytes) : Outcome (List Done) := loop rs mp E 0 5 s

end Brski.Throw
