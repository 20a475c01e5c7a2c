import Verif.Cut
import Verif.Conn

/-!
# Connections whose requests arrive in pieces (model)

`Conn` reads a whole connection as one list of bytes.  Here each read gets what the network has delivered, as in `Cut`, and what a
request leaves unread is the rest of the connection with the pieces still to come.  The functions with `Rest` in their names follow
those of `Cut` and say where reading stops, whether it succeeds or not.
-/

namespace Brski.CutConn
open Outcome Routes Wire Ranges Conn Cut

/-- A connection from which everything was read (/repo/src/brski/http/httplib.h:2724-2750). -/
def spent (s : Strm) : Strm := ⟨[], [], s.orderly⟩

/-- Where `read_headers` stops, /repo/src/brski/http/httplib.h:4018-4063. -/
def linesRest (s : Strm) : Strm :=
  match h : getline [] s with
  | none => spent s
  | some (l, r) =>
    have := getline_lt h
    if endsCrlf l = true ∧ (l.length = 2 ∨ l.length > 8192) then r else linesRest r
termination_by s.bytes.length

variable {σ : Type}

/-- Where `read_content_with_length` stops, /repo/src/brski/http/httplib.h:4065-4090. -/
def lengthRest (out : σ → Bytes → Option σ) (len : Nat) (x : σ) (s : Strm) : Strm :=
  if hl : len = 0 then s
  else
    match h : s.read (min len 4096) with
    | .data b s' =>
      have := read_lt (by omega) h
      match out x b with
      | none => s'
      | some x => lengthRest out (len - b.length) x s'
    | _ => s
termination_by s.bytes.length

/-- Where `read_content_without_length` stops, /repo/src/brski/http/httplib.h:4105-4122. -/
def endRest (out : σ → Bytes → Option σ) (x : σ) (s : Strm) : Strm :=
  match h : s.read 4096 with
  | .data b s' =>
    have := read_lt (by decide) h
    match out x b with
    | none => s'
    | some x => endRest out x s'
  | _ => s
termination_by s.bytes.length

/-- Where the loop over the chunks stops, /repo/src/brski/http/httplib.h:4137-4169. -/
def chunksRest (out : σ → Bytes → Option σ) (line : Bytes) (x : σ) (s : Strm) : Strm :=
  match strtoull 16 line with
  | none => s
  | some n =>
    if n = 2 ^ 64 - 1 ∨ n = 0 then s
    else
      match h0 : withLength out n x s with
      | none => lengthRest out n x s
      | some (x, s0) =>
        have := withLength_le h0
        match h1 : getline [] s0 with
        | none => spent s0
        | some (l, r) =>
          have := getline_lt h1
          if BoolTime.cstr l ≠ [13, 10] then r
          else
            match h2 : getline [] r with
            | none => spent r
            | some (l2, r2) =>
              have := getline_lt h2
              chunksRest out l2 x r2
termination_by s.bytes.length

/-- Where the trailer ends or is given up, /repo/src/brski/http/httplib.h:4173-4197. -/
def trailerRest (s : Strm) : Strm :=
  match h : getline [] s with
  | none => spent s
  | some (l, r) =>
    have := getline_lt h
    if BoolTime.cstr l = [13, 10] ∨ l.length > 8192 then r else trailerRest r
termination_by s.bytes.length

/-- What `read_content` leaves unread, /repo/src/brski/http/httplib.h:4065-4284. -/
def contentRest (out : σ → Bytes → Option σ) (x : σ) (hs : List Field) (s : Strm) : Strm :=
  let enc := headerValue hs (str "Content-Encoding")
  if enc = str "gzip" ∨ enc = str "deflate" ∨ hasBr enc = true then s
  else if isChunked hs then
    match getline [] s with
    | none => spent s
    | some (l, r) =>
      match chunks out l x r with
      | none => chunksRest out l x r
      | some (_, r) => trailerRest r
  else if !hasField hs (str "Content-Length") then endRest out x s
  else lengthRest out (contentLength hs) x s

/-- What `Server::read_content` leaves unread, /repo/src/brski/http/httplib.h:6483-6523,6534-6588. -/
def bodyRest (ok : Bytes → Bool) (m : Method) (hs : List Field) (s : Strm) : Strm :=
  let ct := headerValue hs (str "Content-Type")
  if startsWith (str "multipart/form-data") ct then
    match boundaryOf ct with
    | none => s
    | some bd =>
      if m = .delete ∧ hasField hs (str "Content-Length") = false then s
      else contentRest (Parser.parse ok) (Parser.new bd) hs s
  else if m = .delete ∧ hasField hs (str "Content-Length") = false then s
  else contentRest append [] hs s

/-- What a request does and leaves (/repo/src/brski/http/httplib.h:6982-7125). -/
def leave (interim : Bool) (reply : Res) (ran : Option (Endpoint × List Field × Bytes)) (rest : Strm) (closed : Bool) :
    Outcome (Option (Done × Strm)) := .ok (some (⟨interim, reply, ran, rest.bytes, closed⟩, rest))

/-- `Server::process_request`, /repo/src/brski/http/httplib.h:6982-7125, see `Conn.serveNext`. -/
def serveNext (rs : List Route) (ok : Bytes → Bool) (bd : Bytes) (dyn : List Field → Bytes → Endpoint → Reply) (close : Bool)
    (s : Strm) : Outcome (Option (Done × Strm)) :=
  match getline [] s with
  | none => .ok none
  | some (l, r) =>
    match if 8192 < l.length then none else parseRequestLine l with
    | none => leave false (process rs (dyn [] []) close l) none (if 8192 < l.length then linesRest r else r) false
    | some line =>
      match readLines r with
      | (ls, none) => leave false (respond (closes close (readHeaders ls)) line.method [] bd false ⟨400, [], []⟩) none (linesRest r) false
      | (ls, some r) =>
        let hs := readHeaders ls
        let rg := (rangesOf hs).1
        if (rangesOf hs).2 = false then
          leave false (respond (closes close hs) line.method rg bd false ⟨416, [], []⟩) none r (asksClose l hs)
        else
          let interim := headerValue hs (str "Expect") == str "100-continue"
          if expectsContent line.method then
            (Cut.readBody ok line.method hs r).bind fun b =>
            match b with
            | .error st =>
              leave interim (respond (closes close hs) line.method rg bd false ⟨st, [], []⟩) none (bodyRest ok line.method hs r)
                (asksClose l hs)
            | .ok (b, more) =>
              let hs' := readHeaders (ls ++ more)
              leave interim (answer rs (dyn hs' b) (closes close hs') rg bd line) (runs rs line hs' b) (bodyRest ok line.method hs r)
                (asksClose l hs)
          else leave interim (answer rs (dyn hs []) (closes close hs) rg bd line) (runs rs line hs []) r (asksClose l hs)

/-- The loop of `process_server_socket_core`, /repo/src/brski/http/httplib.h:3112-3132, see `Conn.loop`; the parser for multipart
content is that of `Cut`, so `E.stop` is not used. -/
def loop (rs : List Route) (ok : Bytes → Bool) (E : Env) (k : Nat) : Nat → Strm → Outcome (List Done)
  | 0, _ => .ok []
  | n + 1, s =>
    if E.alive k then
      (serveNext rs ok (E.bd k) (E.dyn k) (n == 0) s).bind fun d =>
      match d with
      | none => .ok []
      | some (d, t) =>
        if !E.sent k || d.closed then .ok [d]
        else (loop rs ok E (k + 1) n t).bind fun ds => .ok (d :: ds)
    else .ok []

/-- A connection (/repo/src/brski/http/httplib.h:21-23,3112-3132). -/
def connection (rs : List Route) (ok : Bytes → Bool) (E : Env) (s : Strm) : Outcome (List Done) := loop rs ok E 0 5 s

end Brski.CutConn
