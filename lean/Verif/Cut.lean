import Verif.Wire

/-!
# Messages that arrive in pieces (model)

`Wire` reads a connection as one list of bytes.  Here every `read` gets as many bytes as the network has delivered, at least one
and at most as many as were asked for, and the connection ends in an orderly way or fails
(/repo/src/brski/http/httplib.h:8792-8823).  The functions that read lines, header fields and content are those of `Wire`, with the
receiver the content is handed to piece by piece; among the receivers is the parser for multipart content
(/repo/src/brski/http/httplib.h:4670-4945).

Simplified: for a line of header fields inside multipart content only whether it is accepted counts (`ok`); the buffer of the
parser is the part of it that is in use.
-/

namespace Brski.Cut
open Outcome Routes Wire

/-! ## The connection -/

/-- A connection: the bytes that will arrive, the largest number of bytes that each read finds, and whether it ends in an orderly
way or with an error (/repo/src/brski/http/httplib.h:8792-8823). -/
structure Strm where
  bytes : Bytes
  cuts : List Nat
  orderly : Bool
deriving Repr, DecidableEq

/-- The result of a read: bytes, 0 or a negative number (/repo/src/brski/http/httplib.h:8792-8823). -/
inductive Got where
  | data (b : Bytes) (s : Strm)
  | eof
  | err

/-- `SSLSocketStream::read`, /repo/src/brski/http/httplib.h:8792-8823, for `n > 0`. -/
def Strm.read (s : Strm) (n : Nat) : Got :=
  if s.bytes = [] then if s.orderly then .eof else .err
  else .data (s.bytes.take (min n (max 1 (s.cuts.headD n)))) ⟨s.bytes.drop (min n (max 1 (s.cuts.headD n))), s.cuts.tail, s.orderly⟩

theorem read_lt {s s' : Strm} {n : Nat} {b : Bytes} (hn : 0 < n) (h : s.read n = .data b s') : s'.bytes.length < s.bytes.length := by
  unfold Strm.read at h
  split at h
  · split at h <;> cases h
  · rename_i hs
    cases h
    have : 0 < s.bytes.length := List.length_pos_iff.2 hs
    simp only [List.length_drop]
    omega

/-- `stream_line_reader::getline`, /repo/src/brski/http/httplib.h:2724-2750, with what was read so far. -/
def getline (acc : Bytes) (s : Strm) : Option (Bytes × Strm) :=
  match h : s.read 1 with
  | .err => none
  | .eof => if acc = [] then none else some (acc, s)
  | .data b s' =>
    have := read_lt (by decide) h
    if b = [10] then some (acc ++ b, s') else getline (acc ++ b) s'
termination_by s.bytes.length

theorem getline_le {acc l : Bytes} {s s' : Strm} (h : getline acc s = some (l, s')) : s'.bytes.length ≤ s.bytes.length := by
  unfold getline at h
  split at h
  · cases h
  · split at h
    · cases h
    · cases h; exact Nat.le_refl _
  · rename_i b t hr
    have := read_lt (by decide) hr
    split at h
    · cases h; omega
    · have := getline_le h; omega
termination_by s.bytes.length

theorem getline_lt {l : Bytes} {s s' : Strm} (h : getline [] s = some (l, s')) : s'.bytes.length < s.bytes.length := by
  unfold getline at h
  split at h
  · cases h
  · simp at h
  · rename_i b t hr
    have := read_lt (by decide) hr
    split at h
    · cases h; omega
    · have := getline_le h; omega

/-- `read_headers`, /repo/src/brski/http/httplib.h:4018-4063, see `Wire.readLines`. -/
def readLines (s : Strm) : List Bytes × Option Strm :=
  match h : getline [] s with
  | none => ([], none)
  | some (l, r) =>
    have := getline_lt h
    if endsCrlf l then
      if l.length = 2 then ([], some r)
      else if l.length > 8192 then ([], none)
      else (l.take (l.length - 2) :: (readLines r).1, (readLines r).2)
    else readLines r
termination_by s.bytes.length

/-! ## Content, handed to a receiver -/

variable {σ : Type}

/-- `read_content_with_length`, /repo/src/brski/http/httplib.h:4065-4090: reads of at most 4096 bytes; a receiver answers `none` for
`false`. -/
def withLength (out : σ → Bytes → Option σ) (len : Nat) (x : σ) (s : Strm) : Option (σ × Strm) :=
  if hl : len = 0 then some (x, s)
  else
    match h : s.read (min len 4096) with
    | .data b s' =>
      have := read_lt (by omega) h
      match out x b with
      | none => none
      | some x => withLength out (len - b.length) x s'
    | _ => none
termination_by s.bytes.length

theorem withLength_le {out : σ → Bytes → Option σ} {len : Nat} {x y : σ} {s s' : Strm} (h : withLength out len x s = some (y, s')) :
    s'.bytes.length ≤ s.bytes.length := by
  unfold withLength at h
  split at h
  · cases h; exact Nat.le_refl _
  · split at h
    · rename_i b t hr
      have := read_lt (by omega) hr
      split at h
      · cases h
      · have := withLength_le h; omega
    · cases h
termination_by s.bytes.length

/-- `read_content_without_length`, /repo/src/brski/http/httplib.h:4105-4122: an error ends the content like an orderly end. -/
def untilEnd (out : σ → Bytes → Option σ) (x : σ) (s : Strm) : Option (σ × Strm) :=
  match h : s.read 4096 with
  | .data b s' =>
    have := read_lt (by decide) h
    match out x b with
    | none => none
    | some x => untilEnd out x s'
  | _ => some (x, s)
termination_by s.bytes.length

/-- The loop over the chunks of `read_content_chunked`, /repo/src/brski/http/httplib.h:4137-4169; `line` is the current line. -/
def chunks (out : σ → Bytes → Option σ) (line : Bytes) (x : σ) (s : Strm) : Option (σ × Strm) :=
  match strtoull 16 line with
  | none => none
  | some n =>
    if n = 2 ^ 64 - 1 then none
    else if n = 0 then some (x, s)
    else
      match h0 : withLength out n x s with
      | none => none
      | some (x, s0) =>
        have := withLength_le h0
        match h1 : getline [] s0 with
        | none => none
        | some (l, r) =>
          have := getline_lt h1
          if BoolTime.cstr l ≠ [13, 10] then none
          else
            match h2 : getline [] r with
            | none => none
            | some (l2, r2) =>
              have := getline_lt h2
              chunks out l2 x r2
termination_by s.bytes.length

/-- The trailer of `read_content_chunked`, /repo/src/brski/http/httplib.h:4173-4197, see `Wire.trailer`. -/
def trailer (s : Strm) : Outcome (Option (List Bytes × Strm)) :=
  match h : getline [] s with
  | none => .ok none
  | some (l, r) =>
    have := getline_lt h
    if BoolTime.cstr l = [13, 10] then .ok (some ([], r))
    else if l.length > 8192 then .ok none
    else if l.length < 2 then .ub
    else (trailer r).bind fun t => .ok (t.map fun p => (l.take (l.length - 2) :: p.1, p.2))
termination_by s.bytes.length

/-- `read_content`, /repo/src/brski/http/httplib.h:4205-4284, see `Wire.readContent`: a status for a failure, or what the receiver made
of the content, the rest of the connection and the lines of a trailer. -/
def readContent (out : σ → Bytes → Option σ) (x : σ) (hs : List Field) (s : Strm) :
    Outcome (Except Nat (σ × Strm × List Bytes)) :=
  let enc := headerValue hs (str "Content-Encoding")
  if enc = str "gzip" ∨ enc = str "deflate" ∨ hasBr enc = true then .ok (.error 415)
  else if isChunked hs then
    match getline [] s with
    | none => .ok (.error 400)
    | some (l, r) =>
      match chunks out l x r with
      | none => .ok (.error 400)
      | some (y, r) => (trailer r).bind fun t =>
        match t with
        | none => .ok (.error 400)
        | some (ls, r) => .ok (.ok (y, r, ls))
  else if !hasField hs (str "Content-Length") then
    match untilEnd out x s with
    | none => .ok (.error 400)
    | some (y, r) => .ok (.ok (y, r, []))
  else
    match withLength out (contentLength hs) x s with
    | none => .ok (.error 400)
    | some (y, r) => .ok (.ok (y, r, []))

/-- The receiver for other than multipart content, /repo/src/brski/http/httplib.h:6490-6496,7921-7930. -/
def append (x b : Bytes) : Option Bytes := some (x ++ b)

/-! ## Multipart content -/

/-- The states of the parser, `state_` 0 to 4 (/repo/src/brski/http/httplib.h:4688-4829). -/
inductive Phase where
  | first | entry | headers | body | boundary
deriving Repr, DecidableEq

/-- `MultipartFormDataParser`, /repo/src/brski/http/httplib.h:4670-4680,4855-4863,4942-4944, with the number of parts counted by
the callback (/repo/src/brski/http/httplib.h:6498-6503). -/
structure Parser where
  boundary : Bytes
  phase : Phase
  valid : Bool
  buf : Bytes
  files : Nat
deriving Repr, DecidableEq

/-- `buf_find`, /repo/src/brski/http/httplib.h:4889-4918: the position of the first occurrence, the size of the buffer without one. -/
def findAt (p : Bytes) : Bytes → Nat
  | [] => 0
  | c :: s => if p.isPrefixOf (c :: s) then 0 else findAt p s + 1

/-- `crlf_`, /repo/src/brski/http/httplib.h:4856. -/
def crlf : Bytes := [13, 10]

/-- `dash_`, /repo/src/brski/http/httplib.h:4855. -/
def dash : Bytes := [45, 45]

/-- `dash_boundary_crlf_`, /repo/src/brski/http/httplib.h:4676. -/
def Parser.opening (p : Parser) : Bytes := dash ++ p.boundary ++ crlf

/-- `crlf_dash_boundary_`, /repo/src/brski/http/httplib.h:4677. -/
def Parser.closing (p : Parser) : Bytes := crlf ++ dash ++ p.boundary

/-- The loop over the header lines of a part, /repo/src/brski/http/httplib.h:4707-4777: whether the empty line was found, what is left
in the buffer and the number of parts; `none` is `false`. -/
def headerLoop (ok : Bytes → Bool) (files : Nat) (buf : Bytes) : Option (Bool × Bytes × Nat) :=
  if h : findAt crlf buf < buf.length then
    if findAt crlf buf = 0 then
      if files = 1024 then none else some (true, buf.drop 2, files + 1)
    else if ok (buf.take (findAt crlf buf)) then headerLoop ok files (buf.drop (findAt crlf buf + 2))
    else none
  else some (false, buf, files)
termination_by buf.length
decreasing_by simp only [List.length_drop]; omega

theorem headerLoop_lt {ok : Bytes → Bool} {files f : Nat} {buf b : Bytes} (h : headerLoop ok files buf = some (true, b, f)) :
    b.length < buf.length := by
  unfold headerLoop at h
  split at h
  · rename_i hl
    split at h
    · split at h
      · cases h
      · cases h; simp only [List.length_drop]; omega
    · split at h
      · have := headerLoop_lt h
        simp only [List.length_drop] at this
        omega
      · cases h
  · cases h
termination_by buf.length
decreasing_by simp only [List.length_drop]; omega

/-- For the termination of `Parser.loop` (/repo/src/brski/http/httplib.h:4687). -/
def Phase.rank : Phase → Nat
  | .entry => 1
  | _ => 0

/-- The loop of `MultipartFormDataParser::parse`, /repo/src/brski/http/httplib.h:4687-4832; `none` is `false`. -/
def Parser.loop (ok : Bytes → Bool) (p : Parser) : Option Parser :=
  if hb : p.buf = [] then some p
  else
    match hp : p.phase with
    | .first =>
      let b := p.buf.drop (findAt p.opening p.buf)
      if p.opening.length > b.length then some { p with buf := b }
      else if p.opening.isPrefixOf b then Parser.loop ok { p with buf := b.drop p.opening.length, phase := .entry }
      else none
    | .entry => Parser.loop ok { p with phase := .headers }
    | .headers =>
      if findAt crlf p.buf > 8192 then none
      else
        match h : headerLoop ok p.files p.buf with
        | none => none
        | some (true, b, n) => Parser.loop ok { p with buf := b, files := n, phase := .body }
        | some (false, b, n) => some { p with buf := b, files := n }
    | .body =>
      if p.closing.length > p.buf.length then some p
      else if findAt p.closing p.buf < p.buf.length then
        Parser.loop ok { p with buf := p.buf.drop (findAt p.closing p.buf + p.closing.length), phase := .boundary }
      else some { p with buf := p.buf.drop (p.buf.length - p.closing.length) }
    | .boundary =>
      if 2 > p.buf.length then some p
      else if crlf.isPrefixOf p.buf then Parser.loop ok { p with buf := p.buf.drop 2, phase := .entry }
      else if dash.isPrefixOf p.buf then some { p with buf := [], valid := true }
      else some p
termination_by 2 * p.buf.length + p.phase.rank
decreasing_by
  all_goals have hpos : 0 < p.buf.length := List.length_pos_iff.2 hb
  all_goals simp only [hp, Phase.rank]
  · simp only [Parser.opening, dash, crlf, List.length_drop, List.length_append, List.length_cons, List.length_nil]
    omega
  · omega
  · have := headerLoop_lt h
    omega
  · simp only [Parser.closing, dash, crlf, List.length_drop, List.length_append, List.length_cons, List.length_nil]
    omega
  · simp only [List.length_drop]
    omega

/-- `MultipartFormDataParser::parse`, /repo/src/brski/http/httplib.h:4682-4833: the piece is appended to the buffer. -/
def Parser.parse (ok : Bytes → Bool) (p : Parser) (b : Bytes) : Option Parser := Parser.loop ok { p with buf := p.buf ++ b }

/-- `trim_double_quotes_copy`, /repo/src/brski/http/httplib.h:2660-2665. -/
def unquote (s : Bytes) : Bytes :=
  if s.length ≥ 2 ∧ s.head? = some 34 ∧ s.getLast? = some 34 then (s.drop 1).take (s.length - 2) else s

/-- `parse_multipart_boundary`, /repo/src/brski/http/httplib.h:4585-4597. -/
def boundaryOf (ct : Bytes) : Option Bytes :=
  if findAt (str "boundary=") ct < ct.length then
    let v := unquote ((ct.drop (findAt (str "boundary=") ct + 9)).takeWhile (· ≠ 59))
    if v = [] then none else some v
  else none

/-- A parser that has read nothing (/repo/src/brski/http/httplib.h:4672,4861-4862). -/
def Parser.new (bd : Bytes) : Parser := ⟨bd, .first, false, [], 0⟩

/-! ## Server and client -/

/-- `Server::read_content` and `read_content_core`, /repo/src/brski/http/httplib.h:6483-6523,6534-6588, see `Wire.readBody`. -/
def readBody (ok : Bytes → Bool) (m : Method) (hs : List Field) (s : Strm) : Outcome (Except Nat (Bytes × List Bytes)) :=
  let ct := headerValue hs (str "Content-Type")
  if startsWith (str "multipart/form-data") ct then
    match boundaryOf ct with
    | none => .ok (.error 400)
    | some bd =>
      if m = .delete ∧ hasField hs (str "Content-Length") = false then .ok (.ok ([], []))
      else (readContent (Parser.parse ok) (Parser.new bd) hs s).bind fun c =>
        match c with
        | .error st => .ok (.error st)
        | .ok (p, _, ls) => if p.valid then .ok (.ok ([], ls)) else .ok (.error 400)
  else if m = .delete ∧ hasField hs (str "Content-Length") = false then .ok (.ok ([], []))
  else (readContent append [] hs s).bind fun c =>
    match c with
    | .error st => .ok (.error st)
    | .ok (b, _, ls) =>
      if startsWith (str "application/x-www-form-urlencoded") ct = true ∧ b.length > 8192 then .ok (.error 413)
      else .ok (.ok (b, ls))

/-- `Server::process_request`, /repo/src/brski/http/httplib.h:6982-7125, see `Wire.serve`. -/
def serve (rs : List Route) (ok : Bytes → Bool) (dyn : List Field → Bytes → Endpoint → Reply) (close : Bool) (s : Strm) :
    Outcome (Option Res) :=
  match getline [] s with
  | none => .ok none
  | some (l, r) =>
    match if 8192 < l.length then none else parseRequestLine l with
    | none => .ok (some (process rs (dyn [] []) close l))
    | some line =>
      match readLines r with
      | (ls, none) => .ok (some (writeResponse (closes close (readHeaders ls)) line.method false ⟨400, [], []⟩))
      | (ls, some r) =>
        if expectsContent line.method then
          (readBody ok line.method (readHeaders ls) r).bind fun b =>
          match b with
          | .error st => .ok (some (writeResponse (closes close (readHeaders ls)) line.method false ⟨st, [], []⟩))
          | .ok (b, more) =>
            .ok (some (process rs (dyn (readHeaders (ls ++ more)) b) (closes close (readHeaders (ls ++ more))) l))
        else .ok (some (process rs (dyn (readHeaders ls) []) (closes close (readHeaders ls)) l))

/-- `read_response_line`, /repo/src/brski/http/httplib.h:7283-7325, see `Wire.readStatus`. -/
def readStatus (s : Strm) : Option (Nat × Strm) :=
  match h : getline [] s with
  | none => none
  | some (l, r) =>
    have := getline_lt h
    match statusOf l with
    | none => none
    | some st =>
      if st = 100 then
        match h2 : getline [] r with
        | none => none
        | some (_, r2) =>
          have := getline_lt h2
          readStatus r2
      else some (st, r)
termination_by s.bytes.length

/-- `ClientImpl::process_request` after the request was sent, /repo/src/brski/http/httplib.h:7873-7943, see `Wire.readReply`. -/
def readReply (s : Strm) : Outcome (Option (Nat × Bytes)) :=
  match readStatus s with
  | none => .ok none
  | some (st, r) =>
    match readLines r with
    | (_, none) => .ok none
    | (ls, some r) =>
      if st = 204 then .ok (some (st, []))
      else (readContent append [] (readHeaders ls) r).bind fun c =>
        match c with
        | .error _ => .ok none
        | .ok (b, _, _) => .ok (some (st, b))

end Brski.Cut
