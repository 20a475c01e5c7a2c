import Verif.Routes

/-!
# Requests and replies as bytes on a connection (model)

The reading and writing of HTTP messages in the bundled /repo/src/brski/http/httplib.h: lines, header fields, content
with `Content-Length`, chunked content and content up to the end of the connection; the server around
`Routes.process`; the client's request and how it reads the reply.

Simplified: a connection is the list of all bytes that will ever arrive, after which it is closed in an orderly way; one
request per connection; `Range` and `Expect` fields are ignored, and so are the fields with the addresses of the
connection that the server adds to a request; compression is not compiled in
(/repo/src/brski/http/CMakeLists.txt).
-/

namespace Brski.Wire
open Outcome Routes

/-! ## Lines -/

/-- The bytes up to and including the next line feed, or all of them (loop of `stream_line_reader::getline`,
/repo/src/brski/http/httplib.h:2728-2747). -/
def takeLine : Bytes → Bytes
  | [] => []
  | c :: s => if c = 10 then [c] else c :: takeLine s

/-- What remains after `takeLine` (/repo/src/brski/http/httplib.h:2728-2747). -/
def dropLine : Bytes → Bytes
  | [] => []
  | c :: s => if c = 10 then s else dropLine s

/-- `stream_line_reader::getline`, /repo/src/brski/http/httplib.h:2724-2750: the line and the rest, `none` at the end of
the connection. -/
def getLine (s : Bytes) : Option (Bytes × Bytes) := if s = [] then none else some (takeLine s, dropLine s)

theorem dropLine_lt {s : Bytes} (h : s ≠ []) : (dropLine s).length < s.length := by
  induction s with
  | nil => exact absurd rfl h
  | cons c s ih =>
    rw [dropLine]
    split
    · simp
    · by_cases hs : s = []
      · subst hs; simp [dropLine]
      · have := ih hs; simp only [List.length_cons]; omega

theorem getLine_lt {s l r : Bytes} (h : getLine s = some (l, r)) : r.length < s.length := by
  unfold getLine at h
  split at h
  · cases h
  · rename_i hs
    cases h
    exact dropLine_lt hs

/-- `end_with_crlf`, /repo/src/brski/http/httplib.h:2719-2722. -/
def endsCrlf (l : Bytes) : Bool := l.length ≥ 2 && l.drop (l.length - 2) == [13, 10]

/-- `read_headers`, /repo/src/brski/http/httplib.h:4018-4063: the lines handed to `parse_header`, and the rest; a rest
`none` is the result `false`. -/
def readLines (s : Bytes) : List Bytes × Option Bytes :=
  match h : getLine s with
  | none => ([], none)
  | some (l, r) =>
    have := getLine_lt h
    if endsCrlf l then
      if l.length = 2 then ([], some r)
      else if l.length > 8192 then ([], none)
      else (l.take (l.length - 2) :: (readLines r).1, (readLines r).2)
    else readLines r
termination_by s.length

/-! ## Content -/

/-- The name of the field is `k` (`multimap::find` and `equal_range` with `detail::ci`,
/repo/src/brski/http/httplib.h:316-324,433). -/
def named (k : Bytes) (f : Field) : Bool := !ciLt f.1 k && !ciLt k f.1

/-- `get_header_value(headers, key, 0, "")`, /repo/src/brski/http/httplib.h:3951-3962: the value of the first field of
that name, as a C string. -/
def headerValue (hs : List Field) (k : Bytes) : Bytes := ((hs.find? (named k)).map fun f => BoolTime.cstr f.2).getD []

/-- `has_header`, /repo/src/brski/http/httplib.h:3947-3949. -/
def hasField (hs : List Field) (k : Bytes) : Bool := hs.any (named k)

/-- `isspace` in the C locale, for `strtoull` (/repo/src/brski/http/httplib.h:1819,4141). -/
def isSpace (c : UInt8) : Bool := c == 32 || (9 ≤ c && c ≤ 13)

/-- The values of the digits at the front of a text (`strtoull`, /repo/src/brski/http/httplib.h:1819,4141). -/
def digits (base : Nat) : Bytes → List Nat
  | [] => []
  | c :: s =>
    match hexVal c with
    | some d => if d < base then d :: digits base s else []
    | none => []

/-- A sign at the front of a text is skipped by `strtoull` (/repo/src/brski/http/httplib.h:1819,4141). -/
def dropSign (s : Bytes) : Bytes := if s.head? = some 45 ∨ s.head? = some 43 then s.drop 1 else s

/-- For base 16 `strtoull` skips `0x` when a digit follows (/repo/src/brski/http/httplib.h:4141). -/
def dropPrefix (base : Nat) (s : Bytes) : Bytes :=
  if base = 16 ∧ (s.take 2 = str "0x" ∨ s.take 2 = str "0X") ∧ digits 16 (s.drop 2) ≠ [] then s.drop 2 else s

/-- `strtoull(s, &end, base)` for base 10 or 16 and a result of 64 bits, which `strtoul` has as well
(/repo/src/brski/http/httplib.h:1819,4141); `none`: no digits. -/
def strtoull (base : Nat) (s : Bytes) : Option Nat :=
  let t := (BoolTime.cstr s).dropWhile isSpace
  match digits base (dropPrefix base (dropSign t)) with
  | [] => none
  | ds =>
    let v := ds.foldl (fun a d => base * a + d) 0
    some (if 2 ^ 64 ≤ v then 2 ^ 64 - 1 else if t.head? = some 45 then (2 ^ 64 - v) % 2 ^ 64 else v)

/-- `get_header_value_u64(headers, "Content-Length", 0, 0)`, /repo/src/brski/http/httplib.h:1812-1822. -/
def contentLength (hs : List Field) : Nat :=
  match hs.find? (named (str "Content-Length")) with
  | none => 0
  | some f => (strtoull 10 f.2).getD 0

/-- `is_chunked_transfer_encoding`, /repo/src/brski/http/httplib.h:4200-4203. -/
def isChunked (hs : List Field) : Bool := (headerValue hs (str "Transfer-Encoding")).map lower == str "chunked"

/-- The loop over the chunks of `read_content_chunked`, /repo/src/brski/http/httplib.h:4137-4169; `line` is the current
line.  `none` is `false`. -/
def chunks (line s : Bytes) : Option (Bytes × Bytes) :=
  match strtoull 16 line with
  | none => none
  | some n =>
    if n = 2 ^ 64 - 1 then none
    else if n = 0 then some ([], s)
    else if s.length < n then none
    else
      match h1 : getLine (s.drop n) with
      | none => none
      | some (l, r) =>
        have := getLine_lt h1
        if BoolTime.cstr l ≠ [13, 10] then none
        else
          match h2 : getLine r with
          | none => none
          | some (l2, r2) =>
            have := getLine_lt h2
            have : r2.length < s.length := by simp only [List.length_drop] at *; omega
            (chunks l2 r2).map fun p => (s.take n ++ p.1, p.2)
termination_by s.length

/-- The trailer of `read_content_chunked`, /repo/src/brski/http/httplib.h:4173-4197: the lines handed to `parse_header`.
The end of a line is computed as two bytes before its end without looking: for a line of one byte that is before the
buffer, which is undefined (4185). -/
def trailer (s : Bytes) : Outcome (Option (List Bytes × Bytes)) :=
  match h : getLine s with
  | none => .ok none
  | some (l, r) =>
    have := getLine_lt h
    if BoolTime.cstr l = [13, 10] then .ok (some ([], r))
    else if l.length > 8192 then .ok none
    else if l.length < 2 then .ub
    else (trailer r).bind fun t => .ok (t.map fun p => (l.take (l.length - 2) :: p.1, p.2))
termination_by s.length

/-- The text contains `br` (`encoding.find("br")`, /repo/src/brski/http/httplib.h:4220). -/
def hasBr : Bytes → Bool
  | a :: b :: s => (a == 98 && b == 114) || hasBr (b :: s)
  | _ => false

/-- What `read_content` gives: a status for a failure, or content, rest of the connection and the lines of a trailer
(/repo/src/brski/http/httplib.h:4253-4284). -/
inductive Content where
  | failed (status : Nat)
  | read (content rest : Bytes) (trailer : List Bytes)
deriving Repr, DecidableEq

/-- `prepare_content_receiver` and `read_content`, /repo/src/brski/http/httplib.h:4205-4284, with the largest `size_t` as
limit (/repo/src/brski/http/httplib.h:78,7927), so that 413 cannot happen. -/
def readContent (hs : List Field) (s : Bytes) : Outcome Content :=
  let enc := headerValue hs (str "Content-Encoding")
  if enc = str "gzip" ∨ enc = str "deflate" ∨ hasBr enc = true then .ok (.failed 415)
  else if isChunked hs then
    match getLine s with
    | none => .ok (.failed 400)
    | some (l, r) =>
      match chunks l r with
      | none => .ok (.failed 400)
      | some (c, r) => (trailer r).bind fun t =>
        match t with
        | none => .ok (.failed 400)
        | some (ls, r) => .ok (.read c r ls)
  else if !hasField hs (str "Content-Length") then .ok (.read s [] [])
  else if s.length < contentLength hs then .ok (.failed 400)
  else .ok (.read (s.take (contentLength hs)) (s.drop (contentLength hs)) [])

/-! ## Server -/

/-- `expect_content`, /repo/src/brski/http/httplib.h:5177-5184. -/
def expectsContent : Method → Bool
  | .post | .put | .patch | .pri | .delete => true
  | _ => false

/-- The text starts with `p` (`!content_type.find(p)`, /repo/src/brski/http/httplib.h:5636-5639,6513). -/
def startsWith (p s : Bytes) : Bool := s.take p.length == p

/-- The parser for multipart content, uninterpreted: whether the content type has a boundary, and whether content is
well formed (/repo/src/brski/http/httplib.h:6542-6571,6583). -/
structure Multipart where
  boundary : Bytes → Bool
  valid : Bytes → Bytes → Bool

/-- `Server::read_content` and `read_content_core`, /repo/src/brski/http/httplib.h:6483-6523,6534-6588: the body the
handler sees and the lines of a trailer, or a status.  The body of multipart content stays empty. -/
def readBody (mp : Multipart) (m : Method) (hs : List Field) (s : Bytes) :
    Outcome (Except Nat (Bytes × List Bytes)) :=
  let ct := headerValue hs (str "Content-Type")
  let multi := startsWith (str "multipart/form-data") ct
  if multi && !mp.boundary ct then .ok (.error 400)
  else if m = .delete ∧ hasField hs (str "Content-Length") = false then .ok (.ok ([], []))
  else (readContent hs s).bind fun c =>
    match c with
    | .failed st => .ok (.error st)
    | .read b _ ls =>
      if multi then
        if mp.valid ct b then .ok (.ok ([], ls)) else .ok (.error 400)
      else if startsWith (str "application/x-www-form-urlencoded") ct = true ∧ b.length > 8192 then .ok (.error 413)
      else .ok (.ok (b, ls))

/-- The connection is closed after the reply (`write_response_core`, /repo/src/brski/http/httplib.h:6363). -/
def closes (close : Bool) (hs : List Field) : Bool := close || headerValue hs (str "Connection") == str "close"

/-- `Server::process_request`, /repo/src/brski/http/httplib.h:6982-7125, on the bytes of a connection: `none` without
request.  `dyn` are the implemented handlers, which see header fields and body.  A line that is too long or not
understood is answered by `Routes.process` whatever follows. -/
def serve (rs : List Route) (mp : Multipart) (dyn : List Field → Bytes → Endpoint → Reply) (close : Bool)
    (s : Bytes) : Outcome (Option Res) :=
  match getLine s with
  | none => .ok none
  | some (l, r) =>
    match if 8192 < l.length then none else parseRequestLine l with
    | none => .ok (some (process rs (dyn [] []) close l))
    | some line =>
      match readLines r with
      | (ls, none) => .ok (some (writeResponse (closes close (readHeaders ls)) line.method false ⟨400, [], []⟩))
      | (ls, some r) =>
        if expectsContent line.method then
          (readBody mp line.method (readHeaders ls) r).bind fun b =>
          match b with
          | .error st => .ok (some (writeResponse (closes close (readHeaders ls)) line.method false ⟨st, [], []⟩))
          | .ok (b, more) =>
            .ok (some (process rs (dyn (readHeaders (ls ++ more)) b) (closes close (readHeaders (ls ++ more))) l))
        else .ok (some (process rs (dyn (readHeaders ls) []) (closes close (readHeaders ls)) l))

/-- The cases of `status_message` other than the default, /repo/src/brski/http/httplib.h:1880-2011. -/
def reasons : List (Nat × Bytes) :=
  [
    (100, str "Continue"), (101, str "Switching Protocol"), (102, str "Processing"), (103, str "Early Hints"),
    (200, str "OK"), (201, str "Created"), (202, str "Accepted"), (203, str "Non-Authoritative Information"),
    (204, str "No Content"), (205, str "Reset Content"), (206, str "Partial Content"),
    (207, str "Multi-Status"), (208, str "Already Reported"), (226, str "IM Used"),
    (300, str "Multiple Choices"), (301, str "Moved Permanently"), (302, str "Found"), (303, str "See Other"),
    (304, str "Not Modified"), (305, str "Use Proxy"), (306, str "unused"), (307, str "Temporary Redirect"),
    (308, str "Permanent Redirect"), (400, str "Bad Request"), (401, str "Unauthorized"),
    (402, str "Payment Required"), (403, str "Forbidden"), (404, str "Not Found"),
    (405, str "Method Not Allowed"), (406, str "Not Acceptable"), (407, str "Proxy Authentication Required"),
    (408, str "Request Timeout"), (409, str "Conflict"), (410, str "Gone"), (411, str "Length Required"),
    (412, str "Precondition Failed"), (413, str "Payload Too Large"), (414, str "URI Too Long"),
    (415, str "Unsupported Media Type"), (416, str "Range Not Satisfiable"), (417, str "Expectation Failed"),
    (418, str "I'm a teapot"), (421, str "Misdirected Request"), (422, str "Unprocessable Content"),
    (423, str "Locked"), (424, str "Failed Dependency"), (425, str "Too Early"), (426, str "Upgrade Required"),
    (428, str "Precondition Required"), (429, str "Too Many Requests"),
    (431, str "Request Header Fields Too Large"), (451, str "Unavailable For Legal Reasons"),
    (501, str "Not Implemented"), (502, str "Bad Gateway"), (503, str "Service Unavailable"),
    (504, str "Gateway Timeout"), (505, str "HTTP Version Not Supported"),
    (506, str "Variant Also Negotiates"), (507, str "Insufficient Storage"), (508, str "Loop Detected"),
    (510, str "Not Extended"), (511, str "Network Authentication Required")]

/-- `status_message`, /repo/src/brski/http/httplib.h:1880-2011. -/
def reason (status : Nat) : Bytes := (reasons.lookup status).getD (str "Internal Server Error")

/-- A header field on the wire: `write_headers`, /repo/src/brski/http/httplib.h:4286-4294; names and values are C
strings. -/
def fieldText (f : Field) : Bytes := BoolTime.cstr f.1 ++ str ": " ++ BoolTime.cstr f.2 ++ [13, 10]

/-- Header fields and the empty line: `write_headers`, /repo/src/brski/http/httplib.h:4286-4302. -/
def fieldsText (hs : List Field) : Bytes := hs.flatMap fieldText ++ [13, 10]

/-- A reply on the wire (/repo/src/brski/http/httplib.h:6391-6423). -/
def replyText (r : Res) : Bytes :=
  str "HTTP/1.1 " ++ BoolTime.natDec r.status ++ [32] ++ reason r.status ++ [13, 10] ++ fieldsText r.headers ++ r.body

/-! ## Client -/

/-- `Request::set_header`: adds a field (/repo/src/brski/http/httplib.h:5609-5614). -/
def addField (hs : List Field) (k v : Bytes) : List Field :=
  if !hasCrlf k && !hasCrlf v then emplace hs (k, v) else hs

/-- The fields of a POST request (/repo/src/brski/http/httplib.h:7746-7748,7621-7680); `keep_alive_` is off, so the
connection is announced to be closed.  An empty content type is not sent. -/
def requestFields (host ctype body : Bytes) : List Field :=
  let h := if ctype = [] then [] else addField [] (str "Content-Type") ctype
  let h := addField h (str "Connection") (str "close")
  let h := addField h (str "Host") host
  let h := addField h (str "Accept") (str "*/*")
  let h := addField h (str "User-Agent") (str "cpp-httplib/0.14.3")
  let h := if body ≠ [] ∧ hasField h (str "Content-Type") = false then
      addField h (str "Content-Type") (str "text/plain") else h
  addField h (str "Content-Length") (BoolTime.natDec body.length)

/-- `encode_url`, /repo/src/brski/http/httplib.h:2539-2583. -/
def encodeUrl (s : Bytes) : Bytes :=
  (BoolTime.cstr s).flatMap fun c =>
    if c = 32 then str "%20" else if c = 43 then str "%2B" else if c = 13 then str "%0D" else if c = 10 then str "%0A"
    else if c = 39 then str "%27" else if c = 44 then str "%2C" else if c = 59 then str "%3B"
    else if 128 ≤ c then [37, hexUpper (c.toNat / 16), hexUpper (c.toNat % 16)]
    else [c]
where
  /-- A digit of `%02X` (/repo/src/brski/http/httplib.h:2572). -/
  hexUpper (n : Nat) : UInt8 := if n < 10 then UInt8.ofNat (48 + n) else UInt8.ofNat (55 + n)

/-- A POST request on the wire (/repo/src/brski/http/httplib.h:7711-7738). -/
def requestText (host path ctype body : Bytes) : Bytes :=
  str "POST " ++ encodeUrl path ++ str " HTTP/1.1" ++ [13, 10] ++ fieldsText (requestFields host ctype body) ++ body

/-- The regular expression of `read_response_line` on a C string, /repo/src/brski/http/httplib.h:7296-7305: the
status. -/
def statusOf (l : Bytes) : Option Nat :=
  let l := BoolTime.cstr l
  if l.take 9 = str "HTTP/1.0 " ∨ l.take 9 = str "HTTP/1.1 " then
    match digits 10 ((l.drop 9).take 3) with
    | [a, b, c] =>
      let r := l.drop 12
      if r = [13, 10] ∨
          (r.head? = some 32 ∧ endsCrlf r = true ∧ ∀ c ∈ r.take (r.length - 2), c ≠ 10 ∧ c ≠ 13) then
        some (100 * a + 10 * b + c)
      else none
    | _ => none
  else none

/-- `read_response_line`, /repo/src/brski/http/httplib.h:7283-7325: the status and the rest; a reply `100 Continue` is
skipped together with the next line. -/
def readStatus (s : Bytes) : Option (Nat × Bytes) :=
  match h : getLine s with
  | none => none
  | some (l, r) =>
    have := getLine_lt h
    match statusOf l with
    | none => none
    | some st =>
      if st = 100 then
        match h2 : getLine r with
        | none => none
        | some (_, r2) =>
          have := getLine_lt h2
          readStatus r2
      else some (st, r)
termination_by s.length

/-- `ClientImpl::process_request` after the request was sent, /repo/src/brski/http/httplib.h:7873-7943: status and body of
the answer to a POST, `none` for an error. -/
def readReply (s : Bytes) : Outcome (Option (Nat × Bytes)) :=
  match readStatus s with
  | none => .ok none
  | some (st, r) =>
    match readLines r with
    | (_, none) => .ok none
    | (ls, some r) =>
      if st = 204 then .ok (some (st, []))
      else (readContent (readHeaders ls) r).bind fun c =>
        match c with
        | .failed _ => .ok none
        | .read b _ _ => .ok (some (st, b))

end Brski.Wire
