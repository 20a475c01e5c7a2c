import Verif.Routes

/-!
# Parts of replies (model)

The `Range` field of a request: `parse_range_header`, `get_range_offset_and_length`, `make_multipart_ranges_data` and
`Server::apply_ranges` of /repo/src/brski/http/httplib.h, and the reply with them.  cpp-httplib is built without compression, so
`encoding_type` is `None` (/repo/src/brski/http/httplib.h:6870).
-/

namespace Brski.Ranges
open Routes

/-- `\d` of `std::regex`, /repo/src/brski/http/httplib.h:4629,4639. -/
def isNum (c : UInt8) : Bool := 48 ≤ c && c ≤ 57

/-- `\s` of `std::regex` in the C locale, /repo/src/brski/http/httplib.h:4629,4639. -/
def isWhite (c : UInt8) : Bool := c == 32 || (9 ≤ c && c ≤ 13)

/-- What `\d*-\d*` leaves of a text, /repo/src/brski/http/httplib.h:4629.  The parts of the expression cannot begin with the same
character, so there is only one way to match. -/
def afterRange (s : Bytes) : Option Bytes :=
  match s.dropWhile isNum with
  | 45 :: r => some (r.dropWhile isNum)
  | _ => none

/-- `dropWhile` makes nothing longer (no counterpart in the code; for termination). -/
theorem dropWhile_le (p : UInt8 → Bool) (s : Bytes) : (s.dropWhile p).length ≤ s.length := by
  induction s with
  | nil => simp
  | cons c s ih =>
    simp only [List.dropWhile_cons]
    split
    · simp; omega
    · simp

/-- `afterRange` shortens the text (no counterpart in the code; for termination). -/
theorem afterRange_lt {s r : Bytes} (h : afterRange s = some r) : r.length < s.length := by
  unfold afterRange at h
  have h1 := dropWhile_le isNum s
  split at h
  · rename_i r' hr
    cases h
    have h2 := dropWhile_le isNum r'
    rw [hr] at h1
    simp at h1
    omega
  · cases h

/-- `\d*-\d*(?:,\s*\d*-\d*)*` matches the whole text, /repo/src/brski/http/httplib.h:4629,4631. -/
def wellFormed (s : Bytes) : Bool :=
  match h : afterRange s with
  | none => false
  | some [] => true
  | some (c :: r) =>
    have := afterRange_lt h
    have := dropWhile_le isWhite r
    if c = 44 then wellFormed (r.dropWhile isWhite) else false
termination_by s.length
decreasing_by simp only [List.length_cons] at *; omega

/-- A range as it stands in the field: a missing number is -1 in the code (/repo/src/brski/http/httplib.h:534,4642-4650). -/
abbrev Rng := Option Nat × Option Nat

/-- `std::stoll` of digits, /repo/src/brski/http/httplib.h:4644,4649; the outer `none` is the exception for numbers that do not fit, the
inner one the missing number. -/
def stoll (ds : Bytes) : Option (Option Nat) :=
  if ds = [] then some none
  else
    let v := ds.foldl (fun a c => 10 * a + (c.toNat - 48)) 0
    if v < 2 ^ 63 then some (some v) else none

/-- One range, the callback of `split`, /repo/src/brski/http/httplib.h:4635-4658: nothing that matches; the end of the work, by
an exception or since the range is the wrong way round; or a range. -/
inductive Item where
  | skip
  | stop
  | add (r : Rng)

/-- The callback of `split`, /repo/src/brski/http/httplib.h:4635-4658. -/
def item (s : Bytes) : Item :=
  let t := s.dropWhile isWhite
  match t.dropWhile isNum with
  | 45 :: r =>
    if r.dropWhile isNum = [] then
      match stoll (t.takeWhile isNum), stoll r with
      | some a, some b =>
        match a, b with
        | some x, some y => if y < x then .stop else .add (a, b)
        | _, _ => .add (a, b)
      | _, _ => .stop
    else .skip
  | _ => .skip

/-- The ranges of the parts up to the first bad one, and whether there is none, /repo/src/brski/http/httplib.h:4634-4659. -/
def items : List Bytes → List Rng × Bool
  | [] => ([], true)
  | s :: ss =>
    match item s with
    | .skip => items ss
    | .stop => ([], false)
    | .add r => ((r :: (items ss).1), (items ss).2)

/-- `parse_range_header`, /repo/src/brski/http/httplib.h:4627-4667: the ranges it has stored and whether it succeeds. -/
def parseRanges (s : Bytes) : List Rng × Bool :=
  if s.take 6 = str "bytes=" ∧ wellFormed (s.drop 6) = true then items (splitAll 44 (s.drop 6)) else ([], false)

/-- `get_range_offset_and_length`, /repo/src/brski/http/httplib.h:5038-5058, for lengths below 2^63; the length is a `size_t`. -/
def offsetLength (len : Nat) : Rng → Nat × Nat
  | (none, none) => (0, len)
  | (none, some k) => (len - k, ((len : Int) - 1 - (len - k : Nat) + 1).toNat)
  | (some a, none) => (a, ((((len : Int) - 1 - a) + 1) % 2 ^ 64).toNat)
  | (some a, some b) => (a, b - a + 1)

/-- `std::to_string` of a number that may be missing, /repo/src/brski/http/httplib.h:5064-5070. -/
def numText : Option Nat → Bytes
  | none => []
  | some n => BoolTime.natDec n

/-- `make_content_range_header_field`, /repo/src/brski/http/httplib.h:5060-5074. -/
def rangeText (r : Rng) (len : Nat) : Bytes := str "bytes " ++ numText r.1 ++ str "-" ++ numText r.2 ++ str "/" ++ BoolTime.natDec len

/-- `std::string::substr` for an offset inside the text, /repo/src/brski/http/httplib.h:5121,6916. -/
def substr (s : Bytes) (offset length : Nat) : Bytes := (s.drop offset).take length

/-- `make_multipart_ranges_data`, /repo/src/brski/http/httplib.h:5076-5129.  `content_length_` is 0, since `set_content` does not
set it (5696-5708). -/
def multipart (bd ct body : Bytes) : List Rng → Option Bytes
  | [] => some (str "--" ++ bd ++ str "--")
  | r :: rs =>
    let (offset, length) := offsetLength 0 r
    if offset < body.length then
      (multipart bd ct body rs).map fun d =>
        str "--" ++ bd ++ str "\r\n" ++ (if ct = [] then [] else str "Content-Type: " ++ ct ++ str "\r\n") ++
          str "Content-Range: " ++ rangeText r 0 ++ str "\r\n\r\n" ++ substr body offset length ++ str "\r\n" ++ d
    else none

/-- `Server::apply_ranges`, /repo/src/brski/http/httplib.h:6854-6962; `bd` is the random boundary. -/
def applyRanges (rs : List Rng) (bd : Bytes) (r : Res) : Res :=
  let (ct, r1) := if rs.length > 1 then
      match r.headers.find? fun f => !ciLt f.1 (str "Content-Type") && !ciLt (str "Content-Type") f.1 with
      | some f => (f.2, setHeader { r with headers := r.headers.erase f } (str "Content-Type") (str "multipart/byteranges; boundary=" ++ bd))
      | none => ([], setHeader r (str "Content-Type") (str "multipart/byteranges; boundary=" ++ bd))
    else ([], r)
  if r1.body = [] then r1
  else
    let r2 := match rs with
      | [] => r1
      | [g] =>
        let r2 := setHeader r1 (str "Content-Range") (rangeText g r1.body.length)
        let (offset, length) := offsetLength r1.body.length g
        if offset < r1.body.length then { r2 with body := substr r2.body offset length } else { r2 with body := [], status := 416 }
      | rs =>
        match multipart bd ct r1.body rs with
        | some d => { r1 with body := d }
        | none => { r1 with body := [], status := 416 }
    setHeader r2 (str "Content-Length") (BoolTime.natDec r2.body.length)

/-- The fields added to every reply, /repo/src/brski/http/httplib.h:6362-6384. -/
def finish (close : Bool) (m : Method) (r2 : Res) : Res :=
  let r3 := setHeader r2 (keepField close).1 (keepField close).2
  let r4 := if !hasHeader r3 (str "Content-Type") && r3.body ≠ [] then
      setHeader r3 (str "Content-Type") (str "text/plain") else r3
  let r5 := if !hasHeader r4 (str "Content-Length") && r4.body = [] then
      setHeader r4 (str "Content-Length") (str "0") else r4
  let r6 := if !hasHeader r5 (str "Accept-Ranges") && m = .head then
      setHeader r5 (str "Accept-Ranges") (str "bytes") else r5
  { r6 with body := if m = .head then [] else r6.body }

/-- `write_response_core`, /repo/src/brski/http/httplib.h:6346-6430, with the ranges of the request. -/
def respond (close : Bool) (m : Method) (rs : List Rng) (bd : Bytes) (need : Bool) (r : Res) : Res :=
  let r1 := if 400 ≤ r.status then errorHandler r else r
  finish close m (if need ∨ 400 ≤ r.status then applyRanges rs bd r1 else r1)

/-- What `routing` and `write_response` make of a request whose line, fields and content have been read,
/repo/src/brski/http/httplib.h:7065-7125. -/
def answer (rs : List Route) (dyn : Endpoint → Reply) (close : Bool) (rg : List Rng) (bd : Bytes) (l : Line) : Res :=
  match routing rs l with
  | none => respond close l.method rg bd false ⟨400, [], []⟩
  | some none => respond close l.method rg bd false ⟨404, [], []⟩
  | some (some e) =>
    let r := e.stub.getD (dyn e)
    respond close l.method rg bd true (setResponse ⟨0, [], []⟩ r.body [(str "Content-Type", e.contentType)] r.status)

end Brski.Ranges
