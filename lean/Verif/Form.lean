import Verif.Scan
import Verif.Cut

/-!
# The parser for multipart content, with its buffer (model)

`MultipartFormDataParser` (/repo/src/brski/http/httplib.h:4670-4945) as it is: a string of which the part between two
positions is in use, bytes moved one by one, lines of header fields read for the name of a part.  Every access outside the
string is undefined behaviour; so is an unsigned subtraction below zero, an exception of `substr`, the use of the iterator of
`Server::read_content` before it was assigned, and a loop that does not end.  `Cut` describes the same parser by
the bytes that are in use and without the parts; `PropsForm` shows that the two agree.

Simplified: the parts are kept in the order of their arrival (the multimap of the code keeps them by name, those of one name
in this order); the limits `max_size()` of strings are never reached; `tolower` of a negative `char`, which C leaves undefined
(see C06), does what it does in glibc.
-/

namespace Brski.Form
open Outcome Routes Scan

/-! ## The buffer -/

/-- `buf_`, `buf_spos_` and `buf_epos_`, /repo/src/brski/http/httplib.h:4941-4944. -/
structure Buf where
  data : Bytes
  spos : Nat
  epos : Nat
deriving Repr, DecidableEq

/-- `buf_size`, /repo/src/brski/http/httplib.h:4879. -/
def Buf.size (b : Buf) : Outcome Nat := if b.spos ≤ b.epos then .ok (b.epos - b.spos) else .ub

/-- `buf_[i] = c`, /repo/src/brski/http/httplib.h:4924,4935. -/
def setAt (d : Bytes) (i : Nat) (c : UInt8) : Outcome Bytes := if i < d.length then .ok (d.set i c) else .ub

/-- The loop of `start_with`, /repo/src/brski/http/httplib.h:4871-4875. -/
def startLoop (a : Bytes) : Nat → Bytes → Outcome Bool
  | _, [] => .ok true
  | i, c :: b => (charAt a i).bind fun x => if x ≠ c then .ok false else startLoop a (i + 1) b

/-- `start_with`, /repo/src/brski/http/httplib.h:4866-4877. -/
def startWith (a : Bytes) (spos epos : Nat) (b : Bytes) : Outcome Bool :=
  if spos ≤ epos then if epos - spos < b.length then .ok false else startLoop a spos b else .ub

/-- `buf_start_with`, /repo/src/brski/http/httplib.h:4885-4887. -/
def Buf.startWith (b : Buf) (s : Bytes) : Outcome Bool := Form.startWith b.data b.spos b.epos s

/-- `buf_head`, /repo/src/brski/http/httplib.h:4883. -/
def Buf.head (b : Buf) (l : Nat) : Outcome Bytes := if b.spos ≤ b.data.length then .ok ((b.data.drop b.spos).take l) else .ub

/-- `n` bytes from `buf_data()` on, /repo/src/brski/http/httplib.h:4881,4789,4798. -/
def Buf.bytes (b : Buf) (n : Nat) : Outcome Bytes := slice b.data b.spos (b.spos + n)

/-- The inner loop of `buf_find`: the next position of a character, `none` is the end,
/repo/src/brski/http/httplib.h:4895-4903. -/
def nextAt (d : Bytes) (epos : Nat) (c : UInt8) (pos : Nat) : Outcome (Option Nat) :=
  if _h : pos < epos then (charAt d pos).bind fun x => if x = c then .ok (some pos) else nextAt d epos c (pos + 1)
  else if pos = epos then .ok none else .ub
termination_by epos - pos

/-- The outer loop of `buf_find`, /repo/src/brski/http/httplib.h:4892-4918; `k` is a bound for its rounds. -/
def findLoop (b : Buf) (c : UInt8) (s : Bytes) : Nat → Nat → Outcome Nat
  | 0, _ => .ub
  | k + 1, off =>
    if off < b.epos then
      (nextAt b.data b.epos c off).bind fun p =>
      match p with
      | none => b.size
      | some pos =>
        if pos ≤ b.epos then
          if s.length > b.epos - pos then b.size
          else
            (Form.startWith b.data pos b.epos s).bind fun e =>
            if e then if b.spos ≤ pos then .ok (pos - b.spos) else .ub else findLoop b c s k (pos + 1)
        else .ub
    else b.size

/-- `buf_find`, /repo/src/brski/http/httplib.h:4889-4918; `front()` needs a character. -/
def Buf.find (b : Buf) (s : Bytes) : Outcome Nat :=
  match s with
  | [] => .ub
  | c :: _ => findLoop b c s (b.epos + 1 - b.spos) b.spos

/-- The loop that moves what is left to the beginning, /repo/src/brski/http/httplib.h:4923-4925. -/
def shiftLoop (spos : Nat) : Nat → Nat → Bytes → Outcome Bytes
  | 0, _, d => .ok d
  | n + 1, i, d => (charAt d (spos + i)).bind fun c => (setAt d i c).bind fun d => shiftLoop spos n (i + 1) d

/-- The loop that copies a piece, /repo/src/brski/http/httplib.h:4934-4936. -/
def copyLoop : Bytes → Nat → Bytes → Outcome Bytes
  | [], _, d => .ok d
  | c :: x, i, d => (setAt d i c).bind fun d => copyLoop x (i + 1) d

/-- `buf_append`, /repo/src/brski/http/httplib.h:4920-4938. -/
def Buf.append (b : Buf) (x : Bytes) : Outcome Buf :=
  b.size.bind fun n =>
  (if n > 0 ∧ b.spos > 0 then shiftLoop b.spos n 0 b.data else .ok b.data).bind fun d =>
  (copyLoop x n (if n + x.length > d.length then d ++ List.replicate (n + x.length - d.length) 0 else d)).bind fun d =>
  .ok ⟨d, 0, n + x.length⟩

/-- `buf_erase`, /repo/src/brski/http/httplib.h:4940. -/
def Buf.erase (b : Buf) (n : Nat) : Buf := { b with spos := b.spos + n }

/-! ## Lines of header fields -/

/-- `MultipartFormData`, /repo/src/brski/http/httplib.h:443-448. -/
structure File where
  name : Bytes
  filename : Bytes
  contentType : Bytes
  content : Bytes
deriving Repr, DecidableEq

/-- The loop of `start_with_case_ignore`, /repo/src/brski/http/httplib.h:4847-4851. -/
def ignoreLoop (a : Bytes) : Nat → Bytes → Outcome Bool
  | _, [] => .ok true
  | i, c :: b => (charAt a i).bind fun x => if lower x ≠ lower c then .ok false else ignoreLoop a (i + 1) b

/-- `start_with_case_ignore`, /repo/src/brski/http/httplib.h:4842-4853. -/
def startIgnore (a b : Bytes) : Outcome Bool := if a.length < b.length then .ok false else ignoreLoop a 0 b

/-- `trim_copy`, /repo/src/brski/http/httplib.h:2655-2658: for blanks only the second position is before the first and the
difference is larger than every string. -/
def trimCopy (s : Bytes) : Outcome Bytes :=
  (trimLeft s 0).bind fun a =>
  (trimRight s s.length).bind fun b =>
  if a ≤ s.length then .ok ((s.drop a).take (if a ≤ b then b - a else s.length)) else .ub

/-- `\s` of a regular expression, /repo/src/brski/http/httplib.h:4738. -/
def isSpace (c : UInt8) : Bool := c == 32 || (9 ≤ c && c ≤ 13)

/-- What is behind the beginning `p` of `s`, for comparisons that ignore the case (the flag `icase`,
/repo/src/brski/http/httplib.h:4739,4763). -/
def behind (p s : Bytes) : Option Bytes := if (s.take p.length).map lower = p.map lower then some (s.drop p.length) else none

/-- `.` matches no line end (/repo/src/brski/http/httplib.h:4738,4763). -/
def oneLine (s : Bytes) : Bool := s.all fun c => c != 10 && c != 13

/-- The group of `^Content-Disposition:\s*form-data;\s*(.*)$`, /repo/src/brski/http/httplib.h:4737-4744. -/
def disposition (h : Bytes) : Option Bytes :=
  (behind (str "Content-Disposition:") h).bind fun r =>
  (behind (str "form-data;") (r.dropWhile isSpace)).bind fun t =>
  if oneLine (t.dropWhile isSpace) then some (t.dropWhile isSpace) else none

/-- The group of `^UTF-8''(.+?)$`, /repo/src/brski/http/httplib.h:4762-4766. -/
def extended (v : Bytes) : Option Bytes :=
  (behind (str "UTF-8''") v).bind fun r => if r ≠ [] ∧ oneLine r = true then some r else none

/-- The outer callback of `parse_disposition_params`, /repo/src/brski/http/httplib.h:4600-4621; `Scan.keyVal` is the inner
one. -/
def paramLoop : List Bytes → List Bytes → List (Bytes × Bytes) → Outcome (List (Bytes × Bytes))
  | [], _, out => .ok out
  | kv :: r, cache, out =>
    if kv ∈ cache then paramLoop r cache out
    else
      (split 61 noLimit kv).bind fun ps =>
      let p := ps.foldl keyVal ([], [])
      if p.1 ≠ [] then paramLoop r (kv :: cache) (out ++ [(Cut.unquote p.1, Cut.unquote p.2)])
      else paramLoop r (kv :: cache) out

/-- `parse_disposition_params`, /repo/src/brski/http/httplib.h:4598-4622. -/
def params (s : Bytes) : Outcome (List (Bytes × Bytes)) := (split 59 noLimit s).bind fun ps => paramLoop ps [] []

/-- `params.find(key)`: the first one that was inserted, /repo/src/brski/http/httplib.h:4746,4754,4759. -/
def param (ps : List (Bytes × Bytes)) (k : Bytes) : Option Bytes := (ps.find? fun p => p.1 == k).map (·.2)

/-- The parameters of a disposition, /repo/src/brski/http/httplib.h:4746-4772; `none` is the result `false`. -/
def named (f : File) (ps : List (Bytes × Bytes)) : Outcome (Option File) :=
  match param ps (str "name") with
  | none => .ok none
  | some n =>
    let f := { f with name := n }
    let f := match param ps (str "filename") with
      | none => f
      | some x => { f with filename := x }
    match param ps (str "filename*") with
    | none => .ok (some f)
    | some v =>
      match extended v with
      | none => .ok none
      | some x => (decode false x).bind fun y => .ok (some { f with filename := y })

/-- A line of header fields, /repo/src/brski/http/httplib.h:4723-4774; `none` is the result `false`. -/
def line (f : File) (h : Bytes) : Outcome (Option File) :=
  (header h).bind fun p =>
  match p with
  | none => .ok none
  | some _ =>
    (startIgnore h (str "Content-Type:")).bind fun e =>
    if e then
      if 13 ≤ h.length then (trimCopy (h.drop 13)).bind fun t => .ok (some { f with contentType := t }) else .ub
    else
      match disposition h with
      | none => .ok (some f)
      | some d => (params d).bind fun ps => named f ps

/-! ## The parser -/

/-- `MultipartFormDataParser` with what `Server::read_content` collects, /repo/src/brski/http/httplib.h:4855-4863,
4941-4944,6484-6485; the number of files is `file_count`. -/
structure Parser where
  boundary : Bytes
  phase : Cut.Phase
  valid : Bool
  file : File
  buf : Buf
  files : List File
deriving Repr, DecidableEq

/-- `dash_boundary_crlf_`, /repo/src/brski/http/httplib.h:4676. -/
def Parser.opening (p : Parser) : Bytes := Cut.dash ++ p.boundary ++ Cut.crlf

/-- `crlf_dash_boundary_`, /repo/src/brski/http/httplib.h:4677. -/
def Parser.closing (p : Parser) : Bytes := Cut.crlf ++ Cut.dash ++ p.boundary

/-- No information (/repo/src/brski/http/httplib.h:4836-4840,4863). -/
def File.none : File := ⟨[], [], [], []⟩

/-- The callback for content, /repo/src/brski/http/httplib.h:6505-6512: `cur` is the file inserted last. -/
def received (fs : List File) (x : Bytes) : Outcome (List File) :=
  match fs.getLast? with
  | Option.none => .ub
  | some f => .ok (fs.dropLast ++ [{ f with content := f.content ++ x }])

/-- What a round of the loop of `parse` does: return `false`, return `true`, or go on
(/repo/src/brski/http/httplib.h:4687-4832). -/
inductive Round where
  | refuse
  | wait (p : Parser)
  | go (p : Parser)
deriving Repr, DecidableEq

/-- The loop over the header lines, /repo/src/brski/http/httplib.h:4707-4777, from the position `pos` of the next line end;
`k` is a bound for its rounds. -/
def headLoop : Nat → Parser → Nat → Outcome Round
  | 0, _, _ => .ub
  | k + 1, p, pos =>
    p.buf.size.bind fun n =>
    if pos < n then
      if pos = 0 then
        if p.files.length = 1024 then .ok .refuse
        else .ok (.go { p with buf := p.buf.erase 2, phase := .body, files := p.files ++ [p.file] })
      else
        (p.buf.head pos).bind fun h =>
        (line p.file h).bind fun f =>
        match f with
        | Option.none => .ok .refuse
        | some f =>
          let b := p.buf.erase (pos + 2)
          (b.find Cut.crlf).bind fun pos => headLoop k { p with file := f, buf := b } pos
    else .ok (.wait p)

/-- One round of the loop of `parse`, /repo/src/brski/http/httplib.h:4688-4831, on a buffer of `n` bytes. -/
def Parser.round (p : Parser) (n : Nat) : Outcome Round :=
  match p.phase with
  | .first =>
    (p.buf.find p.opening).bind fun pos =>
    let b := p.buf.erase pos
    b.size.bind fun n =>
    if p.opening.length > n then .ok (.wait { p with buf := b })
    else
      (b.startWith p.opening).bind fun e =>
      if e then .ok (.go { p with buf := b.erase p.opening.length, phase := .entry }) else .ok .refuse
  | .entry => .ok (.go { p with file := { p.file with name := [], filename := [], contentType := [] }, phase := .headers })
  | .headers =>
    (p.buf.find Cut.crlf).bind fun pos =>
    if pos > 8192 then .ok .refuse else headLoop (n + 1) p pos
  | .body =>
    if p.closing.length > n then .ok (.wait p)
    else
      (p.buf.find p.closing).bind fun pos =>
      if pos < n then
        (p.buf.bytes pos).bind fun x =>
        (received p.files x).bind fun fs =>
        .ok (.go { p with buf := p.buf.erase (pos + p.closing.length), phase := .boundary, files := fs })
      else if n - p.closing.length > 0 then
        (p.buf.bytes (n - p.closing.length)).bind fun x =>
        (received p.files x).bind fun fs => .ok (.wait { p with buf := p.buf.erase (n - p.closing.length), files := fs })
      else .ok (.wait p)
  | .boundary =>
    if 2 > n then .ok (.wait p)
    else
      (p.buf.startWith Cut.crlf).bind fun e =>
      if e then .ok (.go { p with buf := p.buf.erase 2, phase := .entry })
      else
        (p.buf.startWith Cut.dash).bind fun e =>
        if e then
          let b := p.buf.erase 2
          b.size.bind fun m => .ok (.go { p with valid := true, buf := b.erase m })
        else .ok (.wait p)

/-- The loop of `parse`, /repo/src/brski/http/httplib.h:4687-4834; `k` is a bound for its rounds; `none` is the result `false`. -/
def Parser.run : Nat → Parser → Outcome (Option Parser)
  | 0, _ => .ub
  | k + 1, p =>
    p.buf.size.bind fun n =>
    if n > 0 then
      (p.round n).bind fun r =>
      match r with
      | .refuse => .ok Option.none
      | .wait q => .ok (some q)
      | .go q => Parser.run k q
    else .ok (some p)

/-- `parse`, /repo/src/brski/http/httplib.h:4682-4835.  There are at most two rounds for each byte. -/
def Parser.parse (p : Parser) (x : Bytes) : Outcome (Option Parser) :=
  (p.buf.append x).bind fun b =>
  b.size.bind fun n => Parser.run (2 * n + 2) { p with buf := b }

/-- A parser that has read nothing, /repo/src/brski/http/httplib.h:4672-4678,4861-4863,4942-4944. -/
def Parser.new (bd : Bytes) : Parser := ⟨bd, .first, false, File.none, ⟨[], 0, 0⟩, []⟩

/-- The pieces of a body, one after the other, until one is refused (/repo/src/brski/http/httplib.h:4065-4090,6551-6566). -/
def Parser.feed : Parser → List Bytes → Outcome (Option Parser)
  | p, [] => .ok (some p)
  | p, x :: xs => (p.parse x).bind fun r =>
    match r with
    | Option.none => .ok Option.none
    | some q => Parser.feed q xs

end Brski.Form
