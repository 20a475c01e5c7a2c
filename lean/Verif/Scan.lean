import Verif.Wire

/-!
# Scanning texts with indices and buffers

The functions of /repo/src/brski/http/httplib.h that look at the bytes of a message one at a time, with the indices and
buffers of the code: every access outside a text or a buffer, every read of memory that nothing was written to and every
failed assertion is undefined behaviour.  `Routes` and `Wire` describe the same functions by their results; `PropsScan`
shows that the two agree.
-/

namespace Brski.Scan
open Outcome Routes

/-! ## Access -/

/-- `s[i]` on a `std::string`: the character behind the last one is NUL, further ones do not exist
(/repo/src/brski/http/httplib.h:2377,2589). -/
def charAt (s : Bytes) (i : Nat) : Outcome UInt8 :=
  match s[i]? with
  | some c => .ok c
  | none => if i = s.length then .ok 0 else .ub

/-- `b[i]` on a range of bytes (/repo/src/brski/http/httplib.h:2646,2678). -/
def byteAt (s : Bytes) (i : Nat) : Outcome UInt8 :=
  match s[i]? with
  | some c => .ok c
  | none => .ub

/-- `std::string(b + i, b + j)` (/repo/src/brski/http/httplib.h:2682,4004). -/
def slice (s : Bytes) (i j : Nat) : Outcome Bytes :=
  if i ≤ j ∧ j ≤ s.length then .ok ((s.drop i).take (j - i)) else .ub

/-- Memory of a local array: `none` was never written (/repo/src/brski/http/httplib.h:2596,4021). -/
abbrev Mem := List (Option UInt8)

/-- `buff[i] = v` (/repo/src/brski/http/httplib.h:2403-2423,2754-2755). -/
def putAt (m : Mem) (i : Nat) (v : UInt8) : Outcome Mem :=
  if i < m.length then .ok (m.set i (some v)) else .ub

/-- Reading `n` bytes from the beginning of an array, as `append(buff, len)` and `assign(buff, len)` do
(/repo/src/brski/http/httplib.h:2599,2759). -/
def getN : Mem → Nat → Outcome Bytes
  | _, 0 => .ok []
  | some c :: m, n + 1 => (getN m n).bind fun r => .ok (c :: r)
  | _, _ + 1 => .ub

/-! ## `trim` and `split` -/

/-- First loop of `trim`, /repo/src/brski/http/httplib.h:2646-2648; `e` is the end of the text. -/
def trimLeft (s : Bytes) (left : Nat) : Outcome Nat :=
  if _h : left < s.length then
    (byteAt s left).bind fun c => if isBlank c then trimLeft s (left + 1) else .ok left
  else .ok left
termination_by s.length - left

/-- Second loop of `trim`, /repo/src/brski/http/httplib.h:2649-2651. -/
def trimRight (s : Bytes) : Nat → Outcome Nat
  | 0 => .ok 0
  | r + 1 => (byteAt s r).bind fun c => if isBlank c then trimRight s r else .ok (r + 1)

/-- `trim` and the call of the callback unless the range is empty, /repo/src/brski/http/httplib.h:2644-2653,2680-2683. -/
def part (s : Bytes) (left right : Nat) : Outcome (List Bytes) :=
  (trimLeft s left).bind fun a =>
  (trimRight s right).bind fun b =>
  if a < b then (slice s a b).bind fun x => .ok [x] else .ok []

/-- Loop of `split`: the final `i` and `beg`, and what the callback was called with,
/repo/src/brski/http/httplib.h:2674-2688. -/
def splitLoop (d : UInt8) (m : Nat) (s : Bytes) (i beg count : Nat) (out : List Bytes) :
    Outcome (Nat × Nat × List Bytes) :=
  if _h : i < s.length then
    (byteAt s i).bind fun c =>
    if c = d ∧ count < m then
      (part s beg i).bind fun p => splitLoop d m s (i + 1) (i + 1) (count + 1) (out ++ p)
    else splitLoop d m s (i + 1) beg count out
  else .ok (i, beg, out)
termination_by s.length - i

/-- `split` with limit, /repo/src/brski/http/httplib.h:2672-2696. -/
def split (d : UInt8) (m : Nat) (s : Bytes) : Outcome (List Bytes) :=
  (splitLoop d m s 0 0 1 []).bind fun r =>
  if r.1 ≠ 0 then (part s r.2.1 r.1).bind fun p => .ok (r.2.2 ++ p) else .ok r.2.2

/-- `std::numeric_limits<size_t>::max()`, /repo/src/brski/http/httplib.h:2669. -/
def noLimit : Nat := 2 ^ 64 - 1

/-! ## `decode_url` -/

/-- Loop of `from_hex_to_i`: `val` is an `int` (/repo/src/brski/http/httplib.h:2376-2387). -/
def hexLoop (s : Bytes) : Nat → Nat → Nat → Outcome (Option Nat)
  | 0, _, v => .ok (some v)
  | n + 1, i, v =>
    (charAt s i).bind fun c =>
    if c = 0 then .ok none
    else
      match hexVal c with
      | none => .ok none
      | some d => if v * 16 + d < 2 ^ 31 then hexLoop s n (i + 1) (v * 16 + d) else .ub

/-- `from_hex_to_i`, /repo/src/brski/http/httplib.h:2370-2389. -/
def hexAt (s : Bytes) (i cnt : Nat) : Outcome (Option Nat) :=
  if i ≥ s.length then .ok none else hexLoop s cnt i 0

/-- Writing some bytes from position `i` on, one statement each (/repo/src/brski/http/httplib.h:2403-2423). -/
def puts : Mem → Nat → List Nat → Outcome Mem
  | m, _, [] => .ok m
  | m, i, v :: vs => (putAt m i (UInt8.ofNat v)).bind fun m => puts m (i + 1) vs

/-- `to_utf8`: the array afterwards and the result, /repo/src/brski/http/httplib.h:2401-2430. -/
def utf8Into (code : Nat) (m : Mem) : Outcome (Mem × Nat) :=
  if code < 0x0080 then (puts m 0 [code &&& 0x7F]).bind fun m => .ok (m, 1)
  else if code < 0x0800 then
    (puts m 0 [0xC0 ||| ((code >>> 6) &&& 0x1F), 0x80 ||| (code &&& 0x3F)]).bind fun m => .ok (m, 2)
  else if code < 0xD800 then
    (puts m 0 [0xE0 ||| ((code >>> 12) &&& 0xF), 0x80 ||| ((code >>> 6) &&& 0x3F), 0x80 ||| (code &&& 0x3F)]).bind fun m =>
      .ok (m, 3)
  else if code < 0xE000 then .ok (m, 0)
  else if code < 0x10000 then
    (puts m 0 [0xE0 ||| ((code >>> 12) &&& 0xF), 0x80 ||| ((code >>> 6) &&& 0x3F), 0x80 ||| (code &&& 0x3F)]).bind fun m =>
      .ok (m, 3)
  else if code < 0x110000 then
    (puts m 0 [0xF0 ||| ((code >>> 18) &&& 0x7), 0x80 ||| ((code >>> 12) &&& 0x3F), 0x80 ||| ((code >>> 6) &&& 0x3F),
      0x80 ||| (code &&& 0x3F)]).bind fun m => .ok (m, 4)
  else .ok (m, 0)

/-- Loop of `decode_url`, /repo/src/brski/http/httplib.h:2589-2617. -/
def decodeLoop (plus : Bool) (s : Bytes) (i : Nat) (out : Bytes) : Outcome Bytes :=
  if _h : i < s.length then
    (charAt s i).bind fun c =>
    if c = 37 ∧ i + 1 < s.length then
      (charAt s (i + 1)).bind fun d =>
      if d = 117 then
        (hexAt s (i + 2) 4).bind fun v =>
        match v with
        | some v =>
          (utf8Into v (List.replicate 4 none)).bind fun b =>
          (getN b.1 b.2).bind fun x => decodeLoop plus s (i + 6) (out ++ x)
        | none => decodeLoop plus s (i + 1) (out ++ [c])
      else
        (hexAt s (i + 1) 2).bind fun v =>
        match v with
        | some v => decodeLoop plus s (i + 3) (out ++ [UInt8.ofNat v])
        | none => decodeLoop plus s (i + 1) (out ++ [c])
    else if plus = true ∧ c = 43 then decodeLoop plus s (i + 1) (out ++ [32])
    else decodeLoop plus s (i + 1) (out ++ [c])
  else .ok out
termination_by s.length - i

/-- `decode_url`, /repo/src/brski/http/httplib.h:2585-2620. -/
def decode (plus : Bool) (s : Bytes) : Outcome Bytes := decodeLoop plus s 0 []

/-! ## Parameters -/

/-- The inner callback of `parse_query_text`, /repo/src/brski/http/httplib.h:4569-4576: the first part becomes the key,
each further one replaces the value. -/
def keyVal (kv : Bytes × Bytes) (x : Bytes) : Bytes × Bytes := if kv.1 = [] then (x, kv.2) else (kv.1, x)

/-- The outer callback of `parse_query_text` over the parts: `cache` and the parameters so far, in the order in which they
are inserted, /repo/src/brski/http/httplib.h:4562-4582. -/
def queryLoop : List Bytes → List Bytes → List (Bytes × Bytes) → Outcome (List (Bytes × Bytes))
  | [], _, out => .ok out
  | kv :: r, cache, out =>
    if kv ∈ cache then queryLoop r cache out
    else
      (split 61 noLimit kv).bind fun ps =>
      let p := ps.foldl keyVal ([], [])
      if p.1 ≠ [] then
        (decode true p.1).bind fun k => (decode true p.2).bind fun v => queryLoop r (kv :: cache) (out ++ [(k, v)])
      else queryLoop r (kv :: cache) out

/-- `parse_query_text`, /repo/src/brski/http/httplib.h:4560-4583. -/
def query (s : Bytes) : Outcome (List (Bytes × Bytes)) := (split 38 noLimit s).bind fun ps => queryLoop ps [] []

/-! ## `parse_header` -/

/-- The loop over the spaces at the end, /repo/src/brski/http/httplib.h:3978-3980. -/
def headerEnd (s : Bytes) : Nat → Outcome Nat
  | 0 => .ok 0
  | e + 1 => (byteAt s e).bind fun c => if isBlank c then headerEnd s e else .ok (e + 1)

/-- The loop that looks for the colon, /repo/src/brski/http/httplib.h:3982-3985. -/
def findColon (s : Bytes) (e p : Nat) : Outcome Nat :=
  if _h : p < e then (byteAt s p).bind fun c => if c ≠ 58 then findColon s e (p + 1) else .ok p else .ok p
termination_by e - p

/-- The loop over the spaces before the value, /repo/src/brski/http/httplib.h:3997-3999. -/
def skipBlank (s : Bytes) (e p : Nat) : Outcome Nat :=
  if _h : p < e then (byteAt s p).bind fun c => if isBlank c then skipBlank s e (p + 1) else .ok p else .ok p
termination_by e - p

/-- `parse_header`, /repo/src/brski/http/httplib.h:3976-4016; the comparison with `Location` ignores the case. -/
def header (s : Bytes) : Outcome (Option Field) :=
  (headerEnd s s.length).bind fun e =>
  (findColon s e 0).bind fun p =>
  if p = e then .ok none
  else
    (byteAt s p).bind fun c =>
    if c ≠ 58 then .ok none
    else
      (skipBlank s e (p + 1)).bind fun q =>
      if q < e then
        if p = 0 then .ok none
        else
          (slice s 0 p).bind fun key =>
          (slice s q e).bind fun val =>
          if key.map lower = str "location" then .ok (some (key, val))
          else (decode false val).bind fun v => .ok (some (key, v))
      else .ok none

/-! ## `stream_line_reader` -/

/-- `class stream_line_reader`: the array it was given and its own string (/repo/src/brski/http/httplib.h:2304-2321). -/
structure Reader where
  fixed : Mem
  used : Nat
  grow : Bytes
deriving Repr, DecidableEq

/-- `append`, /repo/src/brski/http/httplib.h:2752-2763; an array without elements makes `fixed_buffer_size_ - 1` the
largest number. -/
def Reader.append (r : Reader) (c : UInt8) : Outcome Reader :=
  if r.fixed.length = 0 ∨ r.used < r.fixed.length - 1 then
    (putAt r.fixed r.used c).bind fun m =>
    (putAt m (r.used + 1) 0).bind fun m => .ok { r with fixed := m, used := r.used + 1 }
  else if r.grow = [] then
    if r.fixed[r.used]? = some (some 0) then
      (getN r.fixed r.used).bind fun g => .ok { r with grow := g ++ [c] }
    else .ub
  else .ok { r with grow := r.grow ++ [c] }

/-- The loop of `getline` on a connection that delivers these bytes and then ends or fails; the reader afterwards and the
bytes that remain, `none` is the result `false` (/repo/src/brski/http/httplib.h:2728-2749). -/
def Reader.lineLoop (ends : Bool) : Reader → Nat → Bytes → Outcome (Option (Reader × Bytes))
  | r, i, [] => .ok (if ends = false ∨ i = 0 then none else some (r, []))
  | r, i, c :: s =>
    (r.append c).bind fun r => if c = 10 then .ok (some (r, s)) else Reader.lineLoop ends r (i + 1) s

/-- `getline`, /repo/src/brski/http/httplib.h:2724-2750. -/
def Reader.getline (ends : Bool) (r : Reader) (s : Bytes) : Outcome (Option (Reader × Bytes)) :=
  Reader.lineLoop ends { r with used := 0, grow := [] } 0 s

/-- `ptr()` and `size()`: the bytes of the line (/repo/src/brski/http/httplib.h:2703-2717). -/
def Reader.text (r : Reader) : Outcome Bytes := if r.grow = [] then getN r.fixed r.used else .ok r.grow

/-- The C string at `ptr()`, as `strlen`, `strcmp` and `strtoul` see it: the string of the reader ends with a NUL behind
its last character (/repo/src/brski/http/httplib.h:4139,4159,6254,2703-2709). -/
def cchars : Mem → Outcome Bytes
  | some c :: m => if c = 0 then .ok [] else (cchars m).bind fun r => .ok (c :: r)
  | _ => .ub

/-- The C string at `ptr()` (/repo/src/brski/http/httplib.h:2703-2709,6254). -/
def Reader.cstring (r : Reader) : Outcome Bytes :=
  if r.grow = [] then cchars r.fixed else cchars (r.grow.map some ++ [some 0])

/-- `end_with_crlf`, /repo/src/brski/http/httplib.h:2719-2722. -/
def Reader.crlf (r : Reader) : Outcome Bool :=
  r.text.bind fun t =>
  if t.length ≥ 2 then
    (byteAt t (t.length - 2)).bind fun a =>
    if a ≠ 13 then .ok false else (byteAt t (t.length - 1)).bind fun b => .ok (b == 10)
  else .ok false

/-! ## `write_format` -/

/-- `snprintf(buf, n, …)` for the text `t`: the bytes of the array afterwards (/repo/src/brski/http/httplib.h:1841,1854). -/
def snprintf (m : Bytes) (n : Nat) (t : Bytes) : Outcome Bytes :=
  if n > m.length then .ub
  else if n = 0 then .ok m
  else .ok (t.take (n - 1) ++ 0 :: m.drop (Nat.min t.length (n - 1) + 1))

/-- `write(buf, n)`: the bytes that are sent (/repo/src/brski/http/httplib.h:1856,1858). -/
def written (m : Bytes) (n : Nat) : Outcome Bytes := if n ≤ m.length then .ok (m.take n) else .ub

/-- The loop that doubles the array and the call of `write` behind it, /repo/src/brski/http/httplib.h:1851-1856; `m` is
what the array of `size` bytes holds.  (The array is 2048 bytes long at first; one of no bytes would not grow.) -/
def growLoop (t : Bytes) (size : Nat) (m : Bytes) : Outcome Bytes :=
  if _h : t.length ≥ size - 1 ∧ 0 < size then
    (snprintf (m ++ List.replicate (2 * size - m.length) 0) (2 * size - 1) t).bind fun m => growLoop t (2 * size) m
  else written m t.length
termination_by t.length + 2 - size

/-- `write_format` for the text `t` that the format and the arguments describe: the bytes handed to `write`, none if
`snprintf` reports an error, as it does for a text that an `int` cannot count (/repo/src/brski/http/httplib.h:1836-1860). -/
def writeFormat (t : Bytes) : Outcome Bytes :=
  (snprintf (List.replicate 2048 0) 2047 t).bind fun m =>
  if t.length = 0 ∨ 2 ^ 31 ≤ t.length then .ok []
  else if t.length ≥ 2047 then growLoop t 2048 (List.replicate 2048 0)
  else written m t.length

end Brski.Scan
