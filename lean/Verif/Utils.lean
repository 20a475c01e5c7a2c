import Verif.BoolTime
import Verif.Heap

/-!
# String and allocation helpers, hex formatting, standard input (model)

/repo/src/utils/os.c, `printf_hex` of /repo/src/utils/log.c and `read_stdin` of /repo/src/brski/brski.cpp, as loops on
bounds-checked buffers.  A buffer is the whole object a pointer points to the start of; source and destination do not
overlap.
-/

namespace Brski.Utils

open BoolTime (cstr)

/-! ## os.c -/

/-- `strlen`: undefined when the object has no NUL (/repo/src/utils/os.c:70,82). -/
def strlen (s : Bytes) : Outcome Nat := if 0 ∈ s then .ok (cstr s).length else .ub

/-- `memccpy(dest, src, '\0', n)` with the copy at index `i`; the result is the index after the NUL copied
(/repo/src/utils/os.c:74). -/
def memccpy (src : Bytes) : Nat → Nat → Bytes → Outcome (Bytes × Option Nat)
  | 0, _, dest => .ok (dest, none)
  | n + 1, i, dest =>
    (rd src i).bind fun c => (wr dest i c).bind fun dest =>
      if c = 0 then .ok (dest, some (i + 1)) else memccpy src n (i + 1) dest

/-- `sys_strlcpy`, /repo/src/utils/os.c:72-84.  For `siz = 0` the index `siz - 1` lies before the object. -/
def strlcpy (dest src : Bytes) (siz : Nat) : Outcome (Bytes × Nat) :=
  (memccpy src siz 0 dest).bind fun r =>
    match r.2 with
    | some e => .ok (r.1, e - 1)
    | none =>
      if siz = 0 then .ub
      else (wr r.1 (siz - 1) 0).bind fun d => (strlen src).bind fun n => .ok (d, n)

/-- `memchr(str, '\0', n)` from index `i` on: reads up to the first NUL (/repo/src/utils/os.c:87). -/
def memchr0 (s : Bytes) : Nat → Nat → Outcome (Option Nat)
  | 0, _ => .ok none
  | n + 1, i => (rd s i).bind fun c => if c = 0 then .ok (some i) else memchr0 s n (i + 1)

/-- `sys_strnlen_s`, /repo/src/utils/os.c:86-93. -/
def strnlenS (s : Bytes) (max : Nat) : Outcome Nat :=
  (memchr0 s max 0).bind fun r =>
    match r with
    | none => .ok max
    | some i => .ok i

/-- `memset(dest + i, 0, n)`: the padding of `strncpy` (/repo/src/utils/os.c:64). -/
def padZero : Nat → Nat → Bytes → Outcome Bytes
  | 0, _, dest => .ok dest
  | n + 1, i, dest => (wr dest i 0).bind fun dest => padZero n (i + 1) dest

/-- `strncpy` from index `i` on (/repo/src/utils/os.c:64). -/
def strncpy (s : Bytes) : Nat → Nat → Bytes → Outcome Bytes
  | 0, _, dest => .ok dest
  | n + 1, i, dest =>
    (rd s i).bind fun c =>
      if c = 0 then padZero (n + 1) i dest else (wr dest i c).bind fun dest => strncpy s n (i + 1) dest

/-- `sys_strndup`, /repo/src/utils/os.c:55-68; `none` is NULL.  `calloc` zeroes the block. -/
def strndup (al : Allocator) (s : Option Bytes) (length : Nat) : Outcome (Option Bytes) :=
  match s with
  | none => .ok none
  | some s =>
    match al.malloc (szWrap (length + 1)) with
    | none => .ok none
    | some b => (strncpy s length 0 (List.replicate b.length 0)).bind fun d => .ok (some d)

/-- `sys_strdup`, /repo/src/utils/os.c:70; `strlen(NULL)` is undefined. -/
def strdup (al : Allocator) (s : Option Bytes) : Outcome (Option Bytes) :=
  match s with
  | none => .ub
  | some s => (strlen s).bind fun n => strndup al (some s) n

/-- `memcpy(dest, src, n)` from index `i` on (/repo/src/utils/os.c:50). -/
def memcpy (src : Bytes) : Nat → Nat → Bytes → Outcome Bytes
  | 0, _, dest => .ok dest
  | n + 1, i, dest => (rd src i).bind fun c => (wr dest i c).bind fun dest => memcpy src n (i + 1) dest

/-- `sys_memdup`, /repo/src/utils/os.c:39-53. -/
def memdup (al : Allocator) (src : Option Bytes) (len : Nat) : Outcome (Option Bytes) :=
  match src with
  | none => .ok none
  | some s =>
    match al.malloc len with
    | none => .ok none
    | some b => (memcpy s len 0 b).bind fun d => .ok (some d)

/-- `realloc` of glibc (/repo/src/utils/os.h:88-90): a request for no bytes releases the block and gives NULL; a request
that cannot be met leaves the block; otherwise the content moves to a new block. -/
def realloc (al : Allocator) (h : Heap) (p : Option Nat) (n : Nat) : Outcome (Heap × Option Nat) :=
  match p with
  | none =>
    match al.malloc n with
    | none => .ok (h, none)
    | some b => .ok ((h.alloc b).1, some (h.alloc b).2)
  | some p =>
    (h.read p).bind fun old =>
      if n = 0 then (h.free p).bind fun h => .ok (h, none)
      else
        match al.malloc n with
        | none => .ok (h, none)
        | some b =>
          (h.free p).bind fun h =>
            .ok ((h.alloc (old.take n ++ b.drop old.length)).1, some (h.alloc (old.take n ++ b.drop old.length)).2)

/-- `sys_realloc_array`, /repo/src/utils/os.c:32-37. -/
def reallocArray (al : Allocator) (h : Heap) (p : Option Nat) (nmemb size : Nat) : Outcome (Heap × Option Nat) :=
  if size ≠ 0 ∧ sizeMax / size < nmemb then .ok (h, none) else realloc al h p (szWrap (nmemb * size))

/-! ## printf_hex -/

/-- A hexadecimal digit of `%02X` or `%02x` (/repo/src/utils/log.c:331). -/
def hexDigit (upper : Bool) (n : Nat) : UInt8 := if n < 10 then UInt8.ofNat (48 + n) else UInt8.ofNat ((if upper then 55 else 87) + n)

/-- `snprintf(pos, max_len, "%02X", b)`: at most `max_len - 1` characters and a NUL, nothing for `max_len = 0`
(/repo/src/utils/log.c:331). -/
def putHex (upper : Bool) (buf : Bytes) (pos maxLen : Nat) (b : UInt8) : Outcome Bytes :=
  match maxLen with
  | 0 => .ok buf
  | 1 => wr buf pos 0
  | 2 => (wr buf pos (hexDigit upper (b.toNat / 16))).bind fun buf => wr buf (pos + 1) 0
  | _ =>
    (wr buf pos (hexDigit upper (b.toNat / 16))).bind fun buf =>
      (wr buf (pos + 1) (hexDigit upper (b.toNat % 16))).bind fun buf => wr buf (pos + 2) 0

/-- The loop of `printf_hex`, /repo/src/utils/log.c:328-336; `snprintf` returns 2. -/
def hexLoop (upper : Bool) (bufSize : Nat) : Bytes → Nat → Bytes → Outcome (Bytes × Nat)
  | [], pos, buf => .ok (buf, pos)
  | b :: data, pos, buf =>
    (putHex upper buf pos (bufSize - pos) b).bind fun buf =>
      if bufSize - pos ≤ 2 then .ok (buf, pos) else hexLoop upper bufSize data (pos + 2) buf

/-- `printf_hex`, /repo/src/utils/log.c:314-341: buffer and return value; `none` is NULL.  `data` are the `len` bytes
read. -/
def printfHex (buf : Option Bytes) (bufSize : Nat) (data : Option Bytes) (upper : Bool) : Outcome (Option Bytes × Nat) :=
  if bufSize = 0 then .ok (buf, 0)
  else
    match buf, data with
    | none, _ => .ok (none, 0)
    | some b, none => .ok (some b, 0)
    | some b, some d =>
      (hexLoop upper bufSize d 0 b).bind fun r => (wr r.1 (bufSize - 1) 0).bind fun b => .ok (some b, r.2)

/-! ## Standard input -/

/-- `MAX_STDIN_SIZE`, /repo/src/brski/brski.cpp:22. -/
def maxStdin : Nat := 4096

/-- `read_stdin` with `cnt` bytes read so far (/repo/src/brski/brski.cpp:228-237): `input` is what can still be read,
`none` is -1. -/
def readStdin : Bytes → Nat → Bytes → Outcome (Bytes × Option Nat)
  | [], cnt, buf => .ok (buf, some cnt)
  | c :: input, cnt, buf =>
    (wr buf cnt c).bind fun buf => if maxStdin < cnt + 1 then .ok (buf, none) else readStdin input (cnt + 1) buf

/-- The command `vmasa` up to the terminated text (/repo/src/brski/brski.cpp:409-424): `inbuf` is uninitialised,
`none` is the refusal `Input size exceeds max`. -/
def readVoucherText (inbuf input : Bytes) : Outcome (Option Bytes) :=
  (readStdin input 0 inbuf).bind fun r =>
    match r.2 with
    | none => .ok none
    | some sz => (wr r.1 sz 0).bind fun b => .ok (some b)

end Brski.Utils
