import Verif.Base

/-!
# Base64 codec (model)

Line by line model of /repo/src/voucher/serialize.c:111-279, on bounds-checked
memory.
-/

namespace Brski.Base64

open Outcome

/-- `base64_table` without its terminating NUL, /repo/src/voucher/serialize.c:18-19
(`sizeof(base64_table) - 1` = 64 entries). -/
def table : Bytes :=
  str "ABCDEFGHIJKLMNOPQRSTUVWXYZabcdefghijklmnopqrstuvwxyz0123456789+/"

/-- The character `'='`, /repo/src/voucher/serialize.c:159,204. -/
def eqc : UInt8 := 61

/-- `table[i]` with `i` already masked by `0x3f`; an index outside the table would
be undefined.  /repo/src/voucher/serialize.c:146-149. -/
def tab (i : UInt8) : Outcome UInt8 := rd table i.toNat

/-- State of the encoder: input index (`in - src`), output buffer, output index
(`pos - out`).  /repo/src/voucher/serialize.c:141-144. -/
structure EncSt where
  inp : Nat
  out : Bytes
  pos : Nat

/-- `*pos++ = v`, /repo/src/voucher/serialize.c:146. -/
def EncSt.put (s : EncSt) (v : UInt8) : Outcome EncSt :=
  (wr s.out s.pos v).bind fun o => .ok { s with out := o, pos := s.pos + 1 }

/-- Main loop `while (end - in >= 3)`, /repo/src/voucher/serialize.c:145-151. -/
def encLoop (src : Bytes) (s : EncSt) : Outcome EncSt :=
  if h : src.length - s.inp ≥ 3 then
    (rd src s.inp).bind fun i0 =>
    (rd src (s.inp + 1)).bind fun i1 =>
    (rd src (s.inp + 2)).bind fun i2 =>
    (tab ((i0 >>> 2) &&& 0x3f)).bind fun c0 =>
    (wr s.out s.pos c0).bind fun o0 =>
    (tab ((((i0 &&& 0x03) <<< 4) ||| (i1 >>> 4)) &&& 0x3f)).bind fun c1 =>
    (wr o0 (s.pos + 1) c1).bind fun o1 =>
    (tab ((((i1 &&& 0x0f) <<< 2) ||| (i2 >>> 6)) &&& 0x3f)).bind fun c2 =>
    (wr o1 (s.pos + 2) c2).bind fun o2 =>
    (tab (i2 &&& 0x3f)).bind fun c3 =>
    (wr o2 (s.pos + 3) c3).bind fun o3 =>
    encLoop src { inp := s.inp + 3, out := o3, pos := s.pos + 4 }
  else .ok s
termination_by src.length - s.inp
decreasing_by omega

/-- Tail handling `if (end - in) …`, /repo/src/voucher/serialize.c:153-168. -/
def encTail (src : Bytes) (addPad : Bool) (s : EncSt) : Outcome EncSt :=
  if src.length - s.inp = 0 then .ok s
  else
    (rd src s.inp).bind fun i0 =>
    (tab ((i0 >>> 2) &&& 0x3f)).bind fun c0 =>
    (s.put c0).bind fun s =>
    (if src.length - s.inp = 1 then
      (tab (((i0 &&& 0x03) <<< 4) &&& 0x3f)).bind fun c1 =>
      (s.put c1).bind fun s =>
      if addPad then s.put eqc else .ok s
    else
      (rd src (s.inp + 1)).bind fun i1 =>
      (tab ((((i0 &&& 0x03) <<< 4) ||| (i1 >>> 4)) &&& 0x3f)).bind fun c1 =>
      (s.put c1).bind fun s =>
      (tab (((i1 &&& 0x0f) <<< 2) &&& 0x3f)).bind fun c2 =>
      s.put c2).bind fun s =>
    if addPad then s.put eqc else .ok s

/-- Size of the output block, `olen` with `size_t` wrap-around,
/repo/src/voucher/serialize.c:123-129. -/
def encOlen (len : Nat) (addPad : Bool) : Nat :=
  let olen := szWrap (szWrap (len * 4) / 3 + 4)
  let olen := if addPad then szWrap (olen + olen / 72) else olen
  szWrap (olen + 1)

/-- `base64_gen_encode`, /repo/src/voucher/serialize.c:111-174.  `none` is the NULL
return; `some (buffer, out_len)` the allocated block and `*out_len`. -/
def genEncode (al : Allocator) (src : Bytes) (addPad : Bool) : Outcome (Option (Bytes × Nat)) :=
  if src.length ≥ sizeMax / 4 then .ok none
  else if encOlen src.length addPad < src.length then .ok none
  else match al.malloc (encOlen src.length addPad) with
    | none => .ok none
    | some buf =>
      (encLoop src { inp := 0, out := buf, pos := 0 }).bind fun s =>
      (encTail src addPad s).bind fun s =>
      (wr s.out s.pos 0).bind fun o =>
      .ok (some (o, s.pos))

/-- `serialize_array2base64str`, /repo/src/voucher/serialize.c:255-268.
`none` is return value -1 with `*out == NULL`. -/
def array2base64str (al : Allocator) (src : Bytes) : Outcome (Option (Bytes × Nat)) :=
  genEncode al src true

/-- Inverse table `dtable`, /repo/src/voucher/serialize.c:185-189. -/
def dtable : Bytes :=
  ((List.range 64).foldl
    (fun d i => d.set (table[i]?.getD 0).toNat (UInt8.ofNat i))
    (List.replicate 256 0x80)).set eqc.toNat 0

/-- `dtable[val]`; `val` is a `uint8_t`, the table has 256 entries.
/repo/src/voucher/serialize.c:193,221. -/
def dt (v : UInt8) : Outcome UInt8 := rd dtable v.toNat

/-- What the caller finds in `*out` after the call: NULL, an owned block, or a
pointer to memory that has already been freed.
/repo/src/voucher/serialize.c:183,205,243. -/
inductive OutPtr where
  | null
  | owned (b : Bytes)
  | dangling
deriving Repr, DecidableEq

/-- Counting loop, /repo/src/voucher/serialize.c:191-196. -/
def countLoop (src : Bytes) (i count : Nat) : Outcome Nat :=
  if h : i < src.length then
    (rd src i).bind fun v =>
    (dt v).bind fun t =>
    countLoop src (i + 1) (if t ≠ 0x80 then count + 1 else count)
  else .ok count
termination_by src.length - i

/-- Local variables of the decoding loop, /repo/src/voucher/serialize.c:178-181,
212-215.  `out` is the block `*out`, `pos` the offset of `pos` in it. -/
structure DecSt where
  out : Bytes
  pos : Nat
  block : Bytes
  count : Nat
  pad : Nat

/-- Result of the decoding loop: it ended (normally or by `break`) with `out` and
`pos`, or it returned -1 after freeing the block.
/repo/src/voucher/serialize.c:233-248. -/
inductive DecRes where
  | done (out : Bytes) (pos : Nat)
  | freed
deriving Repr, DecidableEq

/-- Decoding loop, /repo/src/voucher/serialize.c:213-250.  `n` is
`len + extra_pad`; `pos--` below the start of the block would be undefined. -/
def decLoop (src : Bytes) (n i : Nat) (s : DecSt) : Outcome DecRes :=
  if h : i < n then
    (if i ≥ src.length then .ok eqc else rd src i).bind fun v =>
    (dt v).bind fun t =>
    if t = 0x80 then decLoop src n (i + 1) s
    else
      (wr s.block s.count t).bind fun block =>
      let pad := if v = eqc then s.pad + 1 else s.pad
      let count := s.count + 1
      if count = 4 then
        (rd block 0).bind fun b0 =>
        (rd block 1).bind fun b1 =>
        (rd block 2).bind fun b2 =>
        (rd block 3).bind fun b3 =>
        (wr s.out s.pos ((b0 <<< 2) ||| (b1 >>> 4))).bind fun o =>
        (wr o (s.pos + 1) ((b1 <<< 4) ||| (b2 >>> 2))).bind fun o =>
        (wr o (s.pos + 2) ((b2 <<< 6) ||| b3)).bind fun o =>
        let pos := s.pos + 3
        if pad ≠ 0 then
          if pad = 1 then .ok (.done o (pos - 1))
          else if pad = 2 then .ok (.done o (pos - 2))
          else .ok .freed
        else decLoop src n (i + 1) { out := o, pos := pos, block := block, count := 0, pad := 0 }
      else decLoop src n (i + 1) { s with block := block, count := count, pad := pad }
  else .ok (.done s.out s.pos)
termination_by n - i

/-- `base64_gen_decode`, /repo/src/voucher/serialize.c:176-253.  The first component
is the return value (`none` = -1), the second what `*out` holds on return.  The
owned block is reported cut to the returned length. `blk` is the (uninitialised)
content of the 4 byte local array `block`. -/
def genDecode (al : Allocator) (blk : Bytes) (src : Bytes) : Outcome (Option Nat × OutPtr) :=
  (countLoop src 0 0).bind fun count =>
  if count = 0 then .ok (none, .null)
  else
    let extraPad := (4 - count % 4) % 4
    let olen := szWrap (szWrap (count + extraPad) / 4 * 3)
    match al.malloc olen with
    | none => .ok (none, .null)
    | some buf =>
      (decLoop src (szWrap (src.length + extraPad)) 0
        { out := buf, pos := 0, block := blk, count := 0, pad := 0 }).bind fun r =>
      match r with
      | .done o pos => .ok (some pos, .owned (o.take pos))
      | .freed => .ok (none, .dangling)

/-- `serialize_base64str2array`, /repo/src/voucher/serialize.c:270-279. -/
def base64str2array (al : Allocator) (blk : Bytes) (src : Bytes) :
    Outcome (Option Nat × OutPtr) :=
  (genDecode al blk src).bind fun r =>
  match r with
  | (none, p) => .ok (none, p)
  | (some n, p) => .ok (some n, p)

end Brski.Base64
