import Verif.Base

/-!
# The jsmn tokenizer (model)

`jsmn_parse` of the jsmn library v1.1.0 (non-strict mode, no parent links), the tokenizer
called at /repo/src/voucher/voucher.c:806-810 (fetched by /repo/lib/jsmn.cmake).  The library
is not part of the repository and its source was not at hand: the model is written from general
knowledge of jsmn, has not been compared with the text of v1.1.0, and belongs to the trusted base.
Statements below about what the C code of jsmn does are on the same footing.

The input position is represented by the remaining suffix together with its offset: matching
on `c :: rest` is the test `pos < len`, so reads of the input are in bounds by construction,
as in the C code which tests before each read.
-/

namespace Brski.Jsmn

/-- `jsmntype_t` of jsmn, used at /repo/src/voucher/voucher.c:816,831. -/
inductive TokType where
  | object | array | string | primitive
deriving Repr, DecidableEq

/-- `jsmntok_t` of jsmn (/repo/src/voucher/voucher.c:804).  `stop = none` is -1, the mark of
an object or array that is still open; `start` of an allocated token is never -1 because every
caller of `jsmn_alloc_token` sets it immediately. -/
structure Tok where
  type : TokType
  start : Nat
  stop : Option Nat
  size : Nat
deriving Repr, DecidableEq

/-- Error codes of `jsmn_parse` (negative results tested at
/repo/src/voucher/voucher.c:811). -/
inductive Err where
  | nomem | inval | part
deriving Repr, DecidableEq

/-- Result of scanning a string (jsmn `jsmn_parse_string`, called from
/repo/src/voucher/voucher.c:809): position of the closing quote and the input after it. -/
inductive ScanRes where
  | closed (p : Nat) (rest : Bytes)
  | err (e : Err)
deriving Repr, DecidableEq

/-- Hexadecimal digit test of jsmn `jsmn_parse_string` (via
/repo/src/voucher/voucher.c:809). -/
def isHex (c : UInt8) : Bool :=
  (48 ≤ c && c ≤ 57) || (65 ≤ c && c ≤ 70) || (97 ≤ c && c ≤ 102)

/-- One-character escapes accepted by jsmn `jsmn_parse_string`: `" / \ b f r n t` (via
/repo/src/voucher/voucher.c:809). -/
def isEscape (c : UInt8) : Bool :=
  c == 34 || c == 47 || c == 92 || c == 98 || c == 102 || c == 114 || c == 110 || c == 116

/-- jsmn `jsmn_parse_string` after the opening quote (via /repo/src/voucher/voucher.c:809).
The first argument counts the hexadecimal digits still expected after `\u`.  NUL or the end
of input give PART; a backslash as the very last byte is skipped (and then PART). -/
def scanString : Nat → Bytes → Nat → ScanRes
  | _, [], _ => .err .part
  | k + 1, c :: r, p =>
    if c = 0 then .err .part
    else if isHex c then scanString k r (p + 1) else .err .inval
  | 0, [c], p =>
    if c = 0 then .err .part
    else if c = 34 then .closed p []
    else .err .part
  | 0, c :: e :: r, p =>
    if c = 0 then .err .part
    else if c = 34 then .closed p (e :: r)
    else if c = 92 then
      if isEscape e then scanString 0 r (p + 2)
      else if e = 117 then scanString 4 r (p + 2)
      else .err .inval
    else scanString 0 (e :: r) (p + 1)

/-- Characters ending a primitive: `: \t \r \n space , ] }` (jsmn `jsmn_parse_primitive`,
via /repo/src/voucher/voucher.c:809). -/
def isDelim (c : UInt8) : Bool :=
  c == 58 || c == 9 || c == 13 || c == 10 || c == 32 || c == 44 || c == 93 || c == 125

/-- jsmn `jsmn_parse_primitive` after its first character (via
/repo/src/voucher/voucher.c:809): end position and the remaining input; `none` is INVAL. -/
def scanPrim : Bytes → Nat → Option (Nat × Bytes)
  | [], p => some (p, [])
  | c :: r, p =>
    if c = 0 then some (p, c :: r)
    else if isDelim c then some (p, c :: r)
    else if c < 32 ∨ c ≥ 127 then none
    else scanPrim r (p + 1)

/-- Search downwards from index `n - 1` for the last open object or array (loops of
`jsmn_parse`, via /repo/src/voucher/voucher.c:809). -/
def lastOpen (toks : List Tok) : Nat → Option Nat
  | 0 => none
  | n + 1 =>
    match toks[n]? with
    | some t => if t.stop = none then some n else lastOpen toks n
    | none => lastOpen toks n

/-- `tokens[toksuper].size++` when `toksuper != -1`; an index outside the tokens in use is
undefined (`jsmn_parse`, via /repo/src/voucher/voucher.c:809). -/
def bump (toks : List Tok) (sup : Option Nat) : Outcome (List Tok) :=
  match sup with
  | none => .ok toks
  | some i =>
    match toks[i]? with
    | some t => .ok (toks.set i { t with size := t.size + 1 })
    | none => .ub

/-- Result of the tokenizer: tokens in use (their number is the returned count, since
`jsmn_parse` increments `count` exactly when it allocates a token) or an error
(via /repo/src/voucher/voucher.c:809). -/
abbrev Res := Outcome (Except Err (List Tok))

theorem scanString_length (k : Nat) (s : Bytes) (p : Nat) :
    ∀ q r, scanString k s p = .closed q r → r.length < s.length := by
  fun_induction scanString k s p with
  | case1 => intro q r h; cases h
  | case2 => intro q r h; cases h
  | case3 _ _ _ _ _ _ ih =>
    intro q r h; have := ih q r h; simp only [List.length_cons]; omega
  | case4 => intro q r h; cases h
  | case5 => intro q r h; cases h
  | case6 => intro q r h; cases h; simp
  | case7 => intro q r h; cases h
  | case8 => intro q r h; cases h
  | case9 => intro q r h; cases h; simp
  | case10 _ _ _ _ _ _ ih =>
    intro q r h; have := ih q r h; simp only [List.length_cons]; omega
  | case11 _ _ _ _ _ ih =>
    intro q r h; have := ih q r h; simp only [List.length_cons]; omega
  | case12 => intro q r h; cases h
  | case13 _ _ _ _ _ _ _ ih =>
    intro q r h; have := ih q r h; simp only [List.length_cons] at *; omega

theorem scanPrim_length (s : Bytes) (p : Nat) :
    ∀ q r, scanPrim s p = some (q, r) → r.length ≤ s.length := by
  fun_induction scanPrim s p with
  | case1 => intro q r h; cases h; simp
  | case2 => intro q r h; cases h; simp
  | case3 => intro q r h; cases h; simp
  | case4 => intro q r h; cases h
  | case5 _ _ _ _ _ _ ih => intro q r h; have := ih q r h; simp only [List.length_cons]; omega

/-- jsmn `jsmn_parse` (called at /repo/src/voucher/voucher.c:809-810 with `num = 32`).
`rest`/`pos` is the unread input, `toks` the tokens in use (`toknext` many), `sup` is
`toksuper`. -/
def parseLoop (num : Nat) (rest : Bytes) (pos : Nat) (toks : List Tok) (sup : Option Nat) : Res :=
  match rest with
  | [] => if (lastOpen toks toks.length).isSome then .ok (.error .part) else .ok (.ok toks)
  | c :: r =>
    if c = 0 then
      if (lastOpen toks toks.length).isSome then .ok (.error .part) else .ok (.ok toks)
    else if c = 123 ∨ c = 91 then
      if toks.length ≥ num then .ok (.error .nomem)
      else
        (bump toks sup).bind fun toks =>
        let t : Tok := ⟨if c = 123 then .object else .array, pos, none, 0⟩
        parseLoop num r (pos + 1) (toks ++ [t]) (some toks.length)
    else if c = 125 ∨ c = 93 then
      match lastOpen toks toks.length with
      | none => .ok (.error .inval)
      | some i =>
        match toks[i]? with
        | none => .ub
        | some t =>
          if t.type ≠ (if c = 125 then TokType.object else .array) then .ok (.error .inval)
          else
            let toks := toks.set i { t with stop := some (pos + 1) }
            parseLoop num r (pos + 1) toks (lastOpen toks (i + 1))
    else if c = 34 then
      match h : scanString 0 r (pos + 1) with
      | .err e => .ok (.error e)
      | .closed q r' =>
        if toks.length ≥ num then .ok (.error .nomem)
        else
          (bump (toks ++ [⟨.string, pos + 1, some q, 0⟩]) sup).bind fun toks =>
          parseLoop num r' (q + 1) toks sup
    else if c = 9 ∨ c = 13 ∨ c = 10 ∨ c = 32 then parseLoop num r (pos + 1) toks sup
    else if c = 58 then
      parseLoop num r (pos + 1) toks (if toks.length = 0 then none else some (toks.length - 1))
    else if c = 44 then
      match sup with
      | none => parseLoop num r (pos + 1) toks none
      | some i =>
        match toks[i]? with
        | none => .ub
        | some t =>
          if t.type = .array ∨ t.type = .object then parseLoop num r (pos + 1) toks sup
          else
            parseLoop num r (pos + 1) toks
              (match lastOpen toks toks.length with
               | some j => some j
               | none => sup)
    else
      if c < 32 ∨ c ≥ 127 then .ok (.error .inval)
      else
        match h : scanPrim r (pos + 1) with
        | none => .ok (.error .inval)
        | some (q, r') =>
          if toks.length ≥ num then .ok (.error .nomem)
          else
            (bump (toks ++ [⟨.primitive, pos, some q, 0⟩]) sup).bind fun toks =>
            parseLoop num r' q toks sup
termination_by rest.length
decreasing_by
  all_goals simp only [List.length_cons]
  all_goals first
    | omega
    | (have := scanString_length _ _ _ _ _ h; omega)
    | (have := scanPrim_length _ _ _ _ h; omega)

/-- `jsmn_init` followed by `jsmn_parse`, /repo/src/voucher/voucher.c:806-810. -/
def parse (num : Nat) (js : Bytes) : Res := parseLoop num js 0 [] none

end Brski.Jsmn
