import Verif.Base

/-!
# Independent specification of base64 (RFC 4648 section 4)

Nothing here refers to the model of the code.
-/

namespace Brski.Spec

/-- RFC 4648 table 1, by ranges (specification; compared with
/repo/src/voucher/serialize.c:18-19). -/
def alphabet (n : Nat) : UInt8 :=
  if n < 26 then UInt8.ofNat (65 + n)          -- 'A'..'Z'
  else if n < 52 then UInt8.ofNat (97 + (n - 26))   -- 'a'..'z'
  else if n < 62 then UInt8.ofNat (48 + (n - 52))   -- '0'..'9'
  else if n = 62 then 43                       -- '+'
  else 47                                      -- '/'

/-- The bits of a byte, most significant first (specification for
/repo/src/voucher/serialize.c:111-174). -/
def byteBits (b : UInt8) : List Bool :=
  [7, 6, 5, 4, 3, 2, 1, 0].map fun i => b.toNat.testBit i

/-- Value of a bit list, most significant first (specification for
/repo/src/voucher/serialize.c:111-174). -/
def bitsVal (l : List Bool) : Nat := l.foldl (fun n b => 2 * n + b.toNat) 0

/-- Cut a bit stream in groups of six, padding the last group with zero bits on the
right (RFC 4648 section 4; specification for /repo/src/voucher/serialize.c:111-174). -/
def sextets : List Bool → List Nat
  | [] => []
  | b :: bs =>
    bitsVal (((b :: bs) ++ List.replicate 5 false).take 6) :: sextets ((b :: bs).drop 6)
termination_by l => l.length
decreasing_by simp; omega

/-- RFC 4648 section 4 encoding, without line breaks (specification for
/repo/src/voucher/serialize.c:255-268). -/
def rfc4648 (bs : Bytes) : Bytes :=
  let t := (sextets (bs.flatMap byteBits)).map alphabet
  t ++ List.replicate ((4 - t.length % 4) % 4) 61

/-- Characters that carry meaning in base64 text: the alphabet and `'='`
(specification for /repo/src/voucher/serialize.c:185-196). -/
def isB64Char (c : UInt8) : Bool :=
  c == 61 || (List.range 64).any fun n => alphabet n == c

end Brski.Spec
