/-!
# Common vocabulary of the model

Byte strings, outcomes with undefined behaviour, bounds-checked memory access and
the allocation oracle.  These definitions give meaning to C language constructs
(not to particular functions of the repository); the files using them cite the
source lines they model.
-/

namespace Brski

/-- C `uint8_t` / `char` sequences.  All byte buffers in /repo/src are modelled as
lists of bytes; C strings are the bytes before the terminating NUL
(/repo/src/voucher/array.h:155-158 `struct BinaryArray`, `char *` everywhere). -/
abbrev Bytes := List UInt8

/-- Meaning of an ASCII string literal in the C sources (e.g.
/repo/src/voucher/voucher_defs.h:14-60) as bytes without NUL. -/
def str (s : String) : Bytes := s.toList.map (fun c => UInt8.ofNat c.toNat)

/-- Result of executing a piece of C: either a value or undefined behaviour
(out-of-bounds access, NULL dereference, use after free, double free).  `ub` is
absorbing: a program that hits it has no meaningful result.  Generic C semantics,
used for all files under /repo/src. -/
inductive Outcome (α : Type) where
  | ok (a : α)
  | ub
deriving Repr, DecidableEq

namespace Outcome

/-- Sequencing of C statements: undefined behaviour absorbs the rest.
Generic C semantics, used for all files under /repo/src. -/
def bind {α β : Type} (x : Outcome α) (f : α → Outcome β) : Outcome β :=
  match x with
  | ok a => f a
  | ub => ub

instance : Monad Outcome where
  pure := ok
  bind := bind

@[simp] theorem pure_eq {α : Type} (a : α) : (pure a : Outcome α) = ok a := rfl
@[simp] theorem bind_ok {α β : Type} (a : α) (f : α → Outcome β) :
    (Outcome.ok a >>= f) = f a := rfl
@[simp] theorem bind_ub {α β : Type} (f : α → Outcome β) :
    ((Outcome.ub : Outcome α) >>= f) = ub := rfl
@[simp] theorem bind'_ok {α β : Type} (a : α) (f : α → Outcome β) :
    Outcome.bind (ok a) f = f a := rfl
@[simp] theorem bind'_ub {α β : Type} (f : α → Outcome β) :
    Outcome.bind (ub : Outcome α) f = ub := rfl
@[simp] theorem map_ok {α β : Type} (a : α) (f : α → β) :
    (f <$> Outcome.ok a) = ok (f a) := rfl

/-- The execution has defined behaviour.  Generic C semantics, used for all files
under /repo/src. -/
def Defined {α : Type} (x : Outcome α) : Prop := ∃ a, x = ok a

end Outcome

/-- Read `p[i]` of a buffer; reading outside is undefined.  Generic C semantics,
e.g. `in[0]` at /repo/src/voucher/serialize.c:146. -/
def rd (b : Bytes) (i : Nat) : Outcome UInt8 :=
  match b[i]? with
  | some v => .ok v
  | none => .ub

/-- Write `p[i] = v` to a buffer; writing outside is undefined.  Generic C semantics,
e.g. `*pos++ = …` at /repo/src/voucher/serialize.c:146. -/
def wr (b : Bytes) (i : Nat) (v : UInt8) : Outcome Bytes :=
  if i < b.length then .ok (b.set i v) else .ub

theorem rd_lt {b : Bytes} {i : Nat} (h : i < b.length) : rd b i = .ok b[i] := by
  simp [rd, List.getElem?_eq_getElem h]

theorem rd_some {b : Bytes} {i : Nat} {v : UInt8} (h : b[i]? = some v) : rd b i = .ok v := by
  simp [rd, h]

theorem wr_lt {b : Bytes} {i : Nat} (v : UInt8) (h : i < b.length) :
    wr b i v = .ok (b.set i v) := by simp [wr, h]

/-- `size_t` is 64 bits wide (LP64).  /repo/src/voucher/serialize.c:118 uses
`SIZE_MAX`. -/
def sizeMax : Nat := 2 ^ 64 - 1

/-- Unsigned wrap-around of `size_t` arithmetic; C semantics used e.g. for
/repo/src/voucher/serialize.c:123-129. -/
def szWrap (n : Nat) : Nat := n % 2 ^ 64

theorem szWrap_of_lt {n : Nat} (h : n < 2 ^ 64) : szWrap n = n := Nat.mod_eq_of_lt h

/-- `sys_malloc` (/repo/src/utils/os.h:75, plain `malloc`): an allocation of `n`
bytes either fails (`none`) or yields a block of exactly `n` bytes with arbitrary
(uninitialised) content.  The choice is arbitrary, hence theorems quantifying over
`Allocator` hold for every behaviour of `malloc`. -/
structure Allocator where
  malloc : Nat → Option Bytes
  length_eq : ∀ n b, malloc n = some b → b.length = n

/-- An allocator that always succeeds; used only to exhibit concrete instances of
hypotheses (`sys_malloc`, /repo/src/utils/os.h:75). -/
def zeroAllocator : Allocator where
  malloc n := some (List.replicate n 0)
  length_eq := by intro n b h; cases h; simp

/-- An allocator that always fails; used for concrete memory-exhaustion instances
(`sys_malloc`, /repo/src/utils/os.h:75). -/
def failAllocator : Allocator where
  malloc _ := none
  length_eq := by intro n b h; cases h

end Brski
