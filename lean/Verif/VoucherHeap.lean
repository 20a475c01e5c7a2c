import Verif.Heap
import Verif.Voucher

/-!
# Ownership of the blocks of a voucher (model)

The pointer attributes of `struct Voucher` over the block heap:
/repo/src/voucher/voucher.c:47-73,175-267,379-427 and
/repo/src/voucher/array.c:100-119,144-152.  The attributes that are plain values own no
memory and are left out here.
-/

namespace Brski.VoucherHeap

open Brski.Voucher (Attr BinArr)

/-- The pointer members of `struct Voucher`, /repo/src/voucher/voucher_defs.h:14-27. -/
inductive Slot where
  | serial | idevid | pinned | nonce | prior | proximity
deriving DecidableEq, Repr

/-- Slot behind an attribute (/repo/src/voucher/voucher.c:180,232-257). -/
def Slot.ofAttr : Attr → Option Slot
  | .serialNumber => some .serial
  | .idevidIssuer => some .idevid
  | .pinnedDomainCert => some .pinned
  | .nonce => some .nonce
  | .priorSigned => some .prior
  | .proximityCert => some .proximity
  | _ => none

/-- Program state: the heap, the pointers and lengths stored in the voucher, the address of
the voucher structure itself, and the blocks allocated by the caller
(/repo/src/voucher/voucher_defs.h:14-27). -/
structure St where
  heap : Heap
  self : Nat
  ptr : Slot → Option Nat
  len : Slot → Nat
  caller : List Nat

/-- Store a pointer and a length into a slot (assignment to a member of `struct Voucher`,
/repo/src/voucher/voucher_defs.h:14-27). -/
def St.put (st : St) (s : Slot) (p : Option Nat) (n : Nat) : St :=
  { st with ptr := fun t => if t = s then p else st.ptr t,
            len := fun t => if t = s then n else st.len t }

/-- `init_voucher` with memory available, /repo/src/voucher/voucher.c:64-73. -/
def initVoucher (h : Heap) (caller : List Nat) : St :=
  let r := h.alloc []
  { heap := r.1, self := r.2, ptr := fun _ => none, len := fun _ => 0, caller := caller }

/-- Copy `n` bytes behind `src` into a new block and store it in slot `s`; `mem` tells
whether the allocation succeeds.  `copy_binary_array` (/repo/src/voucher/array.c:100-119)
for array slots: the old pointer is overwritten without being freed, and on failure the slot
becomes `{NULL, 0}`.  `set_attr_nstr_voucher` (/repo/src/voucher/voucher.c:184-188) does the
same for the serial number (the terminating NUL is not represented). -/
def setSlot (st : St) (s : Slot) (src : Option Nat) (n : Nat) (mem : Bool) :
    Outcome (St × Bool) :=
  match src with
  | none => .ok (st.put s none 0, false)
  | some p =>
    if mem then
      (st.heap.read p).bind fun b =>
      if n ≤ b.length then
        let r := st.heap.alloc (b.take n)
        .ok ({ st with heap := r.1 }.put s (some r.2) n, true)
      else .ub
    else .ok (st.put s none 0, false)

/-- `free_binary_array_content` on a slot (/repo/src/voucher/array.c:144-152), respectively
the serial number code (/repo/src/voucher/voucher.c:49-52,400-403). -/
def freeSlot (st : St) (s : Slot) : Outcome St :=
  match st.ptr s with
  | none => .ok (st.put s none 0)
  | some p => (st.heap.free p).bind fun h => .ok ({ st with heap := h }.put s none 0)

/-- Operations: the attribute calls on pointer attributes, and what a caller can do with its
own memory.  `setStr`/`setArray` carry the source pointer and the length computed from the
arguments (/repo/src/voucher/voucher.c:175-267,379-427). -/
inductive Op where
  | setStr (src : Option Nat) (n : Nat) (mem : Bool)
  | setArray (a : Attr) (src : Option Nat) (n : Nat) (mem : Bool)
  | clear (a : Attr)
  | callerAlloc (b : Bytes)
  | callerWrite (p : Nat) (b : Bytes)
  | callerFree (p : Nat)

/-- Execution of one operation (/repo/src/voucher/voucher.c:175-267,379-427). -/
def step (st : St) : Op → Outcome (St × Bool)
  | .setStr src n mem =>
    match src with
    | none => .ok (st, false)
    | some p => if n < 128 then setSlot st .serial (some p) n mem else .ok (st, false)
  | .setArray a src n mem =>
    if src.isNone ∧ n = 0 then .ok (st, false)
    else match Slot.ofAttr a with
      | some .serial => .ok (st, false)
      | none => .ok (st, false)
      | some s => setSlot st s src n mem
  | .clear a =>
    match Slot.ofAttr a with
    | none => .ok (st, true)
    | some s => (freeSlot st s).bind fun st => .ok (st, true)
  | .callerAlloc b =>
    let r := st.heap.alloc b
    .ok ({ st with heap := r.1, caller := r.2 :: st.caller }, true)
  | .callerWrite p b => (st.heap.write p b).bind fun h => .ok ({ st with heap := h }, true)
  | .callerFree p =>
    (st.heap.free p).bind fun h =>
      .ok ({ st with heap := h, caller := st.caller.filter (· ≠ p) }, true)

/-- `free_voucher` for a non-NULL voucher, /repo/src/voucher/voucher.c:47-62: result is the
heap afterwards. -/
def freeVoucher (st : St) : Outcome Heap :=
  (freeSlot st .serial).bind fun st =>
  (freeSlot st .idevid).bind fun st =>
  (freeSlot st .pinned).bind fun st =>
  (freeSlot st .nonce).bind fun st =>
  (freeSlot st .prior).bind fun st =>
  (freeSlot st .proximity).bind fun st =>
  st.heap.free st.self

/-- Contract of an operation: sources are live blocks of the caller with enough bytes, the
caller only touches its own blocks (/repo/src/voucher/voucher.h:301-322). -/
def Pre (st : St) : Op → Prop
  | .setStr src n _ => ∀ p, src = some p → p ∈ st.caller ∧ ∃ b, st.heap.blk p = some b ∧ n ≤ b.length
  | .setArray _ src n _ =>
    ∀ p, src = some p → p ∈ st.caller ∧ ∃ b, st.heap.blk p = some b ∧ n ≤ b.length
  | .clear _ => True
  | .callerAlloc _ => True
  | .callerWrite p _ => p ∈ st.caller
  | .callerFree p => p ∈ st.caller

/-- States reachable from a fresh voucher by operations respecting the contract
(/repo/src/voucher/voucher.h:232-354). -/
inductive Reach (h : Heap) : St → Prop
  | init : Reach h (initVoucher h [])
  | step {st st' : St} {op : Op} {ret : Bool} : Reach h st → Pre st op →
      step st op = .ok (st', ret) → Reach h st'

/-- What the voucher holds in a slot: the bytes behind the pointer, and the length. -/
def contents (st : St) (s : Slot) : Option Bytes × Nat :=
  ((st.ptr s).bind st.heap.blk, st.len s)

end Brski.VoucherHeap
