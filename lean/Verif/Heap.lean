import Verif.Base

/-!
# Block heap

Memory as a finite set of live blocks.  Addresses are never reused, so any use of a block
after it was freed is recognised as undefined behaviour.
-/

namespace Brski

/-- A heap: `blk p` is the content of the live block at address `p`; addresses from `next`
on have never been handed out.  Meaning of `malloc`/`free` as used through
/repo/src/utils/os.h:60-90. -/
structure Heap where
  next : Nat
  blk : Nat → Option Bytes

namespace Heap

/-- The heap without blocks (start of a program using /repo/src/utils/os.h:60-90). -/
def empty : Heap := ⟨0, fun _ => none⟩

/-- Successful allocation of a block that is then filled with `b`
(`sys_malloc`, `sys_zalloc`, /repo/src/utils/os.h:60-90). -/
def alloc (h : Heap) (b : Bytes) : Heap × Nat :=
  (⟨h.next + 1, fun q => if q = h.next then some b else h.blk q⟩, h.next)

/-- `sys_free(p)` for a non-NULL pointer: freeing a block that is not live is undefined
(/repo/src/utils/os.h:60-90). -/
def free (h : Heap) (p : Nat) : Outcome Heap :=
  match h.blk p with
  | some _ => .ok ⟨h.next, fun q => if q = p then none else h.blk q⟩
  | none => .ub

/-- `sys_free(p)` for a possibly NULL pointer (/repo/src/utils/os.h:60-90). -/
def freePtr (h : Heap) (p : Option Nat) : Outcome Heap :=
  match p with
  | none => .ok h
  | some p => h.free p

/-- Reading the block behind a pointer; a block that is not live makes it undefined
(any `*p` in /repo/src). -/
def read (h : Heap) (p : Nat) : Outcome Bytes :=
  match h.blk p with
  | some b => .ok b
  | none => .ub

/-- Overwriting the block behind a pointer (any `*p = …` in /repo/src). -/
def write (h : Heap) (p : Nat) (b : Bytes) : Outcome Heap :=
  match h.blk p with
  | some _ => .ok ⟨h.next, fun q => if q = p then some b else h.blk q⟩
  | none => .ub

/-- A block is live (/repo/src/utils/os.h:60-90). -/
def Live (h : Heap) (p : Nat) : Prop := h.blk p ≠ none

/-- Only addresses handed out so far are live (/repo/src/utils/os.h:60-90). -/
def Wf (h : Heap) : Prop := ∀ p, h.Live p → p < h.next

theorem wf_empty : empty.Wf := by intro p h; exact absurd rfl h

theorem Live.some {h : Heap} {p : Nat} (hp : h.Live p) : ∃ b, h.blk p = .some b := by
  cases e : h.blk p with
  | none => exact absurd e hp
  | some b => exact ⟨b, rfl⟩

theorem alloc_blk (h : Heap) (b : Bytes) (q : Nat) :
    (h.alloc b).1.blk q = if q = h.next then some b else h.blk q := rfl

theorem alloc_wf {h : Heap} (hw : h.Wf) (b : Bytes) : (h.alloc b).1.Wf := by
  intro p hp
  simp only [Live, alloc_blk] at hp
  simp only [alloc]
  split at hp
  · omega
  · have := hw p hp; omega

theorem alloc_fresh {h : Heap} (hw : h.Wf) : h.blk h.next = none := by
  cases e : h.blk h.next with
  | none => rfl
  | some b => exact absurd (hw h.next (by simp [Live, e])) (by omega)

theorem free_live {h : Heap} {p : Nat} (hp : h.Live p) :
    h.free p = .ok ⟨h.next, fun q => if q = p then none else h.blk q⟩ := by
  obtain ⟨b, e⟩ := hp.some
  simp [free, e]

theorem free_ok_inv {h h' : Heap} {p : Nat} (e : h.free p = .ok h') :
    h.Live p ∧ h' = ⟨h.next, fun q => if q = p then none else h.blk q⟩ := by
  unfold free at e
  cases hb : h.blk p with
  | none => simp [hb] at e
  | some b => simp only [hb, Outcome.ok.injEq] at e; exact ⟨by simp [Live, hb], e.symm⟩

theorem free_wf {h h' : Heap} {p : Nat} (hw : h.Wf) (e : h.free p = .ok h') : h'.Wf := by
  obtain ⟨_, rfl⟩ := free_ok_inv e
  intro q hq
  simp only [Live] at hq
  split at hq
  · exact absurd rfl hq
  · exact hw q hq

theorem write_ok_inv {h h' : Heap} {p : Nat} {b : Bytes} (e : h.write p b = .ok h') :
    h.Live p ∧ h' = ⟨h.next, fun q => if q = p then some b else h.blk q⟩ := by
  unfold write at e
  cases hb : h.blk p with
  | none => simp [hb] at e
  | some b => simp only [hb, Outcome.ok.injEq] at e; exact ⟨by simp [Live, hb], e.symm⟩

end Heap

end Brski
