import Verif.ResLemmas

/-!
# Programs of `Res` in parallel (model)

The server runs its handlers in the threads of a pool
(/repo/src/brski/http/httplib.h:668-741, /repo/src/brski/http/httplib_wrapper.cpp:228), so that the steps of several
requests are interleaved.  Each step is taken to be atomic: the allocator and the counters of OpenSSL's
objects are safe to use from several threads; what the threads do not share otherwise (local variables)
is in the trees.  Not covered is what they write in common; for the MASA's context see `Concurrent`.
-/

namespace Brski.Res
open Outcome

/-- The memory shared by all threads (/repo/src/voucher/crypto_ossl.c:60-1694): `St` without the tape. -/
structure Shared where
  next : Nat
  kind : Nat → Kind
  cnt : Nat → Nat

/-- The memory of a state (/repo/src/voucher/crypto_ossl.c:60-1694). -/
def St.sh (s : St) : Shared := ⟨s.next, s.kind, s.cnt⟩

/-- An object is alive and of the kind (/repo/src/voucher/crypto_ossl.c:60-1694). -/
abbrev Shared.Has (g : Shared) (k : Kind) (i : Id) : Prop := 0 < g.cnt i ∧ g.kind i = k

/-- The object `i` is made (/repo/src/voucher/crypto_ossl.c:60-1694). -/
def Shared.make (g : Shared) (k : Kind) (i : Id) : Shared :=
  ⟨i + 1, fun j => if j = i then k else g.kind j, fun j => if j = i then 1 else g.cnt j⟩

/-- The number of references to an object changes (/repo/src/voucher/crypto_ossl.c:60-1694). -/
def Shared.setCnt (g : Shared) (i : Id) (n : Nat) : Shared :=
  ⟨g.next, g.kind, fun j => if j = i then n else g.cnt j⟩

/-- One step of one thread (/repo/src/voucher/crypto_ossl.c:60-1694): calls may give any result, new objects
get any name not used before by any thread. -/
inductive Step {α : Type} : Shared → Prog α → Shared → Prog α → Prop where
  | draw {g : Shared} {f : Int → Prog α} (r : Int) : Step g (.draw f) g (f r)
  | fresh {g : Shared} {k : Kind} {f : Id → Prog α} (i : Id) (h : g.next ≤ i) : Step g (.fresh k f) (g.make k i) (f i)
  | use {g : Shared} {k : Kind} {i : Id} {p : Prog α} (h : g.Has k i) : Step g (.use k i p) g p
  | drop {g : Shared} {k : Kind} {i : Id} {p : Prog α} (h : g.Has k i) :
      Step g (.drop k i p) (g.setCnt i (g.cnt i - 1)) p
  | up {g : Shared} {k : Kind} {i : Id} {p : Prog α} (h : g.Has k i) :
      Step g (.up k i p) (g.setCnt i (g.cnt i + 1)) p

/-- The next step of the thread is undefined (/repo/src/voucher/crypto_ossl.c:60-1694). -/
def Faults {α : Type} (g : Shared) : Prog α → Prop
  | .ret _ => False
  | .ub => True
  | .draw _ => False
  | .fresh _ _ => False
  | .use k i _ => ¬ g.Has k i
  | .drop k i _ => ¬ g.Has k i
  | .up k i _ => ¬ g.Has k i

/-- What is left of the program of each thread (/repo/src/brski/http/httplib.h:668-741). -/
abbrev Threads (α : Type) := Nat → Prog α

/-- One thread goes on (/repo/src/brski/http/httplib.h:668-741). -/
def Threads.set {α : Type} (ts : Threads α) (j : Nat) (p : Prog α) : Threads α := fun m => if m = j then p else ts m

/-- A step of a pool of `n` threads (/repo/src/brski/http/httplib.h:668-741). -/
inductive PStep {α : Type} (n : Nat) : Shared × Threads α → Shared × Threads α → Prop where
  | one {g g' : Shared} {ts : Threads α} {p : Prog α} (j : Nat) (hj : j < n) (h : Step g (ts j) g' p) :
      PStep n (g, ts) (g', ts.set j p)

/-- Any number of steps, in any order of the threads (/repo/src/brski/http/httplib.h:668-741). -/
inductive Reach {α : Type} (n : Nat) : Shared × Threads α → Shared × Threads α → Prop where
  | refl (c : Shared × Threads α) : Reach n c c
  | step {a b c : Shared × Threads α} (h : Reach n a b) (h' : PStep n b c) : Reach n a c

theorem Reach.trans {α : Type} {n : Nat} {a b c : Shared × Threads α} (h : Reach n a b) (h' : Reach n b c) :
    Reach n a c := by
  induction h' with
  | refl => exact h
  | step _ h2 ih => exact ih.step h2

/-- A thread that has not ended can go on, or its next step is undefined. -/
theorem progress {α : Type} (g : Shared) (p : Prog α) :
    (∃ a, p = .ret a) ∨ Faults g p ∨ ∃ g' p', Step g p g' p' := by
  cases p with
  | ret a => exact .inl ⟨a, rfl⟩
  | ub => exact .inr (.inl trivial)
  | draw f => exact .inr (.inr ⟨_, _, .draw 0⟩)
  | fresh k f => exact .inr (.inr ⟨_, _, .fresh g.next (Nat.le_refl _)⟩)
  | use k i p =>
    by_cases h : g.Has k i
    · exact .inr (.inr ⟨_, _, .use h⟩)
    · exact .inr (.inl h)
  | drop k i p =>
    by_cases h : g.Has k i
    · exact .inr (.inr ⟨_, _, .drop h⟩)
    · exact .inr (.inl h)
  | up k i p =>
    by_cases h : g.Has k i
    · exact .inr (.inr ⟨_, _, .up h⟩)
    · exact .inr (.inl h)

/-- An undefined step is no step. -/
theorem Faults.no_step {α : Type} {g g' : Shared} {p p' : Prog α} (h : Faults g p) : ¬ Step g p g' p' := by
  intro s
  cases s with
  | draw => exact h
  | fresh => exact h
  | use h' => exact h h'
  | drop h' => exact h h'
  | up h' => exact h h'

/-! ## Schedules end -/

/-- One program comes from another by a step (/repo/src/voucher/crypto_ossl.c:60-1694). -/
def Next {α : Type} (p' p : Prog α) : Prop := ∃ g g', Step g p g' p'

theorem next_acc {α : Type} (p : Prog α) : Acc Next p := by
  induction p with
  | ret a => exact .intro _ fun q ⟨_, _, h⟩ => by cases h
  | ub => exact .intro _ fun q ⟨_, _, h⟩ => by cases h
  | draw f ih => exact .intro _ fun q ⟨_, _, h⟩ => by cases h; exact ih _
  | fresh k f ih => exact .intro _ fun q ⟨_, _, h⟩ => by cases h; exact ih _
  | use k i p ih => exact .intro _ fun q ⟨_, _, h⟩ => by cases h; exact ih
  | drop k i p ih => exact .intro _ fun q ⟨_, _, h⟩ => by cases h; exact ih
  | up k i p ih => exact .intro _ fun q ⟨_, _, h⟩ => by cases h; exact ih

/-- The same for pools (/repo/src/brski/http/httplib.h:668-741). -/
def PNext {α : Type} (n : Nat) (ts' ts : Threads α) : Prop := ∃ j p, j < n ∧ Next p (ts j) ∧ ts' = ts.set j p

theorem pnext_acc {α : Type} : ∀ (n : Nat) (ts : Threads α), Acc (PNext n) ts := by
  intro n
  induction n with
  | zero => exact fun ts => .intro _ fun _ ⟨j, _, hj, _⟩ => absurd hj (Nat.not_lt_zero j)
  | succ n ih =>
    have key : ∀ ts : Threads α, Acc (PNext n) ts → ∀ x, Acc Next x → ∀ ts' : Threads α, (∀ j < n, ts' j = ts j) →
        ts' n = x → Acc (PNext (n + 1)) ts' := by
      intro ts hts
      induction hts with
      | intro ts _ iho =>
        intro x hx
        induction hx with
        | intro x _ ihi =>
          intro ts' he hx
          refine .intro _ fun ts'' ⟨j, p, hj, hp, e⟩ => ?_
          subst e
          by_cases h : j = n
          · subst h
            refine ihi p (hx ▸ hp) _ (fun m hm => ?_) (if_pos rfl)
            show (if m = j then p else ts' m) = _
            rw [if_neg (by omega), he m hm]
          · have hj : j < n := by omega
            refine iho (ts.set j p) ⟨j, p, hj, by rw [← he j hj]; exact hp, rfl⟩ x (Acc.intro x ‹_›) _ (fun m hm => ?_) ?_
            · show (if m = j then p else ts' m) = if m = j then p else ts m
              rw [he m hm]
            · show (if n = j then p else ts' n) = x
              rw [if_neg (fun e => h e.symm), hx]
    exact fun ts => key ts (ih ts) _ (next_acc (ts n)) ts (fun _ _ => rfl) rfl

theorem PStep.next {α : Type} {n : Nat} {c c' : Shared × Threads α} (h : PStep n c c') : PNext n c'.2 c.2 := by
  cases h with
  | one j hj h => exact ⟨j, _, hj, ⟨_, _, h⟩, rfl⟩

/-- No schedule goes on for ever. -/
theorem no_infinite {α : Type} (n : Nat) (c : Nat → Shared × Threads α) : ¬ ∀ k, PStep n (c k) (c (k + 1)) := by
  intro h
  have key : ∀ ts, Acc (PNext (α := α) n) ts → ∀ k, (c k).2 = ts → False := by
    intro ts ha
    induction ha with
    | intro ts _ ih => exact fun k e => ih _ (e ▸ (h k).next) (k + 1) rfl
  exact key _ (pnext_acc n (c 0).2) 0 rfl

/-! ## The undisturbed run is a schedule -/

theorem Threads.set_set {α : Type} (ts : Threads α) (j : Nat) (p q : Prog α) : (ts.set j p).set j q = ts.set j q := by
  funext m
  show (if m = j then q else if m = j then p else ts m) = if m = j then q else ts m
  split <;> rfl

theorem Threads.set_self {α : Type} (ts : Threads α) (j : Nat) : ts.set j (ts j) = ts := by
  funext m
  show (if m = j then ts j else ts m) = ts m
  split
  · rename_i h; rw [h]
  · rfl

theorem run_reach {α : Type} {n j : Nat} (hj : j < n) : ∀ (p : Prog α) (ts : Threads α) (s : St) (a : α) (s' : St),
    p s = .ok (a, s') → Reach n (s.sh, ts.set j p) (s'.sh, ts.set j (.ret a)) := by
  have one : ∀ (p q : Prog α) (ts : Threads α) (g g' : Shared), Step g p g' q → Reach n (g, ts.set j p) (g', ts.set j q) := by
    intro p q ts g g' h
    have h' : Step g ((ts.set j p) j) g' q := by rw [show (ts.set j p) j = p from if_pos rfl]; exact h
    have := PStep.one (ts := ts.set j p) j hj h'
    rw [Threads.set_set] at this
    exact (Reach.refl _).step this
  intro p
  induction p with
  | ret b => intro ts s a s' h; cases h; exact .refl _
  | ub => intro ts s a s' h; cases h
  | draw f ih =>
    intro ts s a s' h
    exact (one _ _ ts s.sh s.sh (.draw (s.tape s.pos))).trans (ih _ ts { s with pos := s.pos + 1 } a s' h)
  | fresh k f ih =>
    intro ts s a s' h
    exact (one _ _ ts s.sh _ (.fresh (s.next + s.gap s.next) (Nat.le_add_right _ _))).trans
      (ih _ ts (s.make k (s.next + s.gap s.next)) a s' h)
  | use k i p ih =>
    intro ts s a s' h
    have h : (if s.Has k i then p.run s else .ub) = .ok (a, s') := h
    split at h
    · rename_i hh
      exact (one _ _ ts s.sh s.sh (.use hh)).trans (ih ts s a s' h)
    · cases h
  | drop k i p ih =>
    intro ts s a s' h
    have h : (if s.Has k i then p.run (s.setCnt i (s.cnt i - 1)) else .ub) = .ok (a, s') := h
    split at h
    · rename_i hh
      exact (one _ _ ts s.sh _ (.drop hh)).trans (ih ts (s.setCnt i (s.cnt i - 1)) a s' h)
    · cases h
  | up k i p ih =>
    intro ts s a s' h
    have h : (if s.Has k i then p.run (s.setCnt i (s.cnt i + 1)) else .ub) = .ok (a, s') := h
    split at h
    · rename_i hh
      exact (one _ _ ts s.sh _ (.up hh)).trans (ih ts (s.setCnt i (s.cnt i + 1)) a s' h)
    · cases h

end Brski.Res
