import Verif.Pool

/-!
# C96, C97: the accept loop and the pool of threads
-/

namespace Brski.Props

open Pool

/-! ## Specification -/

/-- The state can be reached with `n` threads. -/
def PoolReach (n : Nat) (s : St) : Prop := ∃ es, run (start n) es = some (.ok s)

/-- The event is one that only the environment decides on: connections, errors and ends of jobs; or a wake-up without a cause. -/
def outside : Ev → Bool
  | .accept _ => true
  | .finish _ _ => true
  | .wake _ => true
  | _ => false

/-- Nothing can happen before the environment acts. -/
def Settled (s : St) : Prop := ∀ e, outside e = false → step s e = none

/-- The threads that serve a connection. -/
def busy (s : St) : List Nat := s.workers.filterMap fun w => match w with | .running j => some j | _ => none

/-- All threads serve a connection. -/
def AllBusy (s : St) : Prop := ∀ w ∈ s.workers, ∃ j, w = .running j

/-- **C96** as stated: whatever fails, with any number of threads and however they are interleaved: the process goes on;
connections are taken up in the order in which they were accepted, each once; none waits while a thread is idle; all have been
served when the server returns. -/
def C96_statement : Prop :=
  ∀ (n : Nat) (es : List Ev) (r : Res), 0 < n → run (start n) es = some r →
    ∃ s, r = .ok s ∧ (∃ l, List.range s.next = s.started ++ l) ∧
      List.Perm s.started (s.finished ++ busy s) ∧
      (Settled s → s.started = List.range s.next ∨ AllBusy s) ∧
      (s.acceptor = .returned → List.Perm s.finished (List.range s.next))

/-! ## The invariant -/

theorem split_set {l : List Worker} {i : Nat} {x : Worker} (h : l[i]? = some x) (y : Worker) :
    ∃ a b, l = a ++ x :: b ∧ l.set i y = a ++ y :: b := by
  induction l generalizing i with
  | nil => simp at h
  | cons c l ih =>
    cases i with
    | zero =>
      simp only [List.getElem?_cons_zero, Option.some.injEq] at h
      subst h
      exact ⟨[], l, rfl, rfl⟩
    | succ i =>
      simp only [List.getElem?_cons_succ] at h
      obtain ⟨a, b, h1, h2⟩ := ih h
      exact ⟨c :: a, b, by rw [h1]; rfl, by rw [List.set_cons_succ, h2]; rfl⟩

/-- The connections served by threads. -/
def runningOf (ws : List Worker) : List Nat := ws.filterMap fun w => match w with | .running j => some j | _ => none

@[simp] theorem runningOf_nil : runningOf [] = [] := rfl
@[simp] theorem runningOf_append (a b : List Worker) : runningOf (a ++ b) = runningOf a ++ runningOf b :=
  List.filterMap_append
@[simp] theorem runningOf_ready (a : List Worker) : runningOf (.ready :: a) = runningOf a := rfl
@[simp] theorem runningOf_asleep (a : List Worker) : runningOf (.asleep :: a) = runningOf a := rfl
@[simp] theorem runningOf_ended (a : List Worker) : runningOf (.ended :: a) = runningOf a := rfl
@[simp] theorem runningOf_running (j : Nat) (a : List Worker) : runningOf (.running j :: a) = j :: runningOf a := rfl

theorem runningOf_woken (a : List Worker) : runningOf (a.map Worker.woken) = runningOf a := by
  induction a with
  | nil => rfl
  | cons w a ih => cases w <;> simp [Worker.woken, ih]

/-- How many threads are about to look for work. -/
def readyOf (ws : List Worker) : Nat := ws.count .ready

/-- The connection accepted but not yet stored. -/
def inHand (s : St) : List Nat := if s.acceptor = .adding then [s.next - 1] else []

/-- A wake-up is still to be sent. -/
def pending (s : St) : Nat := if s.acceptor = .notifying then 1 else 0

/-- What holds in every state. -/
structure PoolInv (n : Nat) (s : St) : Prop where
  order : s.started ++ (s.jobs ++ inHand s) = List.range s.next
  served : ∀ x, s.finished.count x + (runningOf s.workers).count x = s.started.count x
  woken : .asleep ∈ s.workers → s.jobs.length ≤ readyOf s.workers + pending s
  shut : s.shutdown = true ↔ s.acceptor = .notifyingAll ∨ s.acceptor = .joining ∨ s.acceptor = .returned
  awake : s.acceptor = .joining ∨ s.acceptor = .returned → .asleep ∉ s.workers
  ended : .ended ∈ s.workers → s.shutdown = true ∧ s.jobs = []
  over : s.acceptor = .returned → ∀ w ∈ s.workers, w = .ended
  hand : s.acceptor = .adding → 0 < s.next
  size : s.workers.length + (match s.acceptor with | .creating k => k | _ => 0) = n

theorem inv_start (n : Nat) : PoolInv n (start n) := by
  constructor <;> simp [start, inHand, runningOf, Pool.start]

theorem readyOf_append (a b : List Worker) : readyOf (a ++ b) = readyOf a + readyOf b := List.count_append

theorem PoolInv.step {n : Nat} {s s' : St} {e : Ev} (h : PoolInv n s) (he : step s e = some (.ok s')) : PoolInv n s' := by
  obtain ⟨h1, h2, h3, h4, h5, h6, h7, h8, h9⟩ := h
  cases e with
  | spawn ok =>
    simp only [Pool.step] at he
    split at he
    · rename_i k hk
      split at he
      · simp only [Option.some.injEq, Res.ok.injEq] at he
        subst he
        rw [hk] at h9
        constructor
        · simpa [inHand, hk] using h1
        · simpa using h2
        · intro ha
          simp only [List.mem_append, List.mem_singleton, reduceCtorEq, or_false] at ha
          have := h3 ha
          simp only [pending, hk, reduceCtorEq, if_false] at this ⊢
          simp only [readyOf_append]
          omega
        · simpa [hk] using h4
        · simp
        · intro hm
          simp only [List.mem_append, List.mem_singleton, reduceCtorEq, or_false] at hm
          exact h6 hm
        · simp
        · simp
        · simp only [List.length_append, List.length_singleton] at h9 ⊢
          omega
      · split at he <;> cases he
    · cases he
  | begin =>
    simp only [Pool.step] at he
    split at he
    · rename_i hk
      simp only [Option.some.injEq, Res.ok.injEq] at he
      subst he
      rw [hk] at h9
      constructor
      · simpa [inHand, hk] using h1
      · exact h2
      · simpa [pending, hk] using h3
      · simpa [hk] using h4
      · simp
      · exact h6
      · simp
      · simp
      · simpa using h9
    · cases he
  | accept a =>
    simp only [Pool.step] at he
    split at he
    · rename_i hk
      rw [hk] at h9
      cases a with
      | conn =>
        simp only [Option.some.injEq, Res.ok.injEq] at he
        subst he
        constructor
        · simp only [inHand, hk, reduceCtorEq, if_false, List.append_nil] at h1
          simp only [inHand, if_true, Nat.add_sub_cancel, List.range_succ, ← List.append_assoc, h1]
        · exact h2
        · simpa [pending, hk] using h3
        · simpa [hk] using h4
        · simp
        · exact h6
        · simp
        · simp
        · simpa using h9
      | err c =>
        simp only at he
        split at he
        · simp only [Option.some.injEq, Res.ok.injEq] at he
          subst he
          exact ⟨h1, h2, h3, h4, h5, h6, h7, h8, by rw [hk]; exact h9⟩
        · simp only [Option.some.injEq, Res.ok.injEq] at he
          subst he
          constructor
          · simpa [inHand, hk] using h1
          · exact h2
          · simpa [pending, hk] using h3
          · simpa [hk] using h4
          · simp
          · exact h6
          · simp
          · simp
          · simpa using h9
      | stopped =>
        simp only [Option.some.injEq, Res.ok.injEq] at he
        subst he
        constructor
        · simpa [inHand, hk] using h1
        · exact h2
        · simpa [pending, hk] using h3
        · simpa [hk] using h4
        · simp
        · exact h6
        · simp
        · simp
        · simpa using h9
    · cases he
  | push ok =>
    simp only [Pool.step] at he
    split at he
    · rename_i hk
      rw [hk] at h9
      split at he
      · simp only [Option.some.injEq, Res.ok.injEq] at he
        subst he
        constructor
        · simpa [inHand, hk] using h1
        · exact h2
        · intro ha
          have := h3 ha
          simp only [pending, hk, reduceCtorEq, if_false] at this
          simp only [pending, if_true, List.length_append, List.length_singleton]
          omega
        · simpa [hk] using h4
        · simp
        · intro hm
          have := h4.1 (h6 hm).1
          simp [hk] at this
        · simp
        · simp
        · simpa using h9
      · split at he <;> cases he
    · cases he
  | notify w =>
    simp only [Pool.step] at he
    split at he
    · rename_i hk
      rw [hk] at h9
      cases w with
      | none =>
        simp only at he
        split at he
        · cases he
        · rename_i hn
          simp only [Option.some.injEq, Res.ok.injEq] at he
          subst he
          constructor
          · simpa [inHand, hk] using h1
          · exact h2
          · intro ha
            exact absurd ha hn
          · simpa [hk] using h4
          · simp
          · exact h6
          · simp
          · simp
          · simpa using h9
      | some i =>
        simp only at he
        split at he
        · rename_i hi
          obtain ⟨a, b, ha, hb⟩ := split_set hi .ready
          simp only [Option.some.injEq, Res.ok.injEq] at he
          subst he
          constructor
          · simpa [inHand, hk] using h1
          · intro x
            have := h2 x
            rw [ha] at this
            simp only [hb]
            simpa using this
          · intro _
            have := h3 (by rw [ha]; simp)
            simp only [pending, hk, if_true] at this
            simp only [pending, reduceCtorEq, if_false, hb]
            rw [ha, readyOf_append] at this
            rw [readyOf_append]
            simp only [readyOf, List.count_cons_self, Nat.add_zero] at this ⊢
            rw [List.count_cons_of_ne (by decide)] at this
            omega
          · simpa [hk] using h4
          · simp
          · intro hm
            refine h6 ?_
            simp only [hb] at hm
            rw [ha]
            simpa using hm
          · simp
          · simp
          · simpa using h9
        · cases he
    · cases he
  | stop =>
    simp only [Pool.step] at he
    split at he
    · rename_i hk
      rw [hk] at h9
      simp only [Option.some.injEq, Res.ok.injEq] at he
      subst he
      constructor
      · simpa [inHand, hk] using h1
      · exact h2
      · simpa [pending, hk] using h3
      · simp
      · simp
      · intro hm
        have := h4.1 (h6 hm).1
        simp [hk] at this
      · simp
      · simp
      · simpa using h9
    · cases he
  | notifyAll =>
    simp only [Pool.step] at he
    split at he
    · rename_i hk
      rw [hk] at h9
      simp only [Option.some.injEq, Res.ok.injEq] at he
      subst he
      have hno : Worker.asleep ∉ s.workers.map Worker.woken := by
        intro hm
        obtain ⟨w, -, hw⟩ := List.mem_map.1 hm
        cases w <;> cases hw
      constructor
      · simpa [inHand, hk] using h1
      · intro x
        simp only [runningOf_woken]
        exact h2 x
      · intro ha
        exact absurd ha hno
      · simpa [hk] using h4
      · intro _
        exact hno
      · intro hm
        obtain ⟨w, hw1, hw⟩ := List.mem_map.1 hm
        refine h6 ?_
        cases w with
        | ended => exact hw1
        | ready => cases hw
        | asleep => cases hw
        | running j => cases hw
      · simp
      · simp
      · simpa using h9
    · cases he
  | join =>
    simp only [Pool.step] at he
    split at he
    · rename_i hk
      obtain ⟨hk, hall⟩ := hk
      rw [hk] at h9
      simp only [Option.some.injEq, Res.ok.injEq] at he
      subst he
      constructor
      · simpa [inHand, hk] using h1
      · exact h2
      · simpa [pending, hk] using h3
      · simpa [hk] using h4
      · intro _
        exact h5 (.inl hk)
      · exact h6
      · intro _
        exact hall
      · simp
      · simpa using h9
    · cases he
  | wake i =>
    simp only [Pool.step] at he
    split at he
    · rename_i hi
      obtain ⟨a, b, ha, hb⟩ := split_set hi .ready
      simp only [Option.some.injEq, Res.ok.injEq] at he
      subst he
      constructor
      · exact h1
      · intro x
        have := h2 x
        rw [ha] at this
        simp only [hb]
        simpa using this
      · intro _
        have := h3 (by rw [ha]; simp)
        simp only [pending, hb] at this ⊢
        rw [ha, readyOf_append] at this
        rw [readyOf_append]
        simp only [readyOf, List.count_cons_self] at this ⊢
        rw [List.count_cons_of_ne (by decide)] at this
        omega
      · exact h4
      · intro hc
        exact absurd (show Worker.asleep ∈ s.workers by rw [ha]; simp) (h5 hc)
      · intro hm
        refine h6 ?_
        simp only [hb] at hm
        rw [ha]
        simpa using hm
      · intro hc
        exact absurd (show Worker.asleep ∈ s.workers by rw [ha]; simp) (h5 (.inr hc))
      · exact h8
      · simpa using h9
    · cases he
  | take i =>
    simp only [Pool.step] at he
    split at he
    · rename_i hi
      split at he
      · rename_i j js hj
        obtain ⟨a, b, ha, hb⟩ := split_set hi (.running j)
        simp only [Option.some.injEq, Res.ok.injEq] at he
        subst he
        have hmem : Worker.ready ∈ s.workers := by rw [ha]; simp
        constructor
        · rw [hj] at h1
          simpa [inHand] using h1
        · intro x
          have := h2 x
          rw [ha] at this
          simp only [hb]
          simp only [runningOf_append, runningOf_ready, runningOf_running, List.count_append, List.count_cons, List.count_nil] at this ⊢
          omega
        · intro hs
          simp only [hb] at hs
          have hs' : Worker.asleep ∈ s.workers := by rw [ha]; simpa using hs
          have := h3 hs'
          rw [hj] at this
          simp only [pending, hb] at this ⊢
          rw [ha, readyOf_append] at this
          rw [readyOf_append]
          simp only [readyOf, List.count_cons_self, List.length_cons] at this ⊢
          rw [List.count_cons_of_ne (by simp)]
          omega
        · exact h4
        · intro hc
          simp only [hb]
          have := h5 hc
          rw [ha] at this
          simpa using this
        · intro hm
          simp only [hb] at hm
          have := (h6 (by rw [ha]; simpa using hm)).2
          rw [hj] at this
          cases this
        · intro hc
          have := h7 hc _ hmem
          cases this
        · exact h8
        · simpa using h9
      · rename_i hj
        cases hsd : s.shutdown with
        | true =>
          obtain ⟨a, b, ha, hb⟩ := split_set hi .ended
          rw [hsd] at he h4
          simp only [if_true, Option.some.injEq, Res.ok.injEq] at he
          subst he
          have hmem : Worker.ready ∈ s.workers := by rw [ha]; simp
          constructor
          · exact h1
          · intro x
            have := h2 x
            rw [ha] at this
            simp only [hb]
            simpa using this
          · intro _
            simp [hj]
          · exact h4
          · intro hc
            simp only [hb]
            have := h5 hc
            rw [ha] at this
            simpa using this
          · intro _
            exact ⟨rfl, hj⟩
          · intro hc
            have := h7 hc _ hmem
            cases this
          · exact h8
          · simpa using h9
        | false =>
          obtain ⟨a, b, ha, hb⟩ := split_set hi .asleep
          rw [hsd] at he h4 h6
          simp only [Bool.false_eq_true, if_false, Option.some.injEq, Res.ok.injEq] at he
          subst he
          have hmem : Worker.ready ∈ s.workers := by rw [ha]; simp
          constructor
          · exact h1
          · intro x
            have := h2 x
            rw [ha] at this
            simp only [hb]
            simpa using this
          · intro _
            simp [hj]
          · exact h4
          · intro hc
            have := h4.2 (.inr hc)
            cases this
          · intro hm
            simp only [hb] at hm
            exact h6 (by rw [ha]; simpa using hm)
          · intro hc
            have := h7 hc _ hmem
            cases this
          · exact h8
          · simpa using h9
    · cases he
  | finish i th =>
    simp only [Pool.step] at he
    split at he
    · rename_i j hi
      split at he
      · cases he
      · obtain ⟨a, b, ha, hb⟩ := split_set hi .ready
        simp only [Option.some.injEq, Res.ok.injEq] at he
        subst he
        have hmem : Worker.running j ∈ s.workers := by rw [ha]; simp
        constructor
        · exact h1
        · intro x
          have := h2 x
          rw [ha] at this
          simp only [hb]
          simp only [runningOf_append, runningOf_ready, runningOf_running, List.count_append, List.count_cons, List.count_nil] at this ⊢
          omega
        · intro hs
          simp only [hb] at hs
          have hs' : Worker.asleep ∈ s.workers := by rw [ha]; simpa using hs
          have := h3 hs'
          simp only [pending, hb] at this ⊢
          rw [ha, readyOf_append] at this
          rw [readyOf_append]
          simp only [readyOf, List.count_cons_self] at this ⊢
          rw [List.count_cons_of_ne (by simp)] at this
          omega
        · exact h4
        · intro hc
          simp only [hb]
          have := h5 hc
          rw [ha] at this
          simpa using this
        · intro hm
          simp only [hb] at hm
          exact h6 (by rw [ha]; simpa using hm)
        · intro hc
          have := h7 hc _ hmem
          cases this
        · exact h8
        · simpa using h9
    · cases he

theorem PoolInv.run {n : Nat} {es : List Ev} : ∀ {s s' : St}, PoolInv n s → run s es = some (.ok s') → PoolInv n s' := by
  induction es with
  | nil =>
    intro s s' h he
    simp only [Pool.run, Option.some.injEq, Res.ok.injEq] at he
    exact he ▸ h
  | cons e es ih =>
    intro s s' h he
    simp only [Pool.run] at he
    split at he
    · rename_i t ht
      exact ih (h.step ht) he
    · rename_i hr
      split at he
      · exact absurd he (hr _)
      · cases he

theorem PoolReach.inv {n : Nat} {s : St} (h : PoolReach n s) : PoolInv n s := by
  obtain ⟨es, he⟩ := h
  exact (inv_start n).run he

/-! ## What holds -/

/-- A failure: a thread cannot be started, a job cannot be stored, an exception leaves a job. -/
def failure : Ev → Bool
  | .spawn false => true
  | .push false => true
  | .finish _ true => true
  | _ => false

theorem pool_step_ok {s : St} {e : Ev} {r : Res} (h : step s e = some r) (hf : failure e = false) : ∃ s', r = .ok s' := by
  cases e with
  | spawn ok =>
    cases ok with
    | false => cases hf
    | true =>
      simp only [Pool.step, if_true] at h
      split at h
      · injection h with h; exact ⟨_, h.symm⟩
      · cases h
  | begin => simp only [Pool.step] at h; split at h <;> cases h; exact ⟨_, rfl⟩
  | accept a =>
    simp only [Pool.step] at h
    split at h
    · cases a with
      | conn => injection h with h; exact ⟨_, h.symm⟩
      | err c => simp only at h; split at h <;> (injection h with h; exact ⟨_, h.symm⟩)
      | stopped => injection h with h; exact ⟨_, h.symm⟩
    · cases h
  | push ok =>
    cases ok with
    | false => cases hf
    | true =>
      simp only [Pool.step, if_true] at h
      split at h
      · injection h with h; exact ⟨_, h.symm⟩
      · cases h
  | notify w =>
    simp only [Pool.step] at h
    split at h
    · cases w with
      | none => simp only at h; split at h <;> cases h; exact ⟨_, rfl⟩
      | some i => simp only at h; split at h <;> cases h; exact ⟨_, rfl⟩
    · cases h
  | stop => simp only [Pool.step] at h; split at h <;> cases h; exact ⟨_, rfl⟩
  | notifyAll => simp only [Pool.step] at h; split at h <;> cases h; exact ⟨_, rfl⟩
  | join => simp only [Pool.step] at h; split at h <;> cases h; exact ⟨_, rfl⟩
  | wake i => simp only [Pool.step] at h; split at h <;> cases h; exact ⟨_, rfl⟩
  | take i =>
    simp only [Pool.step] at h
    split at h
    · split at h <;> (injection h with h; exact ⟨_, h.symm⟩)
    · cases h
  | finish i t =>
    cases t with
    | true => cases hf
    | false =>
      simp only [Pool.step] at h
      split at h
      · injection h with h; exact ⟨_, h.symm⟩
      · cases h

theorem pool_run_ok : ∀ {es : List Ev} {s : St} {r : Res}, run s es = some r → (∀ e ∈ es, failure e = false) → ∃ s', r = .ok s' := by
  intro es
  induction es with
  | nil =>
    intro s r h _
    injection h with h
    exact ⟨s, h.symm⟩
  | cons e es ih =>
    intro s r h hf
    simp only [Pool.run] at h
    split at h
    · exact ih h fun e he => hf e (by simp [he])
    · split at h
      · exact pool_step_ok h (hf e (by simp))
      · cases h

theorem mem_index {l : List Worker} {x : Worker} (h : x ∈ l) : ∃ i : Nat, l[i]? = some x := List.mem_iff_getElem?.1 h

/-- **C96** (no lost wake-up): when nothing can happen before the environment acts, the server is in `accept`, or has returned,
or waits for connections that are being served; and no connection waits while a thread is idle. -/
theorem C96_settled {n : Nat} {s : St} (hr : PoolReach n s) (h : Settled s) :
    (s.acceptor = .accepting ∨ s.acceptor = .returned ∨ (s.acceptor = .joining ∧ busy s ≠ [])) ∧
    (s.started = List.range s.next ∨ AllBusy s) := by
  obtain ⟨h1, h2, h3, h4, h5, h6, h7, h8, h9⟩ := hr.inv
  have hready : Worker.ready ∉ s.workers := by
    intro hm
    obtain ⟨i, hi⟩ := mem_index hm
    have := h (.take i) rfl
    simp only [Pool.step, hi, if_true] at this
    split at this <;> cases this
  have hacc : s.acceptor = .accepting ∨ s.acceptor = .returned ∨ s.acceptor = .joining := by
    cases ha : s.acceptor with
    | creating k =>
      cases k with
      | zero => have := h .begin rfl; simp [Pool.step, ha] at this
      | succ k => have := h (.spawn true) rfl; simp [Pool.step, ha] at this
    | accepting => exact .inl rfl
    | adding => have := h (.push true) rfl; simp [Pool.step, ha] at this
    | notifying =>
      by_cases hs : Worker.asleep ∈ s.workers
      · obtain ⟨i, hi⟩ := mem_index hs
        have := h (.notify (some i)) rfl
        simp [Pool.step, ha, hi] at this
      · have := h (.notify none) rfl
        simp [Pool.step, ha, hs] at this
    | stopping => have := h .stop rfl; simp [Pool.step, ha] at this
    | notifyingAll => have := h .notifyAll rfl; simp [Pool.step, ha] at this
    | joining => exact .inr (.inr rfl)
    | returned => exact .inr (.inl rfl)
  have hhand : inHand s = [] := by
    unfold inHand
    rcases hacc with ha | ha | ha <;> simp [ha]
  have hpend : pending s = 0 := by
    unfold pending
    rcases hacc with ha | ha | ha <;> simp [ha]
  rw [hhand, List.append_nil] at h1
  have hcount : readyOf s.workers = 0 := List.count_eq_zero.2 hready
  constructor
  · rcases hacc with ha | ha | ha
    · exact .inl ha
    · exact .inr (.inl ha)
    · refine .inr (.inr ⟨ha, ?_⟩)
      intro hb
      have hall : ∀ w ∈ s.workers, w = .ended := by
        intro w hw
        cases w with
        | ready => exact absurd hw hready
        | asleep => exact absurd hw (h5 (.inl ha))
        | ended => rfl
        | running j =>
          have : j ∈ busy s := List.mem_filterMap.2 ⟨_, hw, rfl⟩
          rw [hb] at this
          cases this
      have := h .join rfl
      simp only [Pool.step] at this
      rw [if_pos ⟨ha, hall⟩] at this
      cases this
  · cases hj : s.jobs with
    | nil =>
      left
      rw [hj, List.append_nil] at h1
      exact h1
    | cons j js =>
      right
      intro w hw
      cases w with
      | ready => exact absurd hw hready
      | running j => exact ⟨j, rfl⟩
      | ended =>
        have := (h6 hw).2
        rw [hj] at this
        cases this
      | asleep =>
        have := h3 hw
        rw [hcount, hpend, hj] at this
        simp at this

/-- **C96**, partial: as stated for every run without the three failures.  Missing: `C96_failures`. -/
theorem C96_partial (n : Nat) (es : List Ev) (r : Res) (hn : 0 < n) (h : run (start n) es = some r)
    (hf : ∀ e ∈ es, failure e = false) :
    ∃ s, r = .ok s ∧ (∃ l, List.range s.next = s.started ++ l) ∧
      List.Perm s.started (s.finished ++ busy s) ∧
      (Settled s → s.started = List.range s.next ∨ AllBusy s) ∧
      (s.acceptor = .returned → List.Perm s.finished (List.range s.next)) := by
  obtain ⟨s, rfl⟩ := pool_run_ok h hf
  have hr : PoolReach n s := ⟨es, h⟩
  obtain ⟨h1, h2, h3, h4, h5, h6, h7, h8, h9⟩ := id hr.inv
  have hperm : List.Perm s.started (s.finished ++ busy s) := by
    rw [List.perm_iff_count]
    intro x
    rw [List.count_append]
    exact (h2 x).symm
  refine ⟨s, rfl, ⟨_, h1.symm⟩, hperm, fun hs => (C96_settled hr hs).2, fun ha => ?_⟩
  have hall := h7 ha
  have hbusy : busy s = [] := by
    unfold busy
    rw [List.filterMap_eq_nil_iff]
    intro w hw
    rw [hall w hw]
  have hne : s.workers ≠ [] := by
    intro he
    rw [he, ha] at h9
    simp at h9
    omega
  obtain ⟨w, ws, hw⟩ := List.exists_cons_of_ne_nil hne
  have hend : Worker.ended ∈ s.workers := by
    rw [← hall w (by rw [hw]; simp), hw]
    simp
  have hj := (h6 hend).2
  have : inHand s = [] := by unfold inHand; rw [ha]; simp
  rw [this, hj, List.append_nil, List.append_nil] at h1
  rw [hbusy, List.append_nil] at hperm
  rw [← h1]
  exact hperm.symm

/-- **C96** (each once): no connection is served twice or by two threads, and none that was not accepted. -/
theorem C96_once {n : Nat} {s : St} (hr : PoolReach n s) :
    (s.finished ++ busy s).Nodup ∧ ∀ j ∈ s.finished ++ busy s, j < s.next := by
  obtain ⟨h1, h2, -⟩ := hr.inv
  have hperm : List.Perm s.started (s.finished ++ busy s) := by
    rw [List.perm_iff_count]
    intro x
    rw [List.count_append]
    exact (h2 x).symm
  have hnd : s.started.Nodup := by
    have : (s.started ++ (s.jobs ++ inHand s)).Nodup := h1 ▸ List.nodup_range
    exact (List.nodup_append.1 this).1
  refine ⟨hperm.nodup_iff.1 hnd, fun j hj => ?_⟩
  have : j ∈ s.started := hperm.mem_iff.2 hj
  exact List.mem_range.1 (h1 ▸ List.mem_append_left _ this)

/-- What a thread may still do before it has to wait. -/
def Worker.weight : Worker → Nat
  | .ready => 1
  | .running _ => 2
  | _ => 0

/-- What the accepting thread may still do before it is in `accept` or has returned. -/
def Acceptor.weight (n : Nat) : Acceptor → Nat
  | .creating k => 2 * k + 1
  | .accepting => 0
  | .adding => 5
  | .notifying => 2
  | .stopping => n + 3
  | .notifyingAll => n + 2
  | .joining => 1
  | .returned => 0

/-- The sum of the weights. -/
def weights (ws : List Worker) : Nat := (ws.map Worker.weight).sum

/-- A bound on the steps without new connections. -/
def poolMeasure (n : Nat) (s : St) : Nat := Acceptor.weight n s.acceptor + weights s.workers + 2 * s.jobs.length

theorem weights_append (a b : List Worker) : weights (a ++ b) = weights a + weights b := by
  simp [weights]

theorem weights_cons (a : Worker) (b : List Worker) : weights (a :: b) = Worker.weight a + weights b := by
  simp [weights]

theorem weights_woken (a : List Worker) : weights (a.map Worker.woken) ≤ weights a + a.length := by
  induction a with
  | nil => simp [weights]
  | cons w a ih =>
    rw [List.map_cons, weights_cons, weights_cons, List.length_cons]
    have : Worker.weight w.woken ≤ Worker.weight w + 1 := by cases w <;> simp [Worker.woken, Worker.weight]
    omega

/-- Connections, errors of `accept` and wake-ups without a cause. -/
def unbounded : Ev → Bool
  | .accept _ => true
  | .wake _ => true
  | _ => false

theorem poolMeasure_step {n : Nat} {s s' : St} {e : Ev} (hi : PoolInv n s) (h : step s e = some (.ok s')) (hu : unbounded e = false) :
    poolMeasure n s' < poolMeasure n s := by
  have h9 := hi.size
  cases e with
  | accept a => cases hu
  | wake i => cases hu
  | spawn ok =>
    simp only [Pool.step] at h
    split at h
    · rename_i k hk
      split at h
      · simp only [Option.some.injEq, Res.ok.injEq] at h
        subst h
        simp only [poolMeasure, hk, Acceptor.weight, weights_append, weights_cons, Worker.weight]
        simp only [weights, List.map_nil, List.sum_nil]
        omega
      · split at h <;> cases h
    · cases h
  | begin =>
    simp only [Pool.step] at h
    split at h
    · rename_i hk
      simp only [Option.some.injEq, Res.ok.injEq] at h
      subst h
      simp only [poolMeasure, hk, Acceptor.weight]
      omega
    · cases h
  | push ok =>
    simp only [Pool.step] at h
    split at h
    · rename_i hk
      split at h
      · simp only [Option.some.injEq, Res.ok.injEq] at h
        subst h
        simp only [poolMeasure, hk, Acceptor.weight, List.length_append, List.length_singleton]
        omega
      · split at h <;> cases h
    · cases h
  | notify w =>
    simp only [Pool.step] at h
    split at h
    · rename_i hk
      cases w with
      | none =>
        simp only at h
        split at h
        · cases h
        · simp only [Option.some.injEq, Res.ok.injEq] at h
          subst h
          simp only [poolMeasure, hk, Acceptor.weight]
          omega
      | some i =>
        simp only at h
        split at h
        · rename_i hi
          obtain ⟨a, b, ha, hb⟩ := split_set hi .ready
          simp only [Option.some.injEq, Res.ok.injEq] at h
          subst h
          simp only [poolMeasure, hk, Acceptor.weight, hb]
          rw [ha]
          simp only [weights_append, weights_cons, Worker.weight]
          omega
        · cases h
    · cases h
  | stop =>
    simp only [Pool.step] at h
    split at h
    · rename_i hk
      simp only [Option.some.injEq, Res.ok.injEq] at h
      subst h
      simp only [poolMeasure, hk, Acceptor.weight]
      omega
    · cases h
  | notifyAll =>
    simp only [Pool.step] at h
    split at h
    · rename_i hk
      simp only [Option.some.injEq, Res.ok.injEq] at h
      subst h
      simp only [poolMeasure, hk, Acceptor.weight]
      have := weights_woken s.workers
      rw [hk] at h9
      simp only [Nat.add_zero] at h9
      omega
    · cases h
  | join =>
    simp only [Pool.step] at h
    split at h
    · rename_i hk
      simp only [Option.some.injEq, Res.ok.injEq] at h
      subst h
      simp only [poolMeasure, hk.1, Acceptor.weight]
      omega
    · cases h
  | take i =>
    simp only [Pool.step] at h
    split at h
    · rename_i hi
      split at h
      · rename_i j js hj
        obtain ⟨a, b, ha, hb⟩ := split_set hi (.running j)
        simp only [Option.some.injEq, Res.ok.injEq] at h
        subst h
        simp only [poolMeasure, hb, hj]
        rw [ha]
        simp only [weights_append, weights_cons, Worker.weight, List.length_cons]
        omega
      · rename_i hj
        obtain ⟨a, b, ha, hb⟩ := split_set hi (if s.shutdown then Worker.ended else Worker.asleep)
        simp only [Option.some.injEq, Res.ok.injEq] at h
        subst h
        simp only [poolMeasure, hb]
        rw [ha]
        simp only [weights_append, weights_cons]
        have : Worker.weight (if s.shutdown = true then Worker.ended else Worker.asleep) = 0 := by
          split <;> rfl
        rw [this]
        simp only [Worker.weight]
        omega
    · cases h
  | finish i t =>
    simp only [Pool.step] at h
    split at h
    · rename_i j hi
      split at h
      · cases h
      · obtain ⟨a, b, ha, hb⟩ := split_set hi .ready
        simp only [Option.some.injEq, Res.ok.injEq] at h
        subst h
        simp only [poolMeasure, hb]
        rw [ha]
        simp only [weights_append, weights_cons, Worker.weight]
        omega
    · cases h

theorem poolMeasure_run {n : Nat} : ∀ {es : List Ev} {s s' : St}, PoolInv n s → run s es = some (.ok s') →
    (∀ e ∈ es, unbounded e = false) → es.length + poolMeasure n s' ≤ poolMeasure n s := by
  intro es
  induction es with
  | nil =>
    intro s s' _ h _
    simp only [Pool.run, Option.some.injEq, Res.ok.injEq] at h
    subst h
    simp
  | cons e es ih =>
    intro s s' hi h hu
    simp only [Pool.run] at h
    split at h
    · rename_i t ht
      have h1 := poolMeasure_step hi ht (hu e (by simp))
      have h2 := ih (hi.step ht) h fun e he => hu e (by simp [he])
      simp only [List.length_cons]
      omega
    · rename_i hr
      split at h
      · exact absurd h (hr _)
      · cases h

/-- **C96** (the server comes to rest): from every state there is a bound on the number of steps without new connections, errors
of `accept` and causeless wake-ups; and as long as the server is neither in `accept` nor has returned, a step is possible.  So
once `accept` has failed for good and the connections end, the server returns. -/
theorem C96_rest {n : Nat} {s : St} (hr : PoolReach n s) :
    (∃ b, ∀ es s', run s es = some (.ok s') → (∀ e ∈ es, unbounded e = false) → es.length ≤ b) ∧
    (s.acceptor ≠ .accepting → s.acceptor ≠ .returned →
      ∃ e s', unbounded e = false ∧ failure e = false ∧ step s e = some (.ok s')) := by
  refine ⟨⟨poolMeasure n s, fun es s' h hu => ?_⟩, fun ha hb => ?_⟩
  · have := poolMeasure_run hr.inv h hu
    omega
  · have can : ∀ e, unbounded e = false → failure e = false → step s e ≠ none →
        ∃ e s', unbounded e = false ∧ failure e = false ∧ step s e = some (.ok s') := by
      intro e h1 h2 h3
      cases hs : step s e with
      | none => exact absurd hs h3
      | some r =>
        obtain ⟨s', rfl⟩ := pool_step_ok hs h2
        exact ⟨e, s', h1, h2, hs⟩
    cases hacc : s.acceptor with
    | creating k =>
      cases k with
      | zero => exact can .begin rfl rfl (by simp [Pool.step, hacc])
      | succ k => exact can (.spawn true) rfl rfl (by simp [Pool.step, hacc])
    | accepting => exact absurd hacc ha
    | returned => exact absurd hacc hb
    | adding => exact can (.push true) rfl rfl (by simp [Pool.step, hacc])
    | notifying =>
      by_cases hs : Worker.asleep ∈ s.workers
      · obtain ⟨i, hi⟩ := mem_index hs
        exact can (.notify (some i)) rfl rfl (by simp [Pool.step, hacc, hi])
      · exact can (.notify none) rfl rfl (by simp [Pool.step, hacc, hs])
    | stopping => exact can .stop rfl rfl (by simp [Pool.step, hacc])
    | notifyingAll => exact can .notifyAll rfl rfl (by simp [Pool.step, hacc])
    | joining =>
      by_cases hall : ∀ w ∈ s.workers, w = .ended
      · exact can .join rfl rfl (by simp only [Pool.step]; rw [if_pos ⟨hacc, hall⟩]; simp)
      · have hex : ∃ w ∈ s.workers, w ≠ .ended := by
          refine Classical.byContradiction fun hx => hall fun w hw => ?_
          exact Classical.byContradiction fun hne => hx ⟨w, hw, hne⟩
        obtain ⟨w, hw, hne⟩ := hex
        obtain ⟨i, hi⟩ := mem_index hw
        cases w with
        | ended => exact absurd rfl hne
        | asleep => exact absurd hw (hr.inv.awake (.inl hacc))
        | running j => exact can (.finish i false) rfl rfl (by simp [Pool.step, hi])
        | ready =>
          refine can (.take i) rfl rfl ?_
          simp only [Pool.step, hi, if_true]
          cases s.jobs <;> simp

/-! ## Failures -/

/-- **C96** (failures): a thread that cannot be started is an exception for the caller when it is the first, else undefined; a job
that cannot be stored is undefined; an exception in a job ends the process, with all the other connections. -/
theorem C96_failures {n : Nat} {s : St} (hn : 0 < n) (hr : PoolReach n s) :
    (∀ r, step s (.spawn false) = some r → r = if s.workers = [] then .thrown else .ub) ∧
    (∀ r, step s (.push false) = some r → r = .ub) ∧
    (∀ i r, step s (.finish i true) = some r → r = .terminated) := by
  refine ⟨fun r h => ?_, fun r h => ?_, fun i r h => ?_⟩
  · simp only [Pool.step] at h
    split at h
    · rw [if_neg (by simp)] at h
      split at h <;> (rename_i hw; injection h with h; rw [← h]; simp [hw])
    · cases h
  · simp only [Pool.step] at h
    split at h
    · rename_i hk
      have h9 := hr.inv.size
      rw [hk] at h9
      have hne : s.workers ≠ [] := by
        intro he
        rw [he] at h9
        simp at h9
        omega
      rw [if_neg (by simp), if_neg hne] at h
      injection h with h
      exact h.symm
    · cases h
  · simp only [Pool.step] at h
    split at h
    · rw [if_pos trivial] at h
      injection h with h
      exact h.symm
    · cases h

/-- The code violates C96: the second thread cannot be started. -/
theorem C96_violated : ¬ C96_statement := by
  intro h
  obtain ⟨s, hs, -⟩ := h 2 [.spawn true, .spawn false] .ub (by decide) (by decide)
  cases hs

/-- A run with two threads and three connections that returns. -/
def threeServed : List Ev :=
  [.spawn true, .spawn true, .begin, .take 0, .accept .conn, .push true, .notify (some 0), .take 1, .accept .conn, .push true, .notify none, .take 0, .accept .conn, .push true, .notify none,
   .accept (.err 103), .stop, .finish 0 false, .take 0, .finish 1 false, .notifyAll, .take 1, .finish 0 false, .take 0, .join]

example : run (start 2) threeServed =
    some (.ok ⟨.returned, [.ended, .ended], [], true, 3, [0, 1, 2], [1, 0, 2], false⟩) ∧
    (∀ e ∈ threeServed, failure e = false) := by decide

example : run (start 1) [.spawn true, .begin, .accept .conn, .push true, .take 0, .notify none, .finish 0 true] =
    some .terminated ∧
    run (start 1) [.spawn true, .begin, .accept .conn, .push false] = some .ub ∧
    run (start 1) [.spawn false] = some .thrown ∧ 8 ≤ poolSize 4 ∧ poolSize 64 = 63 := by decide

/-- Non-vacuity of `C96_settled`: all threads busy and a connection waiting; an idle server. -/
example : Settled ⟨.accepting, [.running 0], [1], false, 2, [0], [], true⟩ ∧
    PoolReach 1 ⟨.accepting, [.running 0], [1], false, 2, [0], [], true⟩ ∧
    Settled ⟨.accepting, [.asleep], [], false, 0, [], [], true⟩ ∧
    PoolReach 1 ⟨.accepting, [.asleep], [], false, 0, [], [], true⟩ := by
  have hs : ∀ (w : Worker) (js : List Nat) (k : Nat) (st : List Nat), w ≠ .ready →
      Settled ⟨.accepting, [w], js, false, k, st, [], true⟩ := by
    intro w js k st hw e he
    cases e with
    | take i =>
      cases i with
      | zero => simp [Pool.step, hw]
      | succ i => simp [Pool.step]
    | accept a => cases he
    | finish i t => cases he
    | wake i => cases he
    | spawn ok => rfl
    | begin => rfl
    | push ok => rfl
    | notify w => rfl
    | stop => rfl
    | notifyAll => rfl
    | join => simp [Pool.step]
  refine ⟨hs _ _ _ _ (by simp), ⟨[.spawn true, .begin, .accept .conn, .push true, .notify none, .take 0, .accept .conn,
    .push true, .notify none], by decide⟩, hs _ _ _ _ (by simp), ⟨[.spawn true, .begin, .take 0], by decide⟩⟩

/-! ## C97: errors of `accept` -/

/-- The errors of `accept` after which accept(2) asks to try again: interruption, no connection, and the errors of the network
and of the connection that come back from `accept` (ECONNABORTED, ENETDOWN, EPROTO, ENOPROTOOPT, EHOSTDOWN, ENONET, EHOSTUNREACH,
EOPNOTSUPP, ENETUNREACH). -/
def transient : List Nat := [4, 11, 103, 100, 71, 92, 112, 64, 113, 95, 101]

/-- **C97** as stated: after a transient error the server goes on accepting. -/
def C97_statement : Prop :=
  ∀ (n : Nat) (s s' : St) (e : Nat), PoolReach n s → e ∈ transient → step s (.accept (.err e)) = some (.ok s') →
    s'.acceptor = .accepting

/-- The code violates C97: a connection that was aborted before it was accepted ends the server. -/
theorem C97_violated : ¬ C97_statement := by
  intro h
  have := h 1 ⟨.accepting, [.ready], [], false, 0, [], [], true⟩ _ 103 ⟨[.spawn true, .begin], by decide⟩ (by decide) rfl
  cases this

/-- **C97**, partial: it goes on exactly after EINTR, EAGAIN and EMFILE (with nothing changed); after every other error it stops
accepting for good – whatever happens afterwards, the connections accepted so far are all there will ever be – and `listen` will
return false. -/
theorem C97_partial {n : Nat} {s s' : St} {e : Nat} (hr : PoolReach n s) (h : step s (.accept (.err e)) = some (.ok s')) :
    (e = 4 ∨ e = 11 ∨ e = 24 → s' = s ∧ s'.acceptor = .accepting) ∧
    (¬ (e = 4 ∨ e = 11 ∨ e = 24) → ∀ es t, run s' es = some (.ok t) →
      t.acceptor ≠ .accepting ∧ t.next = s.next ∧ t.ret = false ∧
      (t.acceptor = .returned → 0 < n → List.Perm t.finished (List.range s.next))) := by
  simp only [Pool.step] at h
  split at h
  · rename_i hk
    constructor
    · intro he
      have hre : retries e = true := by
        unfold retries
        rcases he with rfl | rfl | rfl <;> decide
      rw [if_pos hre] at h
      simp only [Option.some.injEq, Res.ok.injEq] at h
      subst h
      exact ⟨rfl, hk⟩
    · intro he es t ht
      have hre : ¬ retries e = true := by
        unfold retries
        simp only [Bool.or_eq_true, decide_eq_true_eq]
        rintro ((h | h) | h)
        · exact he (.inr (.inr h))
        · exact he (.inl h)
        · exact he (.inr (.inl h))
      have h0 := h
      rw [if_neg hre] at h
      simp only [Option.some.injEq, Res.ok.injEq] at h
      -- what is kept from here on
      have keep : ∀ (es : List Ev) (a t : St), (a.acceptor = .stopping ∨ a.acceptor = .notifyingAll ∨ a.acceptor = .joining ∨
          a.acceptor = .returned) → a.ret = false → run a es = some (.ok t) →
          (t.acceptor = .stopping ∨ t.acceptor = .notifyingAll ∨ t.acceptor = .joining ∨ t.acceptor = .returned) ∧
          t.next = a.next ∧ t.ret = false := by
        intro es
        induction es with
        | nil =>
          intro a t h1 h2 h3
          simp only [Pool.run, Option.some.injEq, Res.ok.injEq] at h3
          subst h3
          exact ⟨h1, rfl, h2⟩
        | cons e es ih =>
          intro a t h1 h2 h3
          simp only [Pool.run] at h3
          split at h3
          · rename_i b hb
            have hb' : (b.acceptor = .stopping ∨ b.acceptor = .notifyingAll ∨ b.acceptor = .joining ∨
                b.acceptor = .returned) ∧ b.next = a.next ∧ b.ret = false := by
              cases e <;> simp only [Pool.step] at hb
              case spawn ok => rcases h1 with h1 | h1 | h1 | h1 <;> simp [h1] at hb
              case begin => rcases h1 with h1 | h1 | h1 | h1 <;> simp [h1] at hb
              case accept a => rcases h1 with h1 | h1 | h1 | h1 <;> simp [h1] at hb
              case push ok => rcases h1 with h1 | h1 | h1 | h1 <;> simp [h1] at hb
              case notify w => rcases h1 with h1 | h1 | h1 | h1 <;> simp [h1] at hb
              case stop =>
                split at hb
                · simp only [Option.some.injEq, Res.ok.injEq] at hb; subst hb; exact ⟨.inr (.inl rfl), rfl, h2⟩
                · cases hb
              case notifyAll =>
                split at hb
                · simp only [Option.some.injEq, Res.ok.injEq] at hb; subst hb; exact ⟨.inr (.inr (.inl rfl)), rfl, h2⟩
                · cases hb
              case join =>
                split at hb
                · simp only [Option.some.injEq, Res.ok.injEq] at hb; subst hb; exact ⟨.inr (.inr (.inr rfl)), rfl, h2⟩
                · cases hb
              case wake i =>
                split at hb
                · simp only [Option.some.injEq, Res.ok.injEq] at hb; subst hb; exact ⟨h1, rfl, h2⟩
                · cases hb
              case take i =>
                split at hb
                · split at hb <;> (simp only [Option.some.injEq, Res.ok.injEq] at hb; subst hb; exact ⟨h1, rfl, h2⟩)
                · cases hb
              case finish i t =>
                split at hb
                · split at hb
                  · cases hb
                  · simp only [Option.some.injEq, Res.ok.injEq] at hb; subst hb; exact ⟨h1, rfl, h2⟩
                · cases hb
            obtain ⟨c1, c2, c3⟩ := ih b t hb'.1 hb'.2.2 h3
            exact ⟨c1, c2.trans hb'.2.1, c3⟩
          · rename_i hx
            split at h3
            · exact absurd h3 (hx _)
            · cases h3
      have hs' : (s'.acceptor = .stopping ∨ s'.acceptor = .notifyingAll ∨ s'.acceptor = .joining ∨ s'.acceptor = .returned) ∧
          s'.ret = false ∧ s'.next = s.next := by
        subst h
        exact ⟨.inl rfl, rfl, rfl⟩
      obtain ⟨c1, c2, c3⟩ := keep es s' t hs'.1 hs'.2.1 ht
      refine ⟨fun hc => ?_, c2.trans hs'.2.2, c3, fun hret hn => ?_⟩
      · rcases c1 with c1 | c1 | c1 | c1 <;> (rw [hc] at c1; cases c1)
      · obtain ⟨es0, he0⟩ := hr
        have hstep : step s (.accept (.err e)) = some (.ok s') := by
          simp only [Pool.step]
          rw [if_pos hk]
          exact h0
        have hinv : PoolInv n t := (((inv_start n).run he0).step hstep).run ht
        obtain ⟨h1, h2, h3, h4, h5, h6, h7, h8, h9⟩ := hinv
        have hall := h7 hret
        have hbusy : runningOf t.workers = [] := by
          unfold runningOf
          rw [List.filterMap_eq_nil_iff]
          intro w hw
          rw [hall w hw]
        have hne : t.workers ≠ [] := by
          intro he
          rw [he, hret] at h9
          simp at h9
          omega
        obtain ⟨w, ws, hw⟩ := List.exists_cons_of_ne_nil hne
        have hend : Worker.ended ∈ t.workers := by
          rw [← hall w (by rw [hw]; simp), hw]
          simp
        have hj := (h6 hend).2
        have : inHand t = [] := by unfold inHand; rw [hret]; simp
        rw [this, hj, List.append_nil, List.append_nil] at h1
        rw [← hs'.2.2, ← c2, ← h1, List.perm_iff_count]
        intro x
        have := h2 x
        rw [hbusy] at this
        simpa using this
  · cases h

/-- Non-vacuity of `C97_partial`. -/
example : PoolReach 1 ⟨.accepting, [.ready], [], false, 0, [], [], true⟩ ∧
    step ⟨.accepting, [.ready], [], false, 0, [], [], true⟩ (.accept (.err 23)) =
      some (.ok ⟨.stopping, [.ready], [], false, 0, [], [], false⟩) ∧
    run ⟨.stopping, [.ready], [], false, 0, [], [], false⟩ [.stop, .notifyAll, .take 0, .join] =
      some (.ok ⟨.returned, [.ended], [], true, 0, [], [], false⟩) ∧
    step ⟨.accepting, [.ready], [], false, 0, [], [], true⟩ (.accept (.err 24)) =
      some (.ok ⟨.accepting, [.ready], [], false, 0, [], [], true⟩) :=
  ⟨⟨[.spawn true, .begin], by decide⟩, by decide, by decide, by decide⟩

end Brski.Props
