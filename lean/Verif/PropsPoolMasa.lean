import Verif.PoolMasa
import Verif.PropsPool
import Verif.PropsConcurrent

/-!
# C112: voucher requests in the threads of the pool
-/

namespace Brski.Props
open Outcome
open PoolMasa (Sys)
open Concurrent (Act)

/-- What a set of accesses must be (specification): defined, and every callback gets the certificate its own request has
loaded. -/
def Undisturbed (pin : Nat → Bytes) (l : List Act) : Prop :=
  ∃ s, Concurrent.run (loading pin) Concurrent.start l = .ok s ∧ ∀ u ∈ s.used, u.2 = some (pin u.1)

/-- **C112** as stated: whatever connections come, whatever voucher requests they bring, and however the threads of the pool
move, the requests do not disturb one another. -/
def C112_statement : Prop :=
  ∀ (hardware : Nat) (reqs : Nat → List Nat) (k : Nat → Nat) (pin : Nat → Bytes) (es : List PoolMasa.Ev) (S : Sys),
    PoolMasa.run (PoolMasa.start (Pool.poolSize hardware) reqs k) es = some S → Undisturbed pin S.done

/-! ## Two threads suffice for harm -/

/-- `n` threads are started. -/
def spawns (n : Nat) : List PoolMasa.Ev := List.replicate n (.pool (.spawn true))

theorem run_append' (l1 l2 : List PoolMasa.Ev) : ∀ s, PoolMasa.run s (l1 ++ l2) = (PoolMasa.run s l1).bind fun s => PoolMasa.run s l2 := by
  induction l1 with
  | nil => intro s; rfl
  | cons a l1 ih =>
    intro s
    simp only [List.cons_append, PoolMasa.run]
    cases PoolMasa.step s a with
    | none => rfl
    | some s' => simp only [Option.bind_some]; exact ih s'

theorem spawns_run (left : Nat → List Act) (done : List Act) : ∀ (n : Nat) (ws : List Pool.Worker),
    PoolMasa.run ⟨⟨.creating n, ws, [], false, 0, [], [], true⟩, left, done⟩ (spawns n) =
      some ⟨⟨.creating 0, ws ++ List.replicate n .ready, [], false, 0, [], [], true⟩, left, done⟩
  | 0, ws => by simp [spawns, PoolMasa.run]
  | n + 1, ws => by
    have h := spawns_run left done n (ws ++ [.ready])
    simp only [spawns, List.replicate_succ, PoolMasa.run, PoolMasa.step, PoolMasa.early, Pool.step, Bool.false_eq_true,
      if_false, if_true, Option.bind_some]
    simp only [spawns] at h
    rw [h]
    simp [List.replicate_succ]

/-- Two connections are accepted and taken by two threads, whose requests then take turns. -/
def twoAtOnce (n : Nat) : List PoolMasa.Ev :=
  spawns n ++ [.pool .begin, .pool (.accept .conn), .pool (.push true), .pool (.notify none), .pool (.accept .conn),
    .pool (.push true), .pool (.notify none), .pool (.take 0), .pool (.take 1),
    .access 0, .access 1, .access 0, .access 1, .access 0, .access 1]

theorem twoAtOnce_run (m : Nat) : ∃ S, PoolMasa.run (PoolMasa.start (m + 2) (fun j => [j]) (fun _ => 1)) (twoAtOnce (m + 2)) = some S ∧
    S.done = overlap := by
  have hn : Pool.Worker.asleep ∉ List.replicate m Pool.Worker.ready := by
    intro h; cases (List.mem_replicate.1 h).2
  unfold twoAtOnce
  rw [run_append', PoolMasa.start, Pool.start, spawns_run]
  simp [PoolMasa.run, PoolMasa.step, PoolMasa.early, Pool.step, List.replicate_succ, hn, PoolMasa.accesses, overlap]

/-- **C112**, the harm: in every pool of at least two threads two connections are enough for undefined behaviour, whatever the
certificates. -/
theorem C112_harm (n : Nat) (hn : 2 ≤ n) (pin : Nat → Bytes) : ∃ (es : List PoolMasa.Ev) (S : Sys),
    PoolMasa.run (PoolMasa.start n (fun j => [j]) (fun _ => 1)) es = some S ∧
      Concurrent.run (loading pin) Concurrent.start S.done = .ub := by
  obtain ⟨m, rfl⟩ : ∃ m, n = m + 2 := ⟨n - 2, by omega⟩
  obtain ⟨S, h1, h2⟩ := twoAtOnce_run m
  refine ⟨_, S, h1, ?_⟩
  rw [h2]
  simp [overlap, Concurrent.run, Concurrent.step, Concurrent.start, loading, Heap.alloc, Heap.read, Heap.freePtr, Heap.free, Heap.empty]

/-- The pool of the servers has at least eight threads. -/
theorem poolSize_two (hardware : Nat) : 2 ≤ Pool.poolSize hardware := by unfold Pool.poolSize; omega

/-- The code violates C112, on every machine. -/
theorem C112_violated_all (hardware : Nat) (pin : Nat → Bytes) : ∃ (es : List PoolMasa.Ev) (S : Sys),
    PoolMasa.run (PoolMasa.start (Pool.poolSize hardware) (fun j => [j]) (fun _ => 1)) es = some S ∧ ¬ Undisturbed pin S.done := by
  obtain ⟨es, S, h1, h2⟩ := C112_harm _ (poolSize_two hardware) pin
  exact ⟨es, S, h1, fun ⟨s, hs, _⟩ => by rw [h2] at hs; cases hs⟩

/-- The code violates C112. -/
theorem C112_violated : ¬ C112_statement := by
  intro h
  obtain ⟨es, S, h1, h2⟩ := C112_violated_all 4 (fun _ => [])
  exact h2 (h 4 _ _ _ es S h1)

/-! ## One thread does no harm -/

/-- Requests one after another. -/
def Serial (k : Nat → Nat) (l : List Act) : Prop := ∃ ids : List Nat, l = ids.flatMap fun i => program (k i) i

theorem Serial.append {k : Nat → Nat} {a b : List Act} : Serial k a → Serial k b → Serial k (a ++ b)
  | ⟨x, hx⟩, ⟨y, hy⟩ => ⟨x ++ y, by rw [hx, hy, List.flatMap_append]⟩

/-- The connection that the only thread serves. -/
def current (p : Pool.St) : Option Nat :=
  match p.workers with
  | [.running j] => some j
  | _ => none

/-- What holds in a pool of one thread. -/
structure Unshared (k : Nat → Nat) (s : Sys) : Prop where
  pool : PoolInv 1 s.pool
  others : ∀ j, current s.pool ≠ some j → Serial k (s.left j)
  done : Serial k (s.done ++ ((current s.pool).map s.left).getD [])

theorem PoolInv.one {p : Pool.St} (h : PoolInv 1 p) : p.workers = [] ∨ ∃ w, p.workers = [w] := by
  have := h.size
  match hw : p.workers with
  | [] => exact .inl rfl
  | [w] => exact .inr ⟨w, rfl⟩
  | _ :: _ :: _ => rw [hw] at this; simp at this; omega

/-- A step of a pool of one thread takes a connection, lets one go, or does neither. -/
theorem current_step {p p' : Pool.St} {e : Pool.Ev} (hi : PoolInv 1 p) (h : Pool.step p e = some (.ok p')) :
    current p' = current p ∨ (∃ j, current p = none ∧ current p' = some j) ∨
      (∃ j b, e = .finish 0 b ∧ p.workers[0]? = some (.running j) ∧ current p = some j ∧ current p' = none) := by
  have hi' := hi.step h
  rcases hi.one with hw | ⟨w, hw⟩
  · rcases hi'.one with hw' | ⟨w', hw'⟩
    · exact .inl (by simp [current, hw, hw'])
    · cases hw'' : current p' with
      | none => exact .inl (by simp [current, hw])
      | some j => exact .inr (.inl ⟨j, by simp [current, hw], rfl⟩)
  · cases hc : current p with
    | none =>
      cases hw'' : current p' with
      | none => exact .inl rfl
      | some j => exact .inr (.inl ⟨j, rfl, rfl⟩)
    | some j =>
      have hwr : w = .running j := by
        unfold current at hc; rw [hw] at hc
        cases w <;> simp at hc
        rw [hc]
      subst hwr
      have hsz := hi.size
      cases e with
      | spawn ok =>
        simp only [Pool.step] at h
        split at h
        · rename_i k hk
          rw [hk, hw] at hsz
          simp at hsz
        · cases h
      | «begin» =>
        simp only [Pool.step] at h
        split at h
        · cases h; exact .inl (by simpa [current] using hc)
        · cases h
      | accept a =>
        simp only [Pool.step] at h
        split at h
        · cases a with
          | conn => cases h; exact .inl (by simpa [current] using hc)
          | err x =>
            simp only at h
            split at h <;> (cases h; exact .inl (by simpa [current] using hc))
          | stopped => cases h; exact .inl (by simpa [current] using hc)
        · cases h
      | push ok =>
        simp only [Pool.step] at h
        split at h
        · split at h
          · cases h; exact .inl (by simpa [current] using hc)
          · split at h <;> cases h
        · cases h
      | notify o =>
        simp only [Pool.step] at h
        split at h
        · cases o with
          | none =>
            simp only at h
            split at h
            · cases h
            · cases h; exact .inl (by simpa [current] using hc)
          | some i =>
            simp only [hw] at h
            cases i with
            | zero => simp at h
            | succ i => simp at h
        · cases h
      | stop =>
        simp only [Pool.step] at h
        split at h
        · cases h; exact .inl (by simpa [current] using hc)
        · cases h
      | notifyAll =>
        simp only [Pool.step] at h
        split at h
        · cases h; exact .inl (by simp [current, hw, Pool.Worker.woken])
        · cases h
      | join =>
        simp only [Pool.step] at h
        split at h
        · cases h; exact .inl (by simpa [current] using hc)
        · cases h
      | wake i =>
        simp only [Pool.step, hw] at h
        cases i <;> simp at h
      | take i =>
        simp only [Pool.step, hw] at h
        cases i <;> simp at h
      | finish i b =>
        simp only [Pool.step, hw] at h
        cases i with
        | zero =>
          cases b with
          | true => simp at h
          | false =>
            simp at h
            subst h
            exact .inr (.inr ⟨j, false, rfl, by rw [hw]; rfl, rfl, rfl⟩)
        | succ i => simp at h

theorem Unshared.step {k : Nat → Nat} {s s' : Sys} {e : PoolMasa.Ev} (hi : Unshared k s) (h : PoolMasa.step s e = some s') :
    Unshared k s' := by
  cases e with
  | pool e =>
    simp only [PoolMasa.step] at h
    split at h
    · cases h
    · rename_i he
      split at h
      · rename_i p hp
        cases h
        refine ⟨hi.pool.step hp, ?_, ?_⟩
        · intro j hj
          rcases current_step hi.pool hp with hc | ⟨i, hc, hc'⟩ | ⟨i, b, hb, hwi, hc, hc'⟩
          · exact hi.others j (by rw [← hc]; exact hj)
          · exact hi.others j (by rw [hc]; simp)
          · by_cases hij : i = j
            · subst hij
              subst hb
              simp only [PoolMasa.early, hwi] at he
              have : s.left i = [] := by simpa using he
              exact ⟨[], by simp [this]⟩
            · exact hi.others j (by rw [hc]; simpa using hij)
        · have hd := hi.done
          rcases current_step hi.pool hp with hc | ⟨i, hc, hc'⟩ | ⟨i, b, hb, hwi, hc, hc'⟩
          · show Serial k (s.done ++ ((current p).map s.left).getD [])
            rw [hc]; exact hd
          · show Serial k (s.done ++ ((current p).map s.left).getD [])
            rw [hc] at hd
            rw [hc']
            simp only [Option.map_none, Option.getD_none, List.append_nil] at hd
            exact hd.append (hi.others i (by rw [hc]; simp))
          · show Serial k (s.done ++ ((current p).map s.left).getD [])
            subst hb
            simp only [PoolMasa.early, hwi] at he
            have h0 : s.left i = [] := by simpa using he
            rw [hc] at hd
            rw [hc']
            simpa [h0] using hd
      · cases h
  | access w =>
    simp only [PoolMasa.step] at h
    split at h
    · rename_i j hw
      split at h
      · rename_i a r hl
        cases h
        have hc : current s.pool = some j := by
          rcases hi.pool.one with h0 | ⟨x, h0⟩
          · rw [h0] at hw; cases hw
          · rw [h0] at hw
            cases w with
            | zero => cases hw; simp [current, h0]
            | succ w => cases hw
        refine ⟨hi.pool, ?_, ?_⟩
        · intro i hij
          have hne : i ≠ j := fun h => hij (by rw [h]; exact hc)
          simp only [hne, if_false]
          exact hi.others i hij
        · have hd := hi.done
          rw [hc] at hd
          show Serial k (s.done ++ [a] ++ ((current s.pool).map _).getD [])
          rw [hc]
          simpa [hl] using hd
      · cases h
    · cases h

theorem Unshared.run {k : Nat → Nat} : ∀ (es : List PoolMasa.Ev) {s s' : Sys}, Unshared k s → PoolMasa.run s es = some s' → Unshared k s'
  | [], s, s', hi, h => by cases h; exact hi
  | e :: es, s, s', hi, h => by
    simp only [PoolMasa.run] at h
    cases he : PoolMasa.step s e with
    | none => rw [he] at h; cases h
    | some t => rw [he] at h; exact Unshared.run es (hi.step he) h

theorem unshared_start (reqs : Nat → List Nat) (k : Nat → Nat) : Unshared k (PoolMasa.start 1 reqs k) :=
  ⟨inv_start 1, fun j _ => ⟨reqs j, rfl⟩, ⟨[], rfl⟩⟩

theorem step_used {pin : Nat → Option Bytes} {s s' : Concurrent.State} {a : Act} (h : Concurrent.step pin s a = .ok s') :
    ∃ l, s'.used = s.used ++ l := by
  cases a with
  | load i =>
    simp only [Concurrent.step] at h
    split at h <;> (cases h; exact ⟨[], by simp⟩)
  | use i =>
    simp only [Concurrent.step] at h
    split at h
    · cases h; exact ⟨_, rfl⟩
    · rename_i p _
      cases hr : s.heap.read p with
      | ub => rw [hr] at h; cases h
      | ok b => rw [hr] at h; cases h; exact ⟨_, rfl⟩
  | free i =>
    simp only [Concurrent.step] at h
    cases hr : s.heap.freePtr s.ctx with
    | ub => rw [hr] at h; cases h
    | ok b => rw [hr] at h; cases h; exact ⟨[], by simp⟩

theorem run_used {pin : Nat → Option Bytes} : ∀ (l : List Act) {s s' : Concurrent.State}, Concurrent.run pin s l = .ok s' →
    ∃ m, s'.used = s.used ++ m
  | [], s, s', h => by cases h; exact ⟨[], by simp⟩
  | a :: l, s, s', h => by
    simp only [Concurrent.run] at h
    cases hs : Concurrent.step pin s a with
    | ub => rw [hs] at h; cases h
    | ok t =>
      rw [hs] at h
      obtain ⟨m, hm⟩ := step_used hs
      obtain ⟨m', hm'⟩ := run_used l h
      exact ⟨m ++ m', by rw [hm', hm, List.append_assoc]⟩

/-- **C112**, what holds: in a pool of one thread the requests of any connections never disturb one another, at any moment of
any run; and when the thread serves no connection every block has been released. -/
theorem C112_partial (reqs : Nat → List Nat) (k : Nat → Nat) (pin : Nat → Bytes) (es : List PoolMasa.Ev) (S : Sys)
    (h : PoolMasa.run (PoolMasa.start 1 reqs k) es = some S) :
    Undisturbed pin S.done ∧
    ((∀ w ∈ S.pool.workers, ∀ j, w ≠ .running j) →
      ∃ s, Concurrent.run (loading pin) Concurrent.start S.done = .ok s ∧ s.heap.blk = Heap.empty.blk) := by
  have hi := Unshared.run es (unshared_start reqs k) h
  obtain ⟨ids, hd⟩ := hi.done
  obtain ⟨s, h1, h2, h3⟩ := run_serial pin k ids Concurrent.start Heap.wf_empty
  constructor
  · rw [← hd, run_append] at h1
    cases hr : Concurrent.run (loading pin) Concurrent.start S.done with
    | ub => rw [hr] at h1; cases h1
    | ok t =>
      rw [hr, bind'_ok] at h1
      obtain ⟨m, hm⟩ := run_used _ h1
      refine ⟨t, hr, fun u hu => ?_⟩
      have hu' : u ∈ s.used := by rw [hm]; simp [hu]
      rw [h3] at hu'
      simp only [Concurrent.start, List.nil_append, List.mem_flatMap, List.mem_replicate] at hu'
      obtain ⟨i, -, -, rfl⟩ := hu'
      rfl
  · intro hn
    have hc : current S.pool = none := by
      unfold current
      split
      · rename_i j hw
        exact absurd rfl (hn (.running j) (by rw [hw]; simp) j)
      · rfl
    rw [hc] at hd
    simp only [Option.map_none, Option.getD_none, List.append_nil] at hd
    rw [hd]
    exact ⟨s, h1, h2⟩

/-- A run of a pool of one thread: two connections, the first with two requests, served one after another (concrete case of
C112_partial). -/
def oneThread : List PoolMasa.Ev :=
  [.pool (.spawn true), .pool .begin, .pool (.accept .conn), .pool (.push true), .pool (.notify none), .pool (.accept .conn),
    .pool (.push true), .pool (.notify none), .pool (.take 0), .access 0, .access 0, .access 0, .access 0, .access 0, .access 0,
    .pool (.finish 0 false), .pool (.take 0), .access 0, .access 0, .access 0, .pool (.finish 0 false)]

example : (PoolMasa.run (PoolMasa.start 1 (fun j => if j = 0 then [0, 1] else [j + 1]) (fun _ => 1)) oneThread).map (·.done) =
    some [.load 0, .use 0, .free 0, .load 1, .use 1, .free 1, .load 2, .use 2, .free 2] := by decide +kernel

/-- In a pool of one thread the connection that thread serves keeps the others waiting: no second one is started (concrete
case: the schedule of C112_harm is impossible). -/
example : (PoolMasa.run (PoolMasa.start 1 (fun j => [j]) (fun _ => 1)) (twoAtOnce 1)).isNone = true := by decide +kernel

end Brski.Props
