import Verif.Concurrent
import Verif.PropsEnroll

/-!
# Property C42: concurrent requests at the MASA
-/

namespace Brski.Props
open Outcome Concurrent

/-- Every request can read its certificate (specification). -/
def loading (pin : Nat → Bytes) : Nat → Option Bytes := fun i => some (pin i)

/-- The accesses of request `i` in program order, with `k` calls of the callback (specification for
/repo/src/brski/masa/masa_api.cpp:57-183; the library calls the callback at most once). -/
def program (k i : Nat) : List Act := .load i :: (List.replicate k (.use i) ++ [.free i])

/-- A complete schedule of some requests: the accesses of each request are in program order, otherwise they are
mixed arbitrarily.  `k i` is the number of callbacks of request `i` (specification). -/
def Complete (k : Nat → Nat) (l : List Act) : Prop :=
  ∀ i, l.filter (fun a => a.id = i) = [] ∨ l.filter (fun a => a.id = i) = program (k i) i

/-- The requests are served one after another (specification). -/
def OneByOne (k : Nat → Nat) (l : List Act) : Prop :=
  ∃ ids : List Nat, ids.Nodup ∧ l = ids.flatMap fun i => program (k i) i

/-- **C42** as stated: every complete schedule is defined, every request pins its own certificate, and no block
is left behind. -/
def C42_statement : Prop :=
  ∀ (pin : Nat → Bytes) (k : Nat → Nat) (l : List Act), Complete k l →
    ∃ s, run (loading pin) start l = .ok s ∧ (∀ u ∈ s.used, u.2 = some (pin u.1)) ∧ s.heap.blk = Heap.empty.blk

/-- Two requests that overlap. -/
def overlap : List Act := [.load 0, .load 1, .use 0, .use 1, .free 0, .free 1]

theorem overlap_complete : Complete (fun _ => 1) overlap := by
  intro i
  by_cases h0 : i = 0
  · subst h0; exact .inr (by decide)
  · by_cases h1 : i = 1
    · subst h1; exact .inr (by decide)
    · refine .inl (List.filter_eq_nil_iff.2 ?_)
      intro a ha
      simp only [overlap, List.mem_cons, List.not_mem_nil, or_false] at ha
      rw [decide_eq_true_eq]
      rcases ha with rfl | rfl | rfl | rfl | rfl | rfl <;> first | exact Ne.symm h0 | exact Ne.symm h1

/-- The code violates C42: two overlapping requests release the same block twice. -/
theorem C42_violated : ¬ C42_statement := by
  intro h
  obtain ⟨s, hs, -⟩ := h (fun _ => []) (fun _ => 1) overlap overlap_complete
  have : run (loading fun _ => []) start overlap = .ub := by rfl
  rw [this] at hs
  cases hs

/-- Before that, the first request pins the certificate of the second. -/
theorem C42_violated_certificate : (run (loading fun i => [UInt8.ofNat i]) start [.load 0, .load 1, .use 0]).bind
    (fun s => .ok s.used) = .ok [(0, some [1])] := by rfl

/-! ## What does hold -/

theorem run_append (pin : Nat → Option Bytes) (l1 l2 : List Act) :
    ∀ s, run pin s (l1 ++ l2) = (run pin s l1).bind fun s => run pin s l2 := by
  induction l1 with
  | nil => intro s; rfl
  | cons a l1 ih =>
    intro s
    simp only [List.cons_append, run]
    cases step pin s a with
    | ub => rfl
    | ok s' => simp only [bind'_ok]; exact ih s'

/-- Accesses of a kind. -/
def loads (l : List Act) : Nat := l.countP fun a => match a with | .load _ => true | _ => false
/-- Releases in a schedule. -/
def frees (l : List Act) : Nat := l.countP fun a => match a with | .free _ => true | _ => false

/-- The pointer is live. -/
def Alive (s : State) : Prop := ∃ p b, s.ctx = some p ∧ s.heap.blk p = some b
/-- The pointer is stale. -/
def Dead (s : State) : Prop := ∃ p, s.ctx = some p ∧ s.heap.blk p = none

theorem step_load (pin : Nat → Bytes) (s : State) (i : Nat) : ∃ s', step (loading pin) s (.load i) = .ok s' ∧ Alive s' :=
  ⟨_, rfl, _, pin i, rfl, by simp [Heap.alloc]⟩

theorem step_free {pin : Nat → Bytes} {s s' : State} {i : Nat} (ha : Alive s) (h : step (loading pin) s (.free i) = .ok s') :
    Dead s' := by
  obtain ⟨p, b, h1, h2⟩ := ha
  simp only [step, h1, Heap.freePtr, Heap.free, h2, bind'_ok] at h
  cases h
  exact ⟨p, rfl, by simp⟩

theorem step_use {pin : Nat → Bytes} {s s' : State} {i : Nat} (ha : Alive s) (h : step (loading pin) s (.use i) = .ok s') :
    Alive s' := by
  obtain ⟨p, b, h1, h2⟩ := ha
  simp only [step, h1, Heap.read, h2, bind'_ok] at h
  cases h
  exact ⟨p, b, rfl, h2⟩

theorem dead_only_load {pin : Nat → Bytes} {s s' : State} {a : Act} (hd : Dead s) (h : step (loading pin) s a = .ok s') :
    ∃ i, a = .load i := by
  obtain ⟨p, h1, h2⟩ := hd
  cases a with
  | load i => exact ⟨i, rfl⟩
  | use i => simp [step, h1, Heap.read, h2] at h
  | free i => simp [step, h1, Heap.freePtr, Heap.free, h2] at h

/-- Every release needs a load of its own. -/
theorem enough_loads (pin : Nat → Bytes) (l : List Act) :
    ∀ s s', run (loading pin) s l = .ok s' → (Alive s → frees l ≤ loads l + 1) ∧ (Dead s → frees l ≤ loads l) := by
  induction l with
  | nil => intro s s' _; exact ⟨fun _ => Nat.zero_le _, fun _ => Nat.zero_le _⟩
  | cons a l ih =>
    intro s s' h
    simp only [run] at h
    cases hs : step (loading pin) s a with
    | ub => rw [hs] at h; cases h
    | ok t =>
      rw [hs, bind'_ok] at h
      obtain ⟨i1, i2⟩ := ih t s' h
      cases a with
      | load i =>
        obtain ⟨t', ht, hal⟩ := step_load pin s i
        rw [hs] at ht
        cases ht
        have := i1 hal
        simp only [frees, loads, List.countP_cons] at this ⊢
        simp only [if_true, if_false, Bool.false_eq_true] at *
        exact ⟨fun _ => by omega, fun _ => by omega⟩
      | use i =>
        refine ⟨fun ha => ?_, fun hd => ?_⟩
        · have := i1 (step_use ha hs)
          simpa only [frees, loads, List.countP_cons, if_true, if_false, Bool.false_eq_true, Nat.add_zero] using this
        · obtain ⟨j, hj⟩ := dead_only_load hd hs; cases hj
      | free i =>
        refine ⟨fun ha => ?_, fun hd => ?_⟩
        · have := i2 (step_free ha hs)
          simp only [frees, loads, List.countP_cons, if_true, if_false, Bool.false_eq_true] at this ⊢
          omega
        · obtain ⟨j, hj⟩ := dead_only_load hd hs; cases hj

theorem countP_eq_of_ids (p q : Act → Bool) (l : List Act)
    (h : ∀ i, (l.filter fun a => a.id = i).countP p = (l.filter fun a => a.id = i).countP q) :
    l.countP p = l.countP q := by
  have key : ∀ (r : Act → Bool), ((l.filter r).map Act.id).length = l.countP r := by
    intro r; rw [List.length_map, List.countP_eq_length_filter]
  rw [← key p, ← key q]
  apply List.Perm.length_eq
  rw [List.perm_iff_count]
  intro i
  have cnt : ∀ (r : Act → Bool), ((l.filter r).map Act.id).count i = (l.filter fun a => a.id = i).countP r := by
    intro r
    rw [List.count_eq_countP, List.countP_map, List.countP_filter, List.countP_filter]
    congr 1
    funext a
    simp only [Function.comp, Bool.and_comm]
    rfl
  rw [cnt, cnt, h i]

theorem complete_balanced {k : Nat → Nat} {l : List Act} (h : Complete k l) : loads l = frees l := by
  apply countP_eq_of_ids
  intro i
  rcases h i with e | e
  · rw [e]; rfl
  · rw [e]
    simp [program, List.countP_cons, List.countP_append, List.countP_replicate]

/-- The first access of a request in a complete schedule is its load. -/
theorem complete_head {k : Nat → Nat} {a : Act} {t : List Act}
    (h : (a :: t).filter (fun b => b.id = a.id) = [] ∨ (a :: t).filter (fun b => b.id = a.id) = program (k a.id) a.id) :
    a = .load a.id ∧ t.filter (fun b => b.id = a.id) = List.replicate (k a.id) (.use a.id) ++ [.free a.id] := by
  rw [List.filter_cons_of_pos (by simp)] at h
  rcases h with h | h
  · cases h
  · simp only [program, List.cons.injEq] at h
    exact h

/-- Once a request has loaded, a schedule that is defined finishes it before anything else happens. -/
theorem finish_first (pin : Nat → Bytes) (k : Nat → Nat) (j : Nat) (m : Nat) :
    ∀ (t : List Act) (s s' : State), Alive s → run (loading pin) s t = .ok s' → frees t = loads t + 1 →
      t.filter (fun b => b.id = j) = List.replicate m (.use j) ++ [.free j] →
      (∀ i, i ≠ j → t.filter (fun b => b.id = i) = [] ∨ t.filter (fun b => b.id = i) = program (k i) i) →
      ∃ t', t = (List.replicate m (.use j) ++ [.free j]) ++ t' := by
  induction m with
  | zero =>
    intro t s s' hal hrun hbal hj hoth
    cases t with
    | nil => cases hj
    | cons a t =>
      by_cases ha : a.id = j
      · rw [List.filter_cons_of_pos (by simpa using ha)] at hj
        simp only [List.replicate_zero, List.nil_append, List.cons.injEq] at hj
        exact ⟨t, by simp [hj.1]⟩
      · exfalso
        obtain ⟨hl, -⟩ := complete_head (hoth a.id ha)
        rw [hl] at hrun hbal
        simp only [run] at hrun
        obtain ⟨u, hu, hau⟩ := step_load pin s a.id
        rw [hu, bind'_ok] at hrun
        have := (enough_loads pin t u s' hrun).1 hau
        simp only [frees, loads, List.countP_cons, if_true, if_false, Bool.false_eq_true] at this hbal
        omega
  | succ m ih =>
    intro t s s' hal hrun hbal hj hoth
    cases t with
    | nil => cases hj
    | cons a t =>
      by_cases ha : a.id = j
      · rw [List.filter_cons_of_pos (by simpa using ha)] at hj
        simp only [List.replicate_succ, List.cons_append, List.cons.injEq] at hj
        obtain ⟨h1, h2⟩ := hj
        subst h1
        simp only [run] at hrun
        cases hs : step (loading pin) s (.use j) with
        | ub => rw [hs] at hrun; cases hrun
        | ok u =>
          rw [hs, bind'_ok] at hrun
          obtain ⟨t', ht'⟩ := ih t u s' (step_use hal hs) hrun
            (by simpa only [frees, loads, List.countP_cons, if_true, if_false, Bool.false_eq_true, Nat.add_zero]
                  using hbal) h2
            (fun i hi => by
              have := hoth i hi
              rwa [List.filter_cons_of_neg (by rw [decide_eq_true_eq]; exact Ne.symm hi)] at this)
          exact ⟨t', by rw [ht']; simp [List.replicate_succ]⟩
      · exfalso
        obtain ⟨hl, -⟩ := complete_head (hoth a.id ha)
        rw [hl] at hrun hbal
        simp only [run] at hrun
        obtain ⟨u, hu, hau⟩ := step_load pin s a.id
        rw [hu, bind'_ok] at hrun
        have := (enough_loads pin t u s' hrun).1 hau
        simp only [frees, loads, List.countP_cons, if_true, if_false, Bool.false_eq_true] at this hbal
        omega

theorem filter_program_self (k j : Nat) : (program k j).filter (fun b => b.id = j) = program k j := by
  refine List.filter_eq_self.2 fun a ha => ?_
  simp only [program, List.mem_cons, List.mem_append, List.mem_replicate, List.not_mem_nil, or_false] at ha
  rcases ha with rfl | ⟨-, rfl⟩ | rfl <;> simp [Act.id]

theorem filter_program_other {k i j : Nat} (h : i ≠ j) : (program k j).filter (fun b => b.id = i) = [] := by
  refine List.filter_eq_nil_iff.2 fun a ha => ?_
  simp only [program, List.mem_cons, List.mem_append, List.mem_replicate, List.not_mem_nil, or_false] at ha
  rw [decide_eq_true_eq]
  rcases ha with rfl | ⟨-, rfl⟩ | rfl <;> exact Ne.symm h

theorem oneByOne_of_defined (pin : Nat → Bytes) (k : Nat → Nat) (n : Nat) :
    ∀ (l : List Act) (s s' : State), l.length ≤ n → Complete k l → run (loading pin) s l = .ok s' → OneByOne k l := by
  induction n with
  | zero =>
    intro l s s' hn _ _
    cases l with
    | nil => exact ⟨[], List.nodup_nil, rfl⟩
    | cons a l => simp at hn
  | succ n ih =>
    intro l s s' hn hc hrun
    cases l with
    | nil => exact ⟨[], List.nodup_nil, rfl⟩
    | cons a t =>
      obtain ⟨hl, hj⟩ := complete_head (hc a.id)
      have hbal := complete_balanced hc
      generalize a.id = j at hl hj
      subst hl
      simp only [run] at hrun
      obtain ⟨u, hu, hau⟩ := step_load pin s j
      rw [hu, bind'_ok] at hrun
      obtain ⟨t', ht'⟩ := finish_first pin k j (k j) t u s' hau hrun
        (by simp only [frees, loads, List.countP_cons, if_true, if_false, Bool.false_eq_true] at hbal ⊢; omega) hj
        (fun i hi => by
          have := hc i
          rwa [List.filter_cons_of_neg (by rw [decide_eq_true_eq]; exact Ne.symm hi)] at this)
      have hl : Act.load j :: t = program (k j) j ++ t' := by rw [ht']; rfl
      have hnone : t'.filter (fun b => b.id = j) = [] := by
        have := hc j
        rw [hl, List.filter_append, filter_program_self] at this
        rcases this with h | h
        · exact (List.append_eq_nil_iff.1 h).2
        · exact List.append_right_eq_self.1 h
      have hc' : Complete k t' := by
        intro i
        by_cases hi : i = j
        · subst hi; exact .inl hnone
        · have := hc i
          rwa [hl, List.filter_append, filter_program_other hi, List.nil_append] at this
      rw [ht', run_append] at hrun
      cases hmid : run (loading pin) u (List.replicate (k j) (.use j) ++ [.free j]) with
      | ub => rw [hmid] at hrun; cases hrun
      | ok v =>
        rw [hmid, bind'_ok] at hrun
        obtain ⟨ids, hnd, he⟩ := ih t' v s'
          (by rw [ht'] at hn; simp only [List.length_cons, List.length_append] at hn; omega) hc' hrun
        refine ⟨j :: ids, List.nodup_cons.2 ⟨fun hm => ?_, hnd⟩, by rw [hl, List.flatMap_cons, ← he]⟩
        have : Act.load j ∈ t'.filter (fun b => b.id = j) := by
          refine List.mem_filter.2 ⟨?_, by simp [Act.id]⟩
          rw [he]
          exact List.mem_flatMap.2 ⟨j, hm, List.mem_cons_self⟩
        rw [hnone] at this
        cases this

theorem run_uses (pin : Nat → Bytes) (i m : Nat) {p : Nat} {b : Bytes} :
    ∀ s : State, s.ctx = some p → s.heap.blk p = some b →
      run (loading pin) s (List.replicate m (.use i)) = .ok { s with used := s.used ++ List.replicate m (i, some b) } := by
  induction m with
  | zero => intro s _ _; simp [run]
  | succ m ih =>
    intro s h1 h2
    have hs : step (loading pin) s (.use i) = .ok { s with used := s.used ++ [(i, some b)] } := by
      simp [step, h1, Heap.read, h2]
    rw [List.replicate_succ, run, hs, bind'_ok, ih { s with used := s.used ++ [(i, some b)] } h1 h2]
    simp [List.replicate_succ]

/-- One request alone, from any state of the server. -/
theorem run_program (pin : Nat → Bytes) (k i : Nat) (s : State) (hw : s.heap.Wf) :
    ∃ s', run (loading pin) s (program k i) = .ok s' ∧ s'.heap.Wf ∧ s'.heap.blk = s.heap.blk ∧
      s'.used = s.used ++ List.replicate k (i, some (pin i)) := by
  have hfresh : s.heap.blk s.heap.next = none := Heap.alloc_fresh hw
  have h1 : step (loading pin) s (.load i) =
      .ok ⟨(s.heap.alloc (pin i)).1, some (s.heap.alloc (pin i)).2, s.used⟩ := rfl
  have h2 : (s.heap.alloc (pin i)).1.blk (s.heap.alloc (pin i)).2 = some (pin i) := by simp [Heap.alloc]
  simp only [program, run, h1, bind'_ok]
  rw [run_append, run_uses pin i k _ rfl h2, bind'_ok]
  simp only [run, step, Heap.freePtr, Heap.free, h2, bind'_ok]
  refine ⟨_, rfl, ?_, ?_, rfl⟩
  · intro p hp
    simp only [Heap.Live] at hp
    split at hp
    · exact absurd rfl hp
    · exact Heap.alloc_wf hw (pin i) p hp
  · funext q
    simp only [Heap.alloc]
    by_cases e : q = s.heap.next
    · simp [e, hfresh]
    · simp [e]

theorem run_serial (pin : Nat → Bytes) (k : Nat → Nat) (ids : List Nat) :
    ∀ s : State, s.heap.Wf → ∃ s', run (loading pin) s (ids.flatMap fun i => program (k i) i) = .ok s' ∧
      s'.heap.blk = s.heap.blk ∧
      s'.used = s.used ++ ids.flatMap fun i => List.replicate (k i) (i, some (pin i)) := by
  induction ids with
  | nil => intro s _; exact ⟨s, rfl, rfl, by simp⟩
  | cons i ids ih =>
    intro s hw
    obtain ⟨u, h1, h2, h3, h4⟩ := run_program pin (k i) i s hw
    obtain ⟨v, g1, g3, g4⟩ := ih u h2
    refine ⟨v, ?_, g3.trans h3, ?_⟩
    · rw [List.flatMap_cons, run_append, h1, bind'_ok, g1]
    · rw [g4, h4, List.flatMap_cons, List.append_assoc]

/-- **C42**, exact extent: a complete schedule is free of undefined behaviour if and only if it serves the
requests one after another; any overlap of two requests is undefined. -/
theorem C42_partial (pin : Nat → Bytes) (k : Nat → Nat) (l : List Act) (hc : Complete k l) :
    (∃ s, run (loading pin) start l = .ok s) ↔ OneByOne k l := by
  constructor
  · rintro ⟨s, hs⟩
    exact oneByOne_of_defined pin k l.length l start s (Nat.le_refl _) hc hs
  · rintro ⟨ids, -, rfl⟩
    obtain ⟨s, hs, -⟩ := run_serial pin k ids start Heap.wf_empty
    exact ⟨s, hs⟩

/-- **C42** for requests served one after another: each pins its own certificate and no block is left behind. -/
theorem C42_partial_serial (pin : Nat → Bytes) (k : Nat → Nat) (l : List Act) (h : OneByOne k l) :
    ∃ s, run (loading pin) start l = .ok s ∧ (∀ u ∈ s.used, u.2 = some (pin u.1)) ∧ s.heap.blk = Heap.empty.blk := by
  obtain ⟨ids, -, rfl⟩ := h
  obtain ⟨s, hs, h1, h2⟩ := run_serial pin k ids start Heap.wf_empty
  refine ⟨s, hs, ?_, h1⟩
  intro u hu
  rw [h2] at hu
  simp only [start, List.nil_append, List.mem_flatMap, List.mem_replicate] at hu
  obtain ⟨i, -, -, rfl⟩ := hu
  rfl

/-- Requests served one after another form a complete schedule. -/
theorem oneByOne_complete {k : Nat → Nat} {l : List Act} (h : OneByOne k l) : Complete k l := by
  obtain ⟨ids, hnd, rfl⟩ := h
  intro i
  induction ids with
  | nil => exact .inl rfl
  | cons j ids ih =>
    obtain ⟨hj, hnd⟩ := List.nodup_cons.1 hnd
    rw [List.flatMap_cons, List.filter_append]
    by_cases hi : i = j
    · subst hi
      refine .inr ?_
      have : (ids.flatMap fun i => program (k i) i).filter (fun b => b.id = i) = [] := by
        refine List.filter_eq_nil_iff.2 fun a ha => ?_
        obtain ⟨x, hx, hax⟩ := List.mem_flatMap.1 ha
        have hne : i ≠ x := fun e => hj (e ▸ hx)
        exact List.filter_eq_nil_iff.1 (filter_program_other (k := k x) hne) a hax
      rw [filter_program_self, this, List.append_nil]
    · rw [filter_program_other hi, List.nil_append]
      exact ih hnd

/-- Non-vacuity: both sides of the equivalence occur. -/
example : Complete (fun _ => 1) overlap ∧ ¬ OneByOne (fun _ => 1) overlap :=
  ⟨overlap_complete, fun h => by
    obtain ⟨s, hs⟩ := (C42_partial (fun _ => []) _ _ overlap_complete).2 h
    have : run (loading fun _ => []) start overlap = .ub := by rfl
    rw [this] at hs
    cases hs⟩

example : OneByOne (fun _ => 1) [.load 4, .use 4, .free 4, .load 2, .use 2, .free 2] :=
  ⟨[4, 2], by decide, rfl⟩

/-! ## Certificates that cannot be read -/

/-- How often the callback of a request is called: never, if the certificate could not be read
(/repo/src/brski/masa/masa_api.cpp:94-98). -/
def callbacks (pin : Nat → Option Bytes) (k : Nat → Nat) (i : Nat) : Nat := if (pin i).isSome then k i else 0

/-- **C42**, with certificates that cannot always be read: every complete schedule is defined, every request whose certificate could
be read pins it, no other gets to the callback, and no block is left behind. -/
def C42_statement_missing : Prop :=
  ∀ (pin : Nat → Option Bytes) (k : Nat → Nat) (l : List Act), Complete (callbacks pin k) l →
    ∃ s, run pin start l = .ok s ∧ (∀ u ∈ s.used, (pin u.1).isSome ∧ u.2 = pin u.1) ∧ s.heap.blk = Heap.empty.blk

/-- The code violates this also where nothing is undefined: a request that cannot read its certificate takes the one of another
request away, which fails in its callback although its own was read, and a block is left behind. -/
theorem C42_violated_missing : ∃ (pin : Nat → Option Bytes) (l : List Act) (s : State), Complete (callbacks pin fun _ => 1) l ∧
    run pin start l = .ok s ∧ pin 0 = some [1] ∧ s.used = [(0, none)] ∧ s.heap.blk ≠ Heap.empty.blk := by
  refine ⟨fun i => if i = 0 then some [1] else none, [.load 0, .load 1, .use 0, .free 0, .free 1],
    ⟨(Heap.empty.alloc [1]).1, none, [(0, none)]⟩, ?_, rfl, rfl, rfl, ?_⟩
  · intro i
    by_cases h0 : i = 0
    · subst h0; exact .inr (by decide)
    · by_cases h1 : i = 1
      · subst h1; exact .inr (by decide)
      · refine .inl (List.filter_eq_nil_iff.2 ?_)
        intro a ha
        simp only [List.mem_cons, List.not_mem_nil, or_false] at ha
        rw [decide_eq_true_eq]
        rcases ha with rfl | rfl | rfl | rfl | rfl <;> first | exact Ne.symm h0 | exact Ne.symm h1
  · intro h
    have := congrFun h 0
    simp [Heap.alloc, Heap.empty] at this

/-- One request alone whose certificate cannot be read. -/
theorem run_missing {pin : Nat → Option Bytes} {i : Nat} (h : pin i = none) (s : State) :
    run pin s (program 0 i) = .ok { s with ctx := none } := by
  simp [program, run, step, h, Heap.freePtr]

theorem run_congr {pin pin' : Nat → Option Bytes} (l : List Act) (h : ∀ i, Act.load i ∈ l → pin i = pin' i) :
    ∀ s, run pin s l = run pin' s l := by
  induction l with
  | nil => intro s; rfl
  | cons a l ih =>
    intro s
    have e : step pin s a = step pin' s a := by
      cases a with
      | load i => simp only [step, h i (.head _)]
      | use i => rfl
      | free i => rfl
    simp only [run, e]
    cases step pin' s a with
    | ub => rfl
    | ok t => exact ih (fun i hi => h i (.tail _ hi)) t

/-- One request alone. -/
theorem run_program_any (pin : Nat → Option Bytes) (k : Nat → Nat) (i : Nat) (s : State) (hw : s.heap.Wf) :
    ∃ s', run pin s (program (callbacks pin k i) i) = .ok s' ∧ s'.heap.Wf ∧ s'.heap.blk = s.heap.blk ∧
      s'.used = s.used ++ List.replicate (callbacks pin k i) (i, pin i) := by
  cases hp : pin i with
  | none =>
    have hk : callbacks pin k i = 0 := by simp [callbacks, hp]
    rw [hk]
    exact ⟨_, run_missing hp s, hw, rfl, by simp⟩
  | some b =>
    obtain ⟨s', h1, h2, h3, h4⟩ := run_program (fun _ => b) (callbacks pin k i) i s hw
    refine ⟨s', ?_, h2, h3, h4⟩
    rw [← h1]
    refine run_congr _ (fun j hj => ?_) s
    simp only [program, List.mem_cons, List.mem_append, List.mem_replicate, List.not_mem_nil, or_false, Act.load.injEq, reduceCtorEq,
      and_false] at hj
    subst hj
    exact hp

/-- **C42** for requests served one after another: whether or not certificates can be read, the requests pin their own and no block
is left behind. -/
theorem C42_partial_missing (pin : Nat → Option Bytes) (k : Nat → Nat) (l : List Act) (h : OneByOne (callbacks pin k) l) :
    ∃ s, run pin start l = .ok s ∧ (∀ u ∈ s.used, (pin u.1).isSome ∧ u.2 = pin u.1) ∧ s.heap.blk = Heap.empty.blk := by
  obtain ⟨ids, -, rfl⟩ := h
  suffices key : ∀ s : State, s.heap.Wf → ∃ s', run pin s (ids.flatMap fun i => program (callbacks pin k i) i) = .ok s' ∧
      s'.heap.blk = s.heap.blk ∧ s'.used = s.used ++ ids.flatMap fun i => List.replicate (callbacks pin k i) (i, pin i) by
    obtain ⟨s, h1, h2, h3⟩ := key start Heap.wf_empty
    refine ⟨s, h1, fun u hu => ?_, h2⟩
    rw [h3] at hu
    simp only [start, List.nil_append, List.mem_flatMap, List.mem_replicate] at hu
    obtain ⟨i, -, hne, rfl⟩ := hu
    refine ⟨?_, rfl⟩
    simp only [callbacks] at hne
    split at hne
    · assumption
    · exact absurd rfl hne
  induction ids with
  | nil => intro s _; exact ⟨s, rfl, rfl, by simp⟩
  | cons i ids ih =>
    intro s hw
    obtain ⟨u, h1, h2, h3, h4⟩ := run_program_any pin k i s hw
    obtain ⟨v, g1, g3, g4⟩ := ih u h2
    refine ⟨v, ?_, g3.trans h3, ?_⟩
    · rw [List.flatMap_cons, run_append, h1, bind'_ok, g1]
    · rw [g4, h4, List.flatMap_cons, List.append_assoc]

/-- Non-vacuity: the certificate of the second of three requests cannot be read. -/
example : OneByOne (callbacks (fun i => if i = 2 then none else some [7]) fun _ => 1)
    [.load 4, .use 4, .free 4, .load 2, .free 2, .load 3, .use 3, .free 3] :=
  ⟨[4, 2, 3], by decide, rfl⟩

/-! ## The complete handler, one request after another -/

open Outcome Brski.Voucher VoucherJson Crypto BoolTime Request Base64 Brski.Spec Server in
/-- The MASA serves the bodies one after another with the same configuration
(/repo/src/brski/masa/masa_api.cpp:57-183, /repo/src/brski/masa/masa_server.cpp:73-90). -/
def serveVouchers (O : Ossl) (e : MasaEnv) : List Bytes → Heap → Option Nat → Outcome (List Nat × Heap)
  | [], h, _ => .ok ([], h)
  | body :: rest, h, ctx =>
    (masaRequestVoucher O e body h ctx).bind fun r =>
      (serveVouchers O e rest r.heap r.ctx).bind fun q => .ok (r.status :: q.1, q.2)

open Outcome Brski.Voucher VoucherJson Crypto BoolTime Request Base64 Brski.Spec Server in
/-- **C42** for the complete handler: any number of requests served one after another, none with a badly padded
body, is defined and leaves no block behind, although the pointer of the context is left stale. -/
theorem C42_partial_history (O : Ossl) (hsm : Small O) (e : MasaEnv) (hblk : e.blk.length = 4)
    (hc : MasaEnv.Complete e) (hal0 : Alloc (e.rt.json 0)) (hal1 : Alloc (e.rt.json 1)) (bodies : List Bytes)
    (hb : ∀ body ∈ bodies, (cstr body).length < 2 ^ 63 ∧
      ((cstr body).filter isB64Char = [] ∨ ¬ BadPadding (padded (cstr body)))) :
    ∃ st h', serveVouchers O e bodies Heap.empty none = .ok (st, h') ∧ st.length = bodies.length ∧
      h'.blk = Heap.empty.blk := by
  suffices key : ∀ (h : Heap) (ctx : Option Nat), h.Wf → (e.expiresOn.bind (str2time e.lib) = none → ctx = none) →
      ∃ st h', serveVouchers O e bodies h ctx = .ok (st, h') ∧ st.length = bodies.length ∧ h'.blk = h.blk from
    key _ _ Heap.wf_empty fun _ => rfl
  induction bodies with
  | nil => intro h ctx _ _; exact ⟨[], h, rfl, rfl, rfl⟩
  | cons body rest ih =>
    intro h ctx hw hctx
    obtain ⟨hsz, hpad⟩ := hb body List.mem_cons_self
    have hd : base64str2array e.al e.blk (cstr body) ≠ .ok (none, .dangling) := fun hd => by
      obtain ⟨d1, -, d2⟩ := (dangling_iff e.al e.blk (cstr body) hblk hsz).1 hd
      rcases hpad with hp | hp
      · exact d1 hp
      · exact hp d2
    obtain ⟨r, h1, h2, h3⟩ := masa_owns O hsm e hblk hc hal0 hal1 body hsz hd h hw ctx hctx
    obtain ⟨st, h', g1, g2, g3⟩ := ih (fun b hm => hb b (List.mem_cons_of_mem _ hm)) r.heap r.ctx h2.wf h3
    refine ⟨r.status :: st, h', ?_, by simp [g2], g3.trans (owns_blk h2)⟩
    simp only [serveVouchers, h1, bind'_ok, g1]

open Outcome Brski.Voucher VoucherJson Crypto BoolTime Request Base64 Brski.Spec Server in
/-- Non-vacuity: an empty body, a body that is no request, and a request that is granted. -/
example : ∃ st h', serveVouchers toy demoMasa [[], str "QQ==", rfc4648 demoRequest] Heap.empty none = .ok (st, h') ∧
    st.length = 3 ∧ h'.blk = Heap.empty.blk := by
  refine C42_partial_history toy toy_small demoMasa rfl demoMasa_complete (noOom_zero _) (noOom_zero _) _ ?_
  intro body hb
  simp only [List.mem_cons, List.not_mem_nil, or_false] at hb
  rcases hb with rfl | rfl | rfl
  · exact ⟨by decide, .inl rfl⟩
  · exact ⟨by decide, by rw [← decBlocks_none_iff]; decide +kernel⟩
  · have hlen : demoRequest.length < 1000 := by decide +kernel
    have hsz := rfc_length demoRequest
    refine ⟨by omega, ?_⟩
    have hd := decodes_rfc zeroAllocator noOom_zero [0, 0, 0, 0] demoRequest rfl (by decide +kernel)
      (by simp only [sizeMax]; omega)
    by_cases hp : (cstr (rfc4648 demoRequest)).filter isB64Char = []
    · exact .inl hp
    · refine .inr fun hbad => ?_
      have := (dangling_iff zeroAllocator [0, 0, 0, 0] (cstr (rfc4648 demoRequest)) rfl (by omega)).2
        ⟨hp, noOom_zero _, hbad⟩
      unfold BodyDecodes at hd
      rw [hd] at this
      cases this

end Brski.Props
