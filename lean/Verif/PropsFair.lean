import Verif.PropsPool

/-!
# C119, C120: every client is served in the end, and a server that is stopped returns

Executions of the pool that go on for ever.  C96 is about what holds in each state; here it is about what happens in the end, with
threads that are all scheduled again and again and clients that keep coming.
-/

namespace Brski.Props

open Pool

/-! ## Specification -/

/-- An execution that goes on for ever: at each moment something happens or nothing. -/
structure Execution (n : Nat) (σ : Nat → St) (ev : Nat → Option Ev) : Prop where
  start : σ 0 = Pool.start n
  next : ∀ t, (ev t = none ∧ σ (t + 1) = σ t) ∨ ∃ e, ev t = some e ∧ step (σ t) e = some (.ok (σ (t + 1)))

/-- The event is a step of the accepting thread that needs nobody else. -/
def byAcceptor : Ev → Bool
  | .spawn _ => true
  | .begin => true
  | .push _ => true
  | .notify _ => true
  | .stop => true
  | .notifyAll => true
  | .join => true
  | _ => false

/-- Every thread that can go on does so in the end: a thread of the pool that is about to look for work looks for it; the accepting
thread takes its next step. -/
structure Scheduled (σ : Nat → St) (ev : Nat → Option Ev) : Prop where
  worker : ∀ t i, (σ t).workers[i]? = some .ready → ∃ u, t ≤ u ∧ ev u = some (.take i)
  acceptor : ∀ t, (∃ e, byAcceptor e = true ∧ step (σ t) e ≠ none) → ∃ u e, t ≤ u ∧ ev u = some e ∧ byAcceptor e = true

/-- Every connection that is being served comes to an end. -/
def ClientsEnd (σ : Nat → St) (ev : Nat → Option Ev) : Prop :=
  ∀ t i j, (σ t).workers[i]? = some (.running j) → ∃ u, t ≤ u ∧ ev u = some (.finish i false)

/-- Thread `i` serves a connection at this moment and for ever. -/
def HeldForever (σ : Nat → St) (ev : Nat → Option Ev) (v i : Nat) : Prop :=
  (∃ j, (σ v).workers[i]? = some (.running j)) ∧ ∀ u, v ≤ u → ev u ≠ some (.finish i false)

/-- **C119** as stated: however the threads are scheduled and whatever clients do, every client that was accepted has been served in
the end. -/
def C119_statement : Prop :=
  ∀ n σ ev, 0 < n → Execution n σ ev → Scheduled σ ev → ∀ t j, j < (σ t).next → ∃ u, j ∈ (σ u).finished

/-- **C120** as stated: whatever clients do, a server that stops accepting returns in the end, when every client it accepted has been
served. -/
def C120_statement : Prop :=
  ∀ n σ ev, 0 < n → Execution n σ ev → Scheduled σ ev → ∀ t, (σ t).acceptor = .stopping →
    ∃ u, (σ u).acceptor = .returned ∧ ∀ j, j < (σ u).next → j ∈ (σ u).finished

/-! ## Steps -/

theorem step_next {s s' : St} {e : Ev} (h : step s e = some (.ok s')) : s.next ≤ s'.next := by
  cases e <;> simp only [Pool.step] at h <;> (repeat' split at h) <;> cases h <;> simp

theorem step_finished {s s' : St} {e : Ev} (h : step s e = some (.ok s')) {j : Nat} (hj : j ∈ s.finished) : j ∈ s'.finished := by
  cases e <;> simp only [Pool.step] at h <;> (repeat' split at h) <;> cases h <;> simp [hj]

theorem step_jobs {s s' : St} {e : Ev} (h : step s e = some (.ok s')) :
    (s'.started = s.started ∧ (s'.jobs = s.jobs ∨ ∃ x, s'.jobs = s.jobs ++ [x])) ∨
      ∃ x, s.jobs = x :: s'.jobs ∧ s'.started = s.started ++ [x] := by
  cases e <;> simp only [Pool.step] at h <;> (repeat' split at h) <;> cases h <;> simp_all

theorem step_creating {s s' : St} {e : Ev} (h : step s e = some (.ok s')) (hs : ∀ k, s.acceptor = .creating k → s.next = 0) :
    ∀ k, s'.acceptor = .creating k → s'.next = 0 := by
  cases e <;> simp only [Pool.step] at h <;> (repeat' split at h) <;> cases h <;> simp_all

theorem step_running {s s' : St} {e : Ev} (h : step s e = some (.ok s')) {i j : Nat} (hi : s.workers[i]? = some (.running j)) :
    s'.workers[i]? = some (.running j) ∨ (e = .finish i false ∧ j ∈ s'.finished) := by
  have hset : ∀ k (w w' : Worker), s.workers[k]? = some w → w ≠ .running j → (s.workers.set k w')[i]? = some (.running j) := by
    intro k w w' hk hne
    rw [List.getElem?_set]
    split
    · rename_i heq
      subst heq
      rw [hi] at hk
      injection hk with hk
      exact absurd hk.symm hne
    · exact hi
  cases e with
  | finish k b =>
    simp only [Pool.step] at h
    split at h
    · rename_i j' hk
      split at h
      · cases h
      · rename_i hb
        cases h
        simp only [Bool.not_eq_true] at hb
        subst hb
        by_cases hki : k = i
        · subst hki
          rw [hi] at hk
          cases hk
          right
          simp
        · left
          rw [List.getElem?_set, if_neg hki]
          exact hi
    · cases h
  | spawn ok =>
    simp only [Pool.step] at h
    repeat' split at h
    all_goals cases h
    left
    rw [List.getElem?_append_left]
    · exact hi
    · exact (List.getElem?_eq_some_iff.1 hi).1
  | notifyAll =>
    simp only [Pool.step] at h
    split at h
    · cases h
      left
      simp [hi, Worker.woken]
    · cases h
  | notify w =>
    simp only [Pool.step] at h
    repeat' split at h
    all_goals cases h
    · exact .inl hi
    · rename_i _ _ _ hk
      exact .inl (hset _ _ _ hk (by simp))
  | wake k =>
    simp only [Pool.step] at h
    split at h
    · rename_i hk
      cases h
      exact .inl (hset _ _ _ hk (by simp))
    · cases h
  | take k =>
    simp only [Pool.step] at h
    split at h
    · rename_i hk
      split at h
      · cases h
        exact .inl (hset _ _ _ hk (by simp))
      · cases h
        exact .inl (hset _ _ _ hk (by simp))
    · cases h
  | begin => simp only [Pool.step] at h; split at h <;> cases h; exact .inl hi
  | accept a => simp only [Pool.step] at h; (repeat' split at h) <;> cases h <;> exact .inl hi
  | push ok => simp only [Pool.step] at h; (repeat' split at h) <;> cases h; exact .inl hi
  | stop => simp only [Pool.step] at h; split at h <;> cases h; exact .inl hi
  | join => simp only [Pool.step] at h; split at h <;> cases h; exact .inl hi

/-! ## Executions -/

variable {n : Nat} {σ : Nat → St} {ev : Nat → Option Ev}

theorem Execution.inv (h : Execution n σ ev) : ∀ t, PoolInv n (σ t) ∧ ∀ k, (σ t).acceptor = .creating k → (σ t).next = 0
  | 0 => by rw [h.start]; exact ⟨inv_start n, fun k _ => rfl⟩
  | t + 1 => by
    have ih := h.inv t
    rcases h.next t with ⟨_, hs⟩ | ⟨e, _, hs⟩
    · rw [hs]; exact ih
    · exact ⟨ih.1.step hs, step_creating hs ih.2⟩

/-- What every step keeps is kept for ever. -/
theorem Execution.keeps (h : Execution n σ ev) (P : St → Prop) (hP : ∀ s s' e, step s e = some (.ok s') → P s → P s') {t u : Nat}
    (htu : t ≤ u) (ht : P (σ t)) : P (σ u) := by
  induction u with
  | zero =>
    have : t = 0 := by omega
    rw [this] at ht
    exact ht
  | succ u ih =>
    by_cases hu : t = u + 1
    · rw [← hu]; exact ht
    · have := ih (by omega)
      rcases h.next u with ⟨_, hs⟩ | ⟨e, _, hs⟩
      · rw [hs]; exact this
      · exact hP _ _ _ hs this

theorem Execution.does (h : Execution n σ ev) {t : Nat} {e : Ev} (he : ev t = some e) : step (σ t) e = some (.ok (σ (t + 1))) := by
  rcases h.next t with ⟨hn, _⟩ | ⟨e', hn, hs⟩
  · rw [he] at hn; cases hn
  · rw [he] at hn; cases hn; exact hs

theorem started_range {s : St} (h : PoolInv n s) : s.started = List.range s.started.length := by
  have h1 := h.order
  have : s.started = (List.range s.next).take s.started.length := by rw [← h1]; simp
  rw [List.take_range] at this
  have hl : s.started.length ≤ s.next := by
    have := congrArg List.length h1
    simp only [List.length_append, List.length_range] at this
    omega
  rw [Nat.min_eq_left hl] at this
  exact this

/-- While a client waits and some thread is not held for ever, no thread looks for work in vain: in the end one more is started. -/
theorem one_more (hx : Execution n σ ev) (hs : Scheduled σ ev) (hn : 0 < n) {t : Nat}
    (hc : ∀ v, t ≤ v → (∀ i, i < (σ v).workers.length → HeldForever σ ev v i) → False)
    (hw : (σ t).started.length < (σ t).next) : ∃ u, t ≤ u ∧ (σ t).started.length < (σ u).started.length := by
  refine Classical.byContradiction fun hno => ?_
  have hmono : ∀ {a b}, a ≤ b → (σ a).started.length ≤ (σ b).started.length := by
    intro a b hab
    exact hx.keeps (fun s => (σ a).started.length ≤ s.started.length) (fun s s' e he hle => by
      rcases step_jobs he with ⟨h, _⟩ | ⟨x, _, h⟩
      · rw [h]; exact hle
      · rw [h, List.length_append]; omega) hab (Nat.le_refl _)
  have hsame : ∀ u, t ≤ u → (σ u).started.length = (σ t).started.length := by
    intro u hu
    have h1 := hmono hu
    have h2 : ¬ (σ t).started.length < (σ u).started.length := fun hlt => hno ⟨u, hu, hlt⟩
    omega
  have hnext : ∀ u, t ≤ u → (σ t).started.length < (σ u).next := by
    intro u hu
    exact hx.keeps (fun s => (σ t).started.length < s.next) (fun s s' e he hlt => Nat.lt_of_lt_of_le hlt (step_next he)) hu hw
  -- a client waits in the queue or in the hand of the accepting thread
  have hwait : ∀ u, t ≤ u → (σ u).jobs = [] → (σ u).acceptor = .adding := by
    intro u hu hj
    refine Classical.byContradiction fun ha => ?_
    have h1 := congrArg List.length (hx.inv u).1.order
    rw [hj] at h1
    simp only [List.length_append, inHand, if_neg ha, List.length_range, List.length_nil] at h1
    have := hnext u hu
    have := hsame u hu
    omega
  have hnojob : ∀ u, t ≤ u → (σ u).jobs = [] := by
    intro v hv
    refine Classical.byContradiction fun hjv => ?_
    -- the queue stays filled
    have hfill : ∀ u, v ≤ u → (σ u).jobs ≠ [] := by
      intro u hu
      induction u with
      | zero =>
        have : v = 0 := by omega
        rw [this] at hjv
        exact hjv
      | succ u ih =>
        by_cases he : v = u + 1
        · rw [← he]; exact hjv
        · have ihu := ih (by omega)
          rcases hx.next u with ⟨_, h⟩ | ⟨e, _, h⟩
          · rw [h]; exact ihu
          · rcases step_jobs h with ⟨_, h2 | ⟨x, h2⟩⟩ | ⟨x, _, h2⟩
            · rw [h2]; exact ihu
            · rw [h2]; simp
            · have h3 := hsame u (by omega)
              have h4 := hsame (u + 1) (by omega)
              rw [h2] at h4
              simp at h4
              omega
    have hnoready : ∀ u, v ≤ u → Worker.ready ∉ (σ u).workers := by
      intro u hu hm
      obtain ⟨i, hi⟩ := mem_index hm
      obtain ⟨w, hw, he⟩ := hs.worker u i hi
      have hst := hx.does he
      have hj := hfill w (by omega)
      have h3 := hsame w (by omega)
      have h4 := hsame (w + 1) (by omega)
      simp only [Pool.step] at hst
      split at hst
      · split at hst
        · injection hst with hst
          injection hst with hst
          rw [← hst] at h4
          simp at h4
          omega
        · rename_i hnil
          exact hj hnil
      · cases hst
    have hasleep : ∀ u, v ≤ u → Worker.asleep ∈ (σ u).workers ∧ (σ u).acceptor = .notifying := by
      intro u hu
      obtain ⟨hi, hcr⟩ := hx.inv u
      have hm : Worker.asleep ∈ (σ u).workers := by
        refine Classical.byContradiction fun hna => hc u (by omega) fun i hil => ?_
        have hget : (σ u).workers[i]? = some (σ u).workers[i] := List.getElem?_eq_getElem hil
        have hmem : (σ u).workers[i] ∈ (σ u).workers := List.getElem_mem hil
        cases hwi : (σ u).workers[i] with
        | ready => rw [hwi] at hmem; exact absurd hmem (hnoready u hu)
        | asleep => rw [hwi] at hmem; exact absurd hmem hna
        | ended => rw [hwi] at hmem; exact absurd (hi.ended hmem).2 (hfill u hu)
        | running j =>
          rw [hwi] at hget
          refine ⟨⟨j, hget⟩, fun w hw he => ?_⟩
          have hst := hx.does he
          refine hnoready (w + 1) (by omega) ?_
          simp only [Pool.step] at hst
          split at hst
          · rename_i k hk
            simp only [Bool.false_eq_true, if_false, Option.some.injEq, Res.ok.injEq] at hst
            rw [← hst]
            have := (List.getElem?_eq_some_iff.1 hk).1
            exact List.mem_iff_getElem?.2 ⟨i, by rw [List.getElem?_set]; simp [this]⟩
          · cases hst
      refine ⟨hm, ?_⟩
      refine Classical.byContradiction fun ha => ?_
      have h3 := hi.woken hm
      have h4 : readyOf (σ u).workers = 0 := List.count_eq_zero.2 (hnoready u hu)
      rw [h4] at h3
      simp only [pending, if_neg ha, Nat.zero_add, Nat.le_zero_eq, List.length_eq_zero_iff] at h3
      exact hfill u hu h3
    -- so the accepting thread wakes one up
    obtain ⟨hm, hacc⟩ := hasleep v (Nat.le_refl _)
    obtain ⟨i0, h0⟩ := mem_index hm
    obtain ⟨u, e, hu, he, hb⟩ := hs.acceptor v ⟨.notify (some i0), rfl, by simp [Pool.step, hacc, h0]⟩
    have hst := hx.does he
    obtain ⟨hm', hacc'⟩ := hasleep u hu
    cases e with
    | notify w =>
      cases w with
      | none =>
        simp only [Pool.step, hacc', if_true] at hst
        split at hst
        · cases hst
        · rename_i hna
          exact hna hm'
      | some i =>
        simp only [Pool.step, hacc', if_true] at hst
        split at hst
        · rename_i hk
          simp only [Option.some.injEq, Res.ok.injEq] at hst
          refine hnoready (u + 1) (by omega) ?_
          rw [← hst]
          have := (List.getElem?_eq_some_iff.1 hk).1
          exact List.mem_iff_getElem?.2 ⟨i, by rw [List.getElem?_set]; simp [this]⟩
        · cases hst
    | spawn ok => simp [Pool.step, hacc'] at hst
    | begin => simp [Pool.step, hacc'] at hst
    | push ok => simp [Pool.step, hacc'] at hst
    | stop => simp [Pool.step, hacc'] at hst
    | notifyAll => simp [Pool.step, hacc'] at hst
    | join => simp [Pool.step, hacc'] at hst
    | accept a => cases hb
    | wake i => cases hb
    | take i => cases hb
    | finish i b => cases hb
  -- so the accepting thread has a client in hand and stores it
  have hadd := hwait t (Nat.le_refl _) (hnojob t (Nat.le_refl _))
  obtain ⟨u, e, hu, he, hb⟩ := hs.acceptor t ⟨.push true, rfl, by simp [Pool.step, hadd]⟩
  have hst := hx.does he
  have hacc' := hwait u hu (hnojob u hu)
  cases e with
  | push ok =>
    simp only [Pool.step, hacc', if_true] at hst
    split at hst
    · have := hnojob (u + 1) (by omega)
      simp only [Option.some.injEq, Res.ok.injEq] at hst
      rw [← hst] at this
      simp at this
    · split at hst <;> cases hst
  | notify w => cases w <;> simp [Pool.step, hacc'] at hst
  | spawn ok => simp [Pool.step, hacc'] at hst
  | begin => simp [Pool.step, hacc'] at hst
  | stop => simp [Pool.step, hacc'] at hst
  | notifyAll => simp [Pool.step, hacc'] at hst
  | join => simp [Pool.step, hacc'] at hst
  | accept a => cases hb
  | wake i => cases hb
  | take i => cases hb
  | finish i b => cases hb

/-- Every client accepted is taken up, unless all threads are held for ever before. -/
theorem taken_up (hx : Execution n σ ev) (hs : Scheduled σ ev) (hn : 0 < n) {t j : Nat} (hj : j < (σ t).next)
    (hc : ∀ v, t ≤ v → j ∉ (σ v).started → (∀ i, i < (σ v).workers.length → HeldForever σ ev v i) → False) :
    ∃ u, t ≤ u ∧ j ∈ (σ u).started := by
  refine Classical.byContradiction fun hno => ?_
  have hnot : ∀ u, t ≤ u → j ∉ (σ u).started := fun u hu hm => hno ⟨u, hu, hm⟩
  have key : ∀ k, k ≤ j + 1 → ∃ u, t ≤ u ∧ k ≤ (σ u).started.length := by
    intro k
    induction k with
    | zero => exact fun _ => ⟨t, Nat.le_refl _, Nat.zero_le _⟩
    | succ k ih =>
      intro hk
      obtain ⟨u, hu, hl⟩ := ih (by omega)
      by_cases hlt : k < (σ u).started.length
      · exact ⟨u, hu, hlt⟩
      · have hnx : j < (σ u).next := hx.keeps (fun s => j < s.next) (fun s s' e he h => Nat.lt_of_lt_of_le h (step_next he)) hu hj
        obtain ⟨v, hv, hlv⟩ := one_more hx hs hn (t := u) (fun v hv => hc v (by omega) (hnot v (by omega))) (by omega)
        exact ⟨v, by omega, by omega⟩
  obtain ⟨u, hu, hl⟩ := key (j + 1) (Nat.le_refl _)
  refine hnot u hu ?_
  rw [started_range (hx.inv u).1]
  exact List.mem_range.2 (by omega)

/-- A connection that is being served goes on being served, or has been served when a thread has finished it. -/
theorem runs_on (hx : Execution n σ ev) {t i j u : Nat} (hi : (σ t).workers[i]? = some (.running j)) (hu : t ≤ u) :
    (σ u).workers[i]? = some (.running j) ∨ (j ∈ (σ u).finished ∧ ∃ w, t ≤ w ∧ ev w = some (.finish i false)) := by
  induction u with
  | zero =>
    have : t = 0 := by omega
    subst this
    exact .inl hi
  | succ u ih =>
    by_cases he : t = u + 1
    · subst he; exact .inl hi
    · have ihu := ih (by omega)
      rcases hx.next u with ⟨_, h⟩ | ⟨e, hev, h⟩
      · rw [h]; exact ihu
      · rcases ihu with h1 | ⟨h1, h2⟩
        · rcases step_running h h1 with h3 | ⟨rfl, h3⟩
          · exact .inl h3
          · exact .inr ⟨h3, u, by omega, hev⟩
        · exact .inr ⟨step_finished h h1, h2⟩

/-- A client is served by this thread for ever. -/
def ServedForever (σ : Nat → St) (ev : Nat → Option Ev) (j : Nat) : Prop :=
  ∃ v i, (σ v).workers[i]? = some (.running j) ∧ ∀ u, v ≤ u → ev u ≠ some (.finish i false)

/-- Every client taken up is served to the end, or for ever. -/
theorem served_to_end (hx : Execution n σ ev) {t j : Nat} (hc : ¬ ServedForever σ ev j) (hj : j ∈ (σ t).started) :
    ∃ u, t ≤ u ∧ j ∈ (σ u).finished := by
  have h2 := (hx.inv t).1.served j
  have hpos : 0 < (σ t).started.count j := List.count_pos_iff.2 hj
  by_cases hf : j ∈ (σ t).finished
  · exact ⟨t, Nat.le_refl _, hf⟩
  · rw [List.count_eq_zero.2 hf] at h2
    have hr : j ∈ runningOf (σ t).workers := List.count_pos_iff.1 (by omega)
    obtain ⟨w, hw, hwj⟩ := List.mem_filterMap.1 hr
    cases w with
    | running k =>
      simp only [Option.some.injEq] at hwj
      subst hwj
      obtain ⟨i, hi⟩ := mem_index hw
      obtain ⟨u, hu, he⟩ : ∃ u, t ≤ u ∧ ev u = some (.finish i false) :=
        Classical.byContradiction fun hno => hc ⟨t, i, hi, fun u hu he => hno ⟨u, hu, he⟩⟩
      have hst := hx.does he
      rcases runs_on hx hi hu with hk | ⟨hk, _⟩
      · refine ⟨u + 1, by omega, ?_⟩
        simp only [Pool.step, hk, Bool.false_eq_true, if_false, Option.some.injEq, Res.ok.injEq] at hst
        rw [← hst]
        simp
      · exact ⟨u, hu, hk⟩
    | ready => cases hwj
    | asleep => cases hwj
    | ended => cases hwj

/-- Once all threads are held for ever, nobody is taken up. -/
theorem shut_out (hx : Execution n σ ev) {v : Nat}
    (hh : ∀ i, i < (σ v).workers.length → HeldForever σ ev v i) (hcr : ∀ k, (σ v).acceptor ≠ .creating k) {u : Nat} (hu : v ≤ u) :
    (σ u).started = (σ v).started ∧ (σ u).workers = (σ v).workers ∧ ∀ k, (σ u).acceptor ≠ .creating k := by
  induction u with
  | zero =>
    have : v = 0 := by omega
    subst this
    exact ⟨rfl, rfl, hcr⟩
  | succ u ih =>
    by_cases he : v = u + 1
    · subst he; exact ⟨rfl, rfl, hcr⟩
    · obtain ⟨h1, h2, h3⟩ := ih (by omega)
      have hbu : ∀ (i : Nat) w, (σ u).workers[i]? = some w → ∃ j, w = .running j := by
        intro i w hi
        rw [h2] at hi
        obtain ⟨⟨j, hj⟩, _⟩ := hh i (List.getElem?_eq_some_iff.1 hi).1
        rw [hi] at hj
        cases hj
        exact ⟨j, rfl⟩
      rcases hx.next u with ⟨_, h⟩ | ⟨e, hev, h⟩
      · rw [h]; exact ⟨h1, h2, h3⟩
      · have hmap : (σ u).workers.map Worker.woken = (σ u).workers := by
          rw [List.map_congr_left (g := id), List.map_id]
          intro w hw
          obtain ⟨i, hi⟩ := mem_index hw
          obtain ⟨j, rfl⟩ := hbu i w hi
          rfl
        generalize σ (u + 1) = s' at h ⊢
        cases e with
        | finish i b =>
          simp only [Pool.step] at h
          split at h
          · rename_i j hi
            rw [h2] at hi
            split at h
            · cases h
            · rename_i hb
              simp only [Bool.not_eq_true] at hb
              subst hb
              exact absurd hev ((hh i (List.getElem?_eq_some_iff.1 hi).1).2 u (by omega))
          · cases h
        | spawn ok =>
          simp only [Pool.step] at h
          split at h
          · rename_i k hk; exact absurd hk (h3 _)
          · cases h
        | begin => simp [Pool.step, h3] at h
        | take i =>
          simp only [Pool.step] at h
          split at h
          · rename_i hi
            obtain ⟨j, hj⟩ := hbu _ _ hi
            cases hj
          · cases h
        | wake i =>
          simp only [Pool.step] at h
          split at h
          · rename_i hi
            obtain ⟨j, hj⟩ := hbu _ _ hi
            cases hj
          · cases h
        | notify w =>
          simp only [Pool.step] at h
          repeat' split at h
          all_goals cases h
          · exact ⟨h1, h2, by simp⟩
          · rename_i _ _ _ hi
            obtain ⟨j, hj⟩ := hbu _ _ hi
            cases hj
        | notifyAll =>
          simp only [Pool.step] at h
          split at h <;> cases h
          exact ⟨h1, by rw [← h2]; exact hmap, by simp⟩
        | accept a =>
          simp only [Pool.step] at h
          (repeat' split at h) <;> cases h
          · exact ⟨h1, h2, by simp⟩
          · exact ⟨h1, h2, h3⟩
          · exact ⟨h1, h2, by simp⟩
          · exact ⟨h1, h2, by simp⟩
        | push ok =>
          simp only [Pool.step] at h
          (repeat' split at h) <;> cases h
          exact ⟨h1, h2, by simp⟩
        | stop => simp only [Pool.step] at h; split at h <;> cases h; exact ⟨h1, h2, by simp⟩
        | join => simp only [Pool.step] at h; split at h <;> cases h; exact ⟨h1, h2, by simp⟩

theorem finished_started {s : St} (hi : PoolInv n s) {j : Nat} (hj : j ∈ s.finished) : j ∈ s.started := by
  have h1 := hi.served j
  have h2 := List.count_pos_iff.2 hj
  exact List.count_pos_iff.1 (by omega)

/-- Each client is taken up once. -/
theorem finished_not_running {s : St} (hi : PoolInv n s) {i j : Nat} (hr : s.workers[i]? = some (.running j)) : j ∉ s.finished := by
  intro hj
  have hnd : s.started.count j ≤ 1 := by
    have : (s.started ++ (s.jobs ++ inHand s)).Nodup := hi.order ▸ List.nodup_range
    exact List.nodup_iff_count.1 (List.nodup_append.1 this).1 j
  have h1 := hi.served j
  have h2 := List.count_pos_iff.2 hj
  have h3 : 0 < (runningOf s.workers).count j :=
    List.count_pos_iff.2 (List.mem_filterMap.2 ⟨_, List.mem_iff_getElem?.2 ⟨i, hr⟩, rfl⟩)
  omega

/-- **C119** (exact): a client that was accepted is served in the end exactly if it is not served for ever and not kept waiting by other
clients that hold all threads for ever. -/
theorem C119_exact (hn : 0 < n) (hx : Execution n σ ev) (hs : Scheduled σ ev) (t j : Nat) (hj : j < (σ t).next) :
    (∃ u, j ∈ (σ u).finished) ↔ ¬ ServedForever σ ev j ∧ ¬ ∃ v, t ≤ v ∧ j ∉ (σ v).started ∧
      ∀ i, i < (σ v).workers.length → HeldForever σ ev v i := by
  constructor
  · rintro ⟨u, hu⟩
    constructor
    · rintro ⟨v, i, hi, hno⟩
      -- both from the later moment on
      have h1 : (σ (max u v)).workers[i]? = some (.running j) := by
        rcases runs_on hx hi (Nat.le_max_right u v) with h | ⟨_, w, hw, he⟩
        · exact h
        · exact absurd he (hno w hw)
      have h2 : j ∈ (σ (max u v)).finished :=
        hx.keeps (fun s => j ∈ s.finished) (fun s s' e he h => step_finished he h) (Nat.le_max_left u v) hu
      exact finished_not_running (hx.inv _).1 h1 h2
    · rintro ⟨v, htv, hjv, hh⟩
      have hnx : j < (σ v).next := hx.keeps (fun s => j < s.next) (fun s s' e he h => Nat.lt_of_lt_of_le h (step_next he)) htv hj
      have hcr : ∀ k, (σ v).acceptor ≠ .creating k := by
        intro k hk
        have := (hx.inv v).2 k hk
        omega
      by_cases huv : v ≤ u
      · have := (shut_out hx hh hcr huv).1
        exact hjv (this ▸ finished_started (hx.inv u).1 hu)
      · exact hjv (finished_started (hx.inv v).1
          (hx.keeps (fun s => j ∈ s.finished) (fun s s' e he h => step_finished he h) (by omega) hu))
  · rintro ⟨h1, h2⟩
    obtain ⟨u, hu, h⟩ := taken_up hx hs hn hj fun v hv hjv hh => h2 ⟨v, hv, hjv, hh⟩
    obtain ⟨v, hv, h⟩ := served_to_end hx h1 h
    exact ⟨v, h⟩

/-- **C119**, partial: when the connections that are being served come to an end, every client that was accepted has been served in
the end, however many follow it.  Missing: clients that do not end (`C119_exact`, `C119_violated`). -/
theorem C119_partial (hn : 0 < n) (hx : Execution n σ ev) (hs : Scheduled σ ev) (hc : ClientsEnd σ ev) (t j : Nat)
    (hj : j < (σ t).next) : ∃ u, j ∈ (σ u).finished := by
  refine (C119_exact hn hx hs t j hj).2 ⟨?_, ?_⟩
  · rintro ⟨v, i, hi, hno⟩
    obtain ⟨u, hu, he⟩ := hc v i j hi
    exact hno u hu he
  · rintro ⟨v, htv, hjv, hh⟩
    have hnx : j < (σ v).next := hx.keeps (fun s => j < s.next) (fun s s' e he h => Nat.lt_of_lt_of_le h (step_next he)) htv hj
    have hpos : 0 < (σ v).workers.length := by
      have h9 := (hx.inv v).1.size
      cases ha : (σ v).acceptor with
      | creating k => have := (hx.inv v).2 k ha; omega
      | _ => rw [ha] at h9; simp at h9; omega
    obtain ⟨⟨k, hk⟩, hno⟩ := hh 0 hpos
    obtain ⟨u, hu, he⟩ := hc v 0 k hk
    exact hno u hu he

/-- **C119** (starved): once as many clients as there are threads hold their connections, no other client is taken up while they do. -/
theorem C119_starved (hx : Execution n σ ev) {t : Nat} (hb : AllBusy (σ t)) (hs : ∀ k, (σ t).acceptor ≠ .creating k)
    {u : Nat} (hu : t ≤ u) (hhold : ∀ v i b, t ≤ v → v < u → ev v ≠ some (.finish i b)) : (σ u).started = (σ t).started := by
  have key : ∀ u, t ≤ u → (∀ v i b, t ≤ v → v < u → ev v ≠ some (.finish i b)) →
      (σ u).started = (σ t).started ∧ (σ u).workers = (σ t).workers ∧ ∀ k, (σ u).acceptor ≠ .creating k := by
    intro u
    induction u with
    | zero =>
      intro hu _
      have : t = 0 := by omega
      subst this
      exact ⟨rfl, rfl, hs⟩
    | succ u ih =>
      intro hu hh
      by_cases he : t = u + 1
      · subst he; exact ⟨rfl, rfl, hs⟩
      · obtain ⟨h1, h2, h3⟩ := ih (by omega) fun v i b hv hvu => hh v i b hv (by omega)
        have hbu : ∀ (i : Nat) w, (σ u).workers[i]? = some w → ∃ j, w = .running j := by
          intro i w hi
          rw [h2] at hi
          exact hb w (List.mem_iff_getElem?.2 ⟨i, hi⟩)
        rcases hx.next u with ⟨_, h⟩ | ⟨e, hev, h⟩
        · rw [h]; exact ⟨h1, h2, h3⟩
        · have hmap : (σ u).workers.map Worker.woken = (σ u).workers := by
            rw [List.map_congr_left (g := id), List.map_id]
            intro w hw
            obtain ⟨i, hi⟩ := mem_index hw
            obtain ⟨j, rfl⟩ := hbu i w hi
            rfl
          generalize σ (u + 1) = s' at h ⊢
          cases e with
          | finish i b => exact absurd hev (hh u i b (by omega) (by omega))
          | spawn ok =>
            simp only [Pool.step] at h
            split at h
            · rename_i k hk; exact absurd hk (h3 _)
            · cases h
          | begin => simp [Pool.step, h3] at h
          | take i =>
            simp only [Pool.step] at h
            split at h
            · rename_i hi
              obtain ⟨j, hj⟩ := hbu _ _ hi
              cases hj
            · cases h
          | wake i =>
            simp only [Pool.step] at h
            split at h
            · rename_i hi
              obtain ⟨j, hj⟩ := hbu _ _ hi
              cases hj
            · cases h
          | notify w =>
            simp only [Pool.step] at h
            repeat' split at h
            all_goals cases h
            · exact ⟨h1, h2, by simp⟩
            · rename_i _ _ _ hi
              obtain ⟨j, hj⟩ := hbu _ _ hi
              cases hj
          | notifyAll =>
            simp only [Pool.step] at h
            split at h <;> cases h
            exact ⟨h1, by rw [← h2]; exact hmap, by simp⟩
          | accept a =>
            simp only [Pool.step] at h
            (repeat' split at h) <;> cases h
            · exact ⟨h1, h2, by simp⟩
            · exact ⟨h1, h2, h3⟩
            · exact ⟨h1, h2, by simp⟩
            · exact ⟨h1, h2, by simp⟩
          | push ok =>
            simp only [Pool.step] at h
            (repeat' split at h) <;> cases h
            exact ⟨h1, h2, by simp⟩
          | stop => simp only [Pool.step] at h; split at h <;> cases h; exact ⟨h1, h2, by simp⟩
          | join => simp only [Pool.step] at h; split at h <;> cases h; exact ⟨h1, h2, by simp⟩
  exact (key u hu hhold).1

/-! ## The end of the server -/

/-- The accepting thread leaves a phase in which it can always go on. -/
theorem moves_on (hx : Execution n σ ev) (hs : Scheduled σ ev) {a b : Acceptor}
    (hen : ∀ s : St, s.acceptor = a → ∃ e, byAcceptor e = true ∧ step s e ≠ none)
    (hstep : ∀ s s' e, s.acceptor = a → step s e = some (.ok s') → s'.acceptor = b ∨ (s'.acceptor = a ∧ byAcceptor e = false))
    {t : Nat} (ht : (σ t).acceptor = a) : ∃ u, t ≤ u ∧ (σ u).acceptor = b := by
  refine Classical.byContradiction fun hno => ?_
  have hall : ∀ u, t ≤ u → (σ u).acceptor = a := by
    intro u hu
    induction u with
    | zero =>
      have : t = 0 := by omega
      rw [← this]
      exact ht
    | succ u ih =>
      by_cases he : t = u + 1
      · rw [← he]; exact ht
      · have ihu := ih (by omega)
        rcases hx.next u with ⟨_, h⟩ | ⟨e, _, h⟩
        · rw [h]; exact ihu
        · rcases hstep _ _ _ ihu h with h | ⟨h, _⟩
          · exact absurd ⟨u + 1, hu, h⟩ hno
          · exact h
  obtain ⟨u, e, hu, he, hb⟩ := hs.acceptor t (hen _ ht)
  rcases hstep _ _ _ (hall u hu) (hx.does he) with h | ⟨_, h⟩
  · exact hno ⟨u + 1, by omega, h⟩
  · rw [hb] at h; cases h

theorem step_stopping (s s' : St) (e : Ev) (ha : s.acceptor = .stopping) (h : step s e = some (.ok s')) :
    s'.acceptor = .notifyingAll ∨ (s'.acceptor = .stopping ∧ byAcceptor e = false) := by
  cases e <;> simp only [Pool.step, ha] at h <;> (repeat' split at h) <;> cases h <;> simp_all [byAcceptor]

theorem step_notifyingAll (s s' : St) (e : Ev) (ha : s.acceptor = .notifyingAll) (h : step s e = some (.ok s')) :
    s'.acceptor = .joining ∨ (s'.acceptor = .notifyingAll ∧ byAcceptor e = false) := by
  cases e <;> simp only [Pool.step, ha] at h <;> (repeat' split at h) <;> cases h <;> simp_all [byAcceptor]

theorem step_joining (s s' : St) (e : Ev) (ha : s.acceptor = .joining) (h : step s e = some (.ok s')) :
    s'.acceptor = .joining ∨ s'.acceptor = .returned := by
  cases e <;> simp only [Pool.step, ha] at h <;> (repeat' split at h) <;> cases h <;> simp_all

theorem step_returned (s s' : St) (e : Ev) (ha : s.acceptor = .returned) (h : step s e = some (.ok s')) : s'.acceptor = .returned := by
  cases e <;> simp only [Pool.step, ha] at h <;> (repeat' split at h) <;> cases h <;> simp_all

/-- While the threads are joined, every step brings the end nearer. -/
theorem joining_measure {s s' : St} {e : Ev} (hi : PoolInv n s) (ha : s.acceptor = .joining) (h : step s e = some (.ok s')) :
    poolMeasure n s' < poolMeasure n s := by
  refine poolMeasure_step hi h ?_
  cases e with
  | accept a => simp [Pool.step, ha] at h
  | wake i =>
    simp only [Pool.step] at h
    split at h
    · rename_i hk
      exact absurd (List.mem_iff_getElem?.2 ⟨i, hk⟩) (hi.awake (.inl ha))
    · cases h
  | _ => rfl

theorem joined_all (hx : Execution n σ ev) (hs : Scheduled σ ev) {t0 : Nat}
    (hc : ∀ t i j, t0 ≤ t → (σ t).workers[i]? = some (.running j) → ∃ u, t ≤ u ∧ ev u = some (.finish i false)) :
    ∀ (m t : Nat), t0 ≤ t → (σ t).acceptor = .joining →
    poolMeasure n (σ t) ≤ m → ∃ u, t ≤ u ∧ (σ u).acceptor = .returned := by
  intro m
  induction m with
  | zero =>
    intro t _ ha hm
    simp [poolMeasure, ha, Acceptor.weight] at hm
  | succ m ih =>
    intro t ht0 ha hm
    -- somebody moves
    have hmove : ∃ u e, t ≤ u ∧ ev u = some e := by
      by_cases hall : ∀ w ∈ (σ t).workers, w = .ended
      · obtain ⟨u, e, hu, he, _⟩ := hs.acceptor t ⟨.join, rfl, by
          simp only [Pool.step]
          rw [if_pos ⟨ha, hall⟩]
          simp⟩
        exact ⟨u, e, hu, he⟩
      · have ⟨w, hw, hne⟩ : ∃ w, w ∈ (σ t).workers ∧ w ≠ .ended := by
          refine Classical.byContradiction fun h => hall fun w hw => ?_
          exact Classical.byContradiction fun hne => h ⟨w, hw, hne⟩
        obtain ⟨i, hi⟩ := mem_index hw
        cases w with
        | ready =>
          obtain ⟨u, hu, he⟩ := hs.worker t i hi
          exact ⟨u, _, hu, he⟩
        | running j =>
          obtain ⟨u, hu, he⟩ := hc t i j ht0 hi
          exact ⟨u, _, hu, he⟩
        | asleep => exact absurd hw ((hx.inv t).1.awake (.inl ha))
        | ended => exact absurd rfl hne
    obtain ⟨u, e, hu, he⟩ := hmove
    have hP := hx.keeps (fun s => PoolInv n s ∧ ((s.acceptor = .joining ∧ poolMeasure n s ≤ m + 1) ∨ s.acceptor = .returned))
      (fun s s' e hst h => by
        refine ⟨h.1.step hst, ?_⟩
        rcases h.2 with ⟨h1, h2⟩ | h1
        · have := joining_measure h.1 h1 hst
          rcases step_joining _ _ _ h1 hst with h3 | h3
          · exact .inl ⟨h3, by omega⟩
          · exact .inr h3
        · exact .inr (step_returned _ _ _ h1 hst)) hu ⟨(hx.inv t).1, .inl ⟨ha, hm⟩⟩
    rcases hP.2 with ⟨h1, h2⟩ | h1
    · have hst := hx.does he
      have := joining_measure hP.1 h1 hst
      rcases step_joining _ _ _ h1 hst with h3 | h3
      · obtain ⟨v, hv, h⟩ := ih (u + 1) (by omega) h3 (by omega)
        exact ⟨v, by omega, h⟩
      · exact ⟨u + 1, by omega, h3⟩
    · exact ⟨u, hu, h1⟩

/-- When the server has returned, every client it accepted has been served. -/
theorem returned_served {s : St} (hn : 0 < n) (hi : PoolInv n s) (ha : s.acceptor = .returned) (j : Nat) (hj : j < s.next) :
    j ∈ s.finished := by
  have hall := hi.over ha
  have hne : s.workers ≠ [] := by
    intro he
    have h9 := hi.size
    rw [he, ha] at h9
    simp at h9
    omega
  obtain ⟨w, ws, hw⟩ := List.exists_cons_of_ne_nil hne
  have hend : Worker.ended ∈ s.workers := by
    rw [← hall w (by rw [hw]; simp), hw]
    simp
  have h1 := hi.order
  have h2 := hi.served j
  have hb : runningOf s.workers = [] := by
    unfold runningOf
    rw [List.filterMap_eq_nil_iff]
    intro w hw
    rw [hall w hw]
  rw [hb] at h2
  have : inHand s = [] := by unfold inHand; rw [ha]; simp
  rw [this, (hi.ended hend).2, List.append_nil, List.append_nil] at h1
  have hm : j ∈ s.started := by rw [h1]; exact List.mem_range.2 hj
  have := List.count_pos_iff.2 hm
  simp only [List.count_nil, Nat.add_zero] at h2
  exact List.count_pos_iff.1 (by omega)

/-- **C120** (exact): a server that stops accepting returns exactly if every connection that is being served from then on comes to an end;
and then every client it accepted has been served. -/
theorem C120_exact (hn : 0 < n) (hx : Execution n σ ev) (hs : Scheduled σ ev) (t : Nat) (ha : (σ t).acceptor = .stopping) :
    ((∃ u, (σ u).acceptor = .returned) ↔
      ∀ v i j, t ≤ v → (σ v).workers[i]? = some (.running j) → ∃ u, v ≤ u ∧ ev u = some (.finish i false)) ∧
    ∀ u, (σ u).acceptor = .returned → ∀ j, j < (σ u).next → j ∈ (σ u).finished := by
  refine ⟨⟨?_, fun hc => ?_⟩, fun u hu => returned_served hn (hx.inv u).1 hu⟩
  · rintro ⟨u, hu⟩ v i j _ hr
    have hret : (σ (max u v)).acceptor = .returned :=
      hx.keeps (fun s => s.acceptor = .returned) (fun s s' e he h => step_returned _ _ _ h he) (Nat.le_max_left u v) hu
    rcases runs_on hx hr (Nat.le_max_right u v) with h | ⟨_, h⟩
    · have := (hx.inv _).1.over hret _ (List.mem_iff_getElem?.2 ⟨i, h⟩)
      cases this
    · exact h
  · obtain ⟨u, hu, h1⟩ := moves_on hx hs (a := .stopping) (b := .notifyingAll)
      (fun s h => ⟨.stop, rfl, by simp [Pool.step, h]⟩) step_stopping ha
    obtain ⟨v, hv, h2⟩ := moves_on hx hs (a := .notifyingAll) (b := .joining)
      (fun s h => ⟨.notifyAll, rfl, by simp [Pool.step, h]⟩) step_notifyingAll h1
    obtain ⟨w, hw, h3⟩ := joined_all hx hs hc _ v (by omega) h2 (Nat.le_refl _)
    exact ⟨w, h3⟩

/-- **C120**, partial: when the connections that are being served come to an end, a server that stops accepting returns, and then
every client it accepted has been served.  Missing: clients that do not end (`C120_exact`, `C120_violated`). -/
theorem C120_partial (hn : 0 < n) (hx : Execution n σ ev) (hs : Scheduled σ ev) (hc : ClientsEnd σ ev) (t : Nat)
    (ha : (σ t).acceptor = .stopping) : ∃ u, (σ u).acceptor = .returned ∧ ∀ j, j < (σ u).next → j ∈ (σ u).finished := by
  obtain ⟨h1, h2⟩ := C120_exact hn hx hs t ha
  obtain ⟨u, hu⟩ := h1.2 fun v i j _ hi => hc v i j hi
  exact ⟨u, hu, h2 u hu⟩

/-! ## Executions that come to rest -/

/-- The states of a run, the last one for ever. -/
def path (s : St) : List Ev → Nat → St
  | _, 0 => s
  | [], _ + 1 => s
  | e :: es, t + 1 => match step s e with
    | some (.ok s') => path s' es t
    | _ => s

theorem path_next : ∀ (es : List Ev) (s s' : St), run s es = some (.ok s') → ∀ t,
    (es[t]? = none ∧ path s es (t + 1) = path s es t) ∨
      ∃ e, es[t]? = some e ∧ step (path s es t) e = some (.ok (path s es (t + 1))) := by
  intro es
  induction es with
  | nil => intro s s' _ t; left; cases t <;> simp [path]
  | cons e es ih =>
    intro s s' h t
    simp only [run] at h
    split at h
    · rename_i s1 h1
      cases t with
      | zero => right; exact ⟨e, rfl, by simp [path, h1]⟩
      | succ t => simpa [path, h1] using ih _ _ h t
    · rename_i hne
      split at h
      · exact absurd h (hne s')
      · cases h

theorem path_last : ∀ (es : List Ev) (s s' : St), run s es = some (.ok s') → ∀ t, es.length ≤ t → path s es t = s' := by
  intro es
  induction es with
  | nil => intro s s' h t _; cases h; cases t <;> rfl
  | cons e es ih =>
    intro s s' h t ht
    simp only [run] at h
    split at h
    · rename_i s1 h1
      cases t with
      | zero => simp at ht
      | succ t => simp only [path, h1]; exact ih _ _ h t (by simpa using ht)
    · rename_i hne
      split at h
      · exact absurd h (hne s')
      · cases h

/-- The accepting thread waits for a client, for a thread of the pool, or has returned. -/
def parked (s : St) : Bool :=
  match s.acceptor with
  | .accepting => true
  | .returned => true
  | .joining => decide (¬ ∀ w ∈ s.workers, w = .ended)
  | _ => false

theorem parked_none {s : St} (h : parked s = true) (e : Ev) (hb : byAcceptor e = true) : step s e = none := by
  unfold parked at h
  split at h
  · rename_i ha; cases e <;> simp_all [byAcceptor, Pool.step]
  · rename_i ha; cases e <;> simp_all [byAcceptor, Pool.step]
  · rename_i ha
    have h := of_decide_eq_true h
    cases e with
    | join => simp only [Pool.step]; rw [if_neg]; exact fun hc => h hc.2
    | _ => simp_all [byAcceptor, Pool.step]
  · cases h

/-- A run that comes to rest is an execution in which every thread that can go on does so. -/
theorem at_rest {n : Nat} {es : List Ev} {s' : St} (h : run (Pool.start n) es = some (.ok s')) (hr : parked s' = true)
    (hw : Worker.ready ∉ s'.workers)
    (hfw : ∀ t, t < es.length → ∀ i, i < (path (Pool.start n) es t).workers.length →
      (path (Pool.start n) es t).workers[i]? = some .ready → ∃ u, u < es.length ∧ t ≤ u ∧ es[u]? = some (.take i))
    (hfa : ∀ t, t < es.length → parked (path (Pool.start n) es t) = true ∨
      ∃ u, u < es.length ∧ t ≤ u ∧ (es[u]?.map byAcceptor) = some true) :
    Execution n (path (Pool.start n) es) (fun t => es[t]?) ∧ Scheduled (path (Pool.start n) es) (fun t => es[t]?) := by
  refine ⟨⟨by cases es <;> rfl, path_next es _ _ h⟩, ⟨fun t i hi => ?_, fun t ⟨e, hb, he⟩ => ?_⟩⟩
  · by_cases ht : t < es.length
    · obtain ⟨u, _, hu, heu⟩ := hfw t ht i (List.getElem?_eq_some_iff.1 hi).1 hi
      exact ⟨u, hu, heu⟩
    · rw [path_last es _ _ h t (by omega)] at hi
      exact absurd (List.mem_iff_getElem?.2 ⟨i, hi⟩) hw
  · by_cases ht : t < es.length
    · rcases hfa t ht with hid | ⟨u, _, hu, heu⟩
      · exact absurd (parked_none hid e hb) he
      · obtain ⟨e', he', hb'⟩ := Option.map_eq_some_iff.1 heu
        exact ⟨u, e', hu, he', hb'⟩
    · rw [path_last es _ _ h t (by omega)] at he
      exact absurd (parked_none hr e hb) he

/-- Eight threads are started. -/
def eightThreads : List Ev := List.replicate 8 (.spawn true) ++ [.begin]

/-- Eight clients are accepted and hold their connections. -/
def eightHold : List Ev :=
  eightThreads ++ (List.range 8).flatMap fun k => [.accept .conn, .push true, .notify none, .take k]

/-- A ninth client is accepted. -/
def ninthWaits : List Ev := eightHold ++ [.accept .conn, .push true, .notify none]

/-- The server is stopped. -/
def ninthStopped : List Ev := ninthWaits ++ [.accept .stopped, .stop, .notifyAll]

/-- After `ninthWaits`. -/
def waitingState : St :=
  ⟨.accepting, (List.range 8).map .running, [8], false, 9, List.range 8, [], true⟩

/-- After `ninthStopped`. -/
def stuckState : St :=
  ⟨.joining, (List.range 8).map .running, [8], true, 9, List.range 8, [], true⟩

theorem ninthWaits_run : Execution 8 (path (Pool.start 8) ninthWaits) (fun t => ninthWaits[t]?) ∧
    Scheduled (path (Pool.start 8) ninthWaits) (fun t => ninthWaits[t]?) :=
  at_rest (s' := waitingState) (by decide +kernel) (by decide +kernel) (by decide +kernel) (by decide +kernel) (by decide +kernel)

theorem ninthStopped_run : Execution 8 (path (Pool.start 8) ninthStopped) (fun t => ninthStopped[t]?) ∧
    Scheduled (path (Pool.start 8) ninthStopped) (fun t => ninthStopped[t]?) :=
  at_rest (s' := stuckState) (by decide +kernel) (by decide +kernel) (by decide +kernel) (by decide +kernel) (by decide +kernel)

/-- The code violates C119: with eight threads, the ninth client is never served while the first eight hold their connections. -/
theorem C119_violated : ¬ C119_statement := by
  intro h
  obtain ⟨hx, hs⟩ := ninthWaits_run
  have hrun : run (Pool.start 8) ninthWaits = some (.ok waitingState) := by decide +kernel
  obtain ⟨u, hu⟩ := h 8 _ _ (by decide) hx hs ninthWaits.length 8 (by
    rw [path_last _ _ _ hrun _ (Nat.le_refl _)]; decide)
  by_cases hl : ninthWaits.length ≤ u
  · rw [path_last _ _ _ hrun u hl] at hu
    cases hu
  · have : ∀ u, u < ninthWaits.length → (path (Pool.start 8) ninthWaits u).finished = [] := by decide +kernel
    rw [this u (by omega)] at hu
    cases hu

/-- The code violates C120: a server that is stopped while eight clients hold their connections does not return. -/
theorem C120_violated : ¬ C120_statement := by
  intro h
  obtain ⟨hx, hs⟩ := ninthStopped_run
  have hrun : run (Pool.start 8) ninthStopped = some (.ok stuckState) := by decide +kernel
  obtain ⟨u, hu, _⟩ := h 8 _ _ (by decide) hx hs (ninthWaits.length + 1) (by decide +kernel)
  by_cases hl : ninthStopped.length ≤ u
  · rw [path_last _ _ _ hrun u hl] at hu
    cases hu
  · have : ∀ u, u < ninthStopped.length → (path (Pool.start 8) ninthStopped u).acceptor ≠ .returned := by decide +kernel
    exact this u (by omega) hu

/-- Non-vacuity of `C119_starved`: in the execution above, from the moment at which the eight hold their connections. -/
example : AllBusy (path (Pool.start 8) ninthWaits eightHold.length) ∧
    (∀ k, (path (Pool.start 8) ninthWaits eightHold.length).acceptor ≠ .creating k) ∧
    (path (Pool.start 8) ninthWaits ninthWaits.length).started = List.range 8 ∧
    (path (Pool.start 8) ninthWaits ninthWaits.length).next = 9 := by
  have h : path (Pool.start 8) ninthWaits eightHold.length =
      ⟨.accepting, (List.range 8).map .running, [], false, 8, List.range 8, [], true⟩ := by decide +kernel
  rw [h]
  refine ⟨?_, by simp, by decide +kernel, by decide +kernel⟩
  intro w hw
  obtain ⟨j, _, rfl⟩ := List.mem_map.1 hw
  exact ⟨j, rfl⟩

/-- Non-vacuity of `C119_partial` and `C120_partial`: three clients, two threads, and the server is stopped. -/
example : Execution 2 (path (Pool.start 2) threeServed) (fun t => threeServed[t]?) ∧
    Scheduled (path (Pool.start 2) threeServed) (fun t => threeServed[t]?) ∧
    ClientsEnd (path (Pool.start 2) threeServed) (fun t => threeServed[t]?) ∧
    (path (Pool.start 2) threeServed 16).acceptor = .stopping ∧ (path (Pool.start 2) threeServed 16).next = 3 ∧
    (path (Pool.start 2) threeServed 16).finished = [] := by
  have hrun : run (Pool.start 2) threeServed =
    some (.ok ⟨.returned, [.ended, .ended], [], true, 3, [0, 1, 2], [1, 0, 2], false⟩) := by decide +kernel
  obtain ⟨h1, h2⟩ := at_rest hrun (by decide) (by decide) (by decide +kernel) (by decide +kernel)
  refine ⟨h1, h2, fun t i j hi => ?_, by decide +kernel, by decide +kernel, by decide +kernel⟩
  have hchk : ∀ t, t < threeServed.length → ∀ i, i < (path (Pool.start 2) threeServed t).workers.length →
      (((path (Pool.start 2) threeServed t).workers[i]?.map fun w => !(runningOf [w]).isEmpty) = some true) →
      ∃ u, u < threeServed.length ∧ t ≤ u ∧ threeServed[u]? = some (.finish i false) := by decide +kernel
  by_cases ht : t < threeServed.length
  · obtain ⟨u, _, hu, he⟩ := hchk t ht i (List.getElem?_eq_some_iff.1 hi).1 (by rw [hi]; rfl)
    exact ⟨u, hu, he⟩
  · rw [path_last _ _ _ hrun t (by omega)] at hi
    have := List.mem_iff_getElem?.2 ⟨i, hi⟩
    simp at this

end Brski.Props
