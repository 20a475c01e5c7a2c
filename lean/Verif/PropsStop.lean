import Verif.Stop

/-!
# C128: stopping a server

`stop` closes the socket, which makes the listening thread leave its loop, and `httplib_stop` deletes the server at once, without
waiting for that thread and for the threads that serve clients, all of which go on looking at it.
-/

namespace Brski.Props

open Stop

/-! ## Specification -/

/-- There is enough memory, and threads can be started (what happens otherwise is C72 and C96). -/
def Sufficient (es : List Stop.Ev) : Prop := Ev.pool (.spawn false) ∉ es ∧ Ev.pool (.push false) ∉ es

instance (es : List Stop.Ev) : Decidable (Sufficient es) := by unfold Sufficient; infer_instance

/-- **C128** as stated: whenever a server is stopped, nothing undefined happens, and the listening socket is closed at most once. -/
def C128_statement : Prop :=
  ∀ n es, Sufficient es → Stop.run (Stop.start n) es ≠ some .ub ∧
    ∀ s, Stop.run (Stop.start n) es = some (.ok s) → s.closes ≤ 1

/-- The server is stopped only when listening has returned. -/
def StoppedAfterwards (es : List Stop.Ev) : Prop := ∀ a b, es = a ++ .test :: b → .leave ∈ a

/-- The listening thread or a thread that serves a client looks at the server. -/
def Looks : Stop.Ev → Prop
  | .run => True
  | .pool (.accept _) => True
  | .use _ => True
  | .leave => True
  | _ => False

/-! ## Runs -/

theorem stop_run_append {s : Stop.St} {a b : List Stop.Ev} {s' : Stop.St} (h : Stop.run s a = some (.ok s')) :
    Stop.run s (a ++ b) = Stop.run s' b := by
  induction a generalizing s with
  | nil => cases h; rfl
  | cons e a ih =>
    simp only [Stop.run, List.cons_append] at h ⊢
    split at h
    · exact ih h
    · rename_i hn
      split at h
      · exact absurd h (hn _)
      · cases h

/-- A run that ends somewhere went through every state before. -/
theorem stop_run_split {s : Stop.St} {a b : List Stop.Ev} {r : Stop.Res} (hb : b ≠ []) (h : Stop.run s (a ++ b) = some r) :
    ∃ s', Stop.run s a = some (.ok s') ∧ Stop.run s' b = some r := by
  induction a generalizing s with
  | nil => exact ⟨s, rfl, h⟩
  | cons e a ih =>
    simp only [Stop.run, List.cons_append] at h ⊢
    split at h
    · exact ih h
    · rw [if_neg (by simp [hb])] at h
      cases h

/-! ## The server deleted -/

/-- Whether server and context are there. -/
theorem stop_step_alive {s s' : Stop.St} {e : Stop.Ev} (h : Stop.step s e = some (.ok s')) :
    (s'.server = (s.server && !decide (e = .delete))) ∧ (s'.context = (s.context && !decide (e = .free))) := by
  cases e with
  | pool p => cases p <;> simp only [Stop.step, Stop.accept] at h <;> (repeat' split at h) <;> cases h <;> simp_all
  | _ => simp only [Stop.step] at h <;> (repeat' split at h) <;> cases h <;> simp_all

theorem stop_run_alive {s s' : Stop.St} {es : List Stop.Ev} (h : Stop.run s es = some (.ok s')) :
    (s'.server = (s.server && !es.contains .delete)) ∧ (s'.context = (s.context && !es.contains .free)) := by
  induction es generalizing s with
  | nil => cases h; simp
  | cons e es ih =>
    simp only [Stop.run] at h
    split at h
    · rename_i s1 h1
      obtain ⟨a, b⟩ := ih h
      obtain ⟨a1, b1⟩ := stop_step_alive h1
      rw [a, b, a1, b1]
      cases e <;> simp
    · rename_i hn
      split at h
      · exact absurd h (hn _)
      · cases h

/-- The steps of the stopper, as far as it has come. -/
theorem stop_step_stage {s s' : Stop.St} {e : Stop.Ev} (h : Stop.step s e = some (.ok s'))
    (hs : s.context = false → s.server = false) (hd : s.server = true → s.stopper ≠ .deleted) :
    (s'.context = false → s'.server = false) ∧ (s'.server = true → s'.stopper ≠ .deleted) := by
  cases e with
  | pool p => cases p <;> simp only [Stop.step, Stop.accept] at h <;> (repeat' split at h) <;> cases h <;> simp_all
  | _ =>
    simp only [Stop.step] at h <;> (repeat' split at h) <;> cases h <;>
      first
      | exact ⟨hs, hd⟩
      | (cases hr : s.running <;> simp_all)
      | simp_all

theorem stop_run_stage {s s' : Stop.St} {es : List Stop.Ev} (h : Stop.run s es = some (.ok s'))
    (hs : s.context = false → s.server = false) (hd : s.server = true → s.stopper ≠ .deleted) :
    (s'.context = false → s'.server = false) := by
  induction es generalizing s with
  | nil => cases h; exact hs
  | cons e es ih =>
    simp only [Stop.run] at h
    split at h
    · rename_i s1 h1
      exact ih h (stop_step_stage h1 hs hd).1 (stop_step_stage h1 hs hd).2
    · rename_i hn
      split at h
      · exact absurd h (hn _)
      · cases h

/-- The pool itself is defined when there is enough memory. -/
theorem pool_step_ub {p : Pool.St} {e : Pool.Ev} (h : Pool.step p e = some .ub) : e = .spawn false ∨ e = .push false := by
  cases e <;> simp only [Pool.step] at h <;> (repeat' split at h) <;> simp_all

/-- **C128**, exactly: what a thread does next is undefined if and only if it looks at the server and the server has been deleted. -/
theorem C128_exact {n : Nat} {pre : List Stop.Ev} {e : Stop.Ev} {s : Stop.St} (hr : Stop.run (Stop.start n) pre = some (.ok s))
    (he : Stop.step s e ≠ none) (hm : Sufficient [e]) :
    Stop.run (Stop.start n) (pre ++ [e]) = some .ub ↔ Looks e ∧ .delete ∈ pre := by
  have ha := (stop_run_alive hr).1
  have hc := stop_run_stage hr (by simp [Stop.start]) (by simp [Stop.start])
  have hd : s.server = false ↔ .delete ∈ pre := by rw [ha]; simp [Stop.start]
  have hrun : Stop.run (Stop.start n) (pre ++ [e]) = some .ub ↔ Stop.step s e = some .ub := by
    rw [stop_run_append hr]
    simp only [Stop.run]
    split
    · rename_i s1 h1
      simp [h1]
    · simp
  rw [hrun, ← hd]
  have hp : ∀ p, e = .pool p → Pool.step s.pool p ≠ some .ub := fun p hp h => by
    rcases pool_step_ub h with rfl | rfl
    · exact hm.1 (by simp [hp])
    · exact hm.2 (by simp [hp])
  cases e with
  | pool p =>
    have hp := hp p rfl
    cases p with
    | accept a =>
      simp only [Stop.step, Stop.accept, Looks, true_and] at he ⊢
      split at he
      · rename_i hacc
        split at he
        · exact absurd rfl he
        · rw [if_pos hacc]
          rename_i hrn
          rw [if_neg hrn]
          cases hsv : s.server with
          | false => simp
          | true =>
            simp only [Bool.true_eq_false, if_false, iff_false]
            intro h
            repeat' split at h
            all_goals first | (cases h; done) | exact hp (by assumption)
      · exact absurd rfl he
    | _ =>
      simp only [Stop.step, Looks, false_and, iff_false]
      intro h
      repeat' split at h
      all_goals first | (cases h; done) | exact hp (by assumption)
  | run | leave =>
    simp only [Stop.step, Looks, true_and] at he ⊢
    split at he
    · rename_i h
      rw [if_pos h]
      cases s.server <;> simp
    · exact absurd rfl he
  | use i =>
    simp only [Stop.step, Looks, true_and] at he ⊢
    split at he
    · cases hsv : s.server with
      | false => simp
      | true =>
        cases hcx : s.context with
        | false => rw [hc hcx] at hsv; cases hsv
        | true => simp
    · exact absurd rfl he
  | _ =>
    simp only [Stop.step, Looks, false_and, iff_false]
    intro h
    split at h <;> cases h

/-- **C128**, the other side: a server that is stopped while it listens never returns from listening in a defined way. -/
theorem C128_never {n : Nat} {a b : List Stop.Ev} {s : Stop.St} : Stop.run (Stop.start n) (a ++ .delete :: b) = some (.ok s) → .leave ∉ b := by
  intro h hb
  obtain ⟨c, d, rfl⟩ := List.append_of_mem hb
  obtain ⟨s1, h1, h2⟩ := stop_run_split (a := a ++ .delete :: c) (b := .leave :: d) (by simp) (by simpa using h)
  have hs1 := (stop_run_alive h1).1
  simp only [List.contains_eq_mem, List.mem_append, List.mem_cons, true_or, or_true, decide_true, Bool.not_true,
    Bool.and_false] at hs1
  simp only [Stop.run, Stop.step, hs1] at h2
  split at h2
  · rename_i h3
    split at h3 <;> cases h3
  · rename_i h3
    split at h3
    · split at h2 <;> cases h2
    · split at h2 <;> cases h2

theorem stop_step_invalid {s s' : Stop.St} {e : Stop.Ev} (h : Stop.step s e = some (.ok s')) (hv : s.valid = false) :
    s'.valid = false ∧ e ≠ .pool (.accept .conn) := by
  cases e with
  | pool p =>
    cases p with
    | accept a =>
      cases a <;> simp only [Stop.step, Stop.accept, hv] at h <;> (repeat' split at h) <;> cases h <;> simp_all
    | _ => simp only [Stop.step] at h <;> (repeat' split at h) <;> cases h <;> simp_all
  | _ => simp only [Stop.step] at h <;> (repeat' split at h) <;> cases h <;> simp_all

/-- **C128**: after `stop` has taken the socket away no client is accepted any more, whatever the threads do, as long as nothing undefined
happens. -/
theorem C128_refuses {n : Nat} {a b : List Stop.Ev} {s : Stop.St} : Stop.run (Stop.start n) (a ++ .exchange :: b) = some (.ok s) →
    .pool (.accept .conn) ∉ b := by
  intro h
  obtain ⟨s1, h1, h2⟩ := stop_run_split (a := a) (b := .exchange :: b) (by simp) h
  have key : ∀ (b : List Stop.Ev) (s : Stop.St) (r : Stop.St), s.valid = false → Stop.run s b = some (.ok r) → .pool (.accept .conn) ∉ b := by
    intro b
    induction b with
    | nil => intro s r _ _ hm; cases hm
    | cons e b ih =>
      intro s r hv hr
      simp only [Stop.run] at hr
      split at hr
      · rename_i s2 hs
        obtain ⟨k1, k2⟩ := stop_step_invalid hs hv
        intro hm
        rcases List.mem_cons.1 hm with hm | hm
        · exact k2 hm.symm
        · exact ih s2 r k1 hr hm
      · rename_i hn
        split at hr
        · exact absurd hr (hn _)
        · cases hr
  simp only [Stop.run, Stop.step] at h2
  split at h2
  · rename_i s2 hs
    split at hs
    · cases hs
      exact key b _ s rfl h2
    · cases hs
  · rename_i hn
    split at h2
    · exact absurd h2 (hn _)
    · cases h2

/-! ## The server stopped when listening is over -/

/-- The listening thread has left the loop. -/
def pastLoop : Pool.Acceptor → Bool
  | .stopping => true
  | .notifyingAll => true
  | .joining => true
  | .returned => true
  | _ => false

/-- What holds as long as the server is stopped only afterwards. -/
structure StoppedQuietly (s : Stop.St) : Prop where
  idle : s.stopper ≠ .idle → s.left = true
  calm : s.stopper ≠ .running ∧ s.stopper ≠ .exchanged
  server : s.server = false → s.left = true
  context : s.context = false → s.left = true
  left : s.left = true → s.running = false ∧ s.pool.acceptor = .returned
  ended : s.pool.acceptor = .returned → ∀ w ∈ s.pool.workers, w = .ended
  closes : s.closes ≤ 1 ∧ (s.closes = 1 → pastLoop s.pool.acceptor = true)

/-- Once everything has ended, the pool does not move. -/
theorem pool_ended {p p' : Pool.St} {e : Pool.Ev} (h : Pool.step p e = some (.ok p'))
    (hp : p.acceptor = .returned → ∀ w ∈ p.workers, w = .ended) : p'.acceptor = .returned → ∀ w ∈ p'.workers, w = .ended := by
  by_cases ha : p.acceptor = .returned
  · have hg : ∀ i w, p.workers[i]? = some w → w = Pool.Worker.ended := fun i w hw => hp ha w (List.mem_iff_getElem?.2 ⟨i, hw⟩)
    exfalso
    cases e with
    | wake i | take i =>
      simp only [Pool.step] at h
      split at h
      · rename_i hw; cases hg _ _ hw
      · cases h
    | finish i b =>
      simp only [Pool.step] at h
      split at h
      · rename_i hw; cases hg _ _ hw
      · cases h
    | _ => simp [Pool.step, ha] at h
  · cases e with
    | join =>
      simp only [Pool.step] at h
      split at h
      · rename_i hw; cases h; exact fun _ => hw.2
      · cases h
    | _ =>
      simp only [Pool.step] at h
      repeat' split at h
      all_goals cases h
      all_goals exact fun hr => absurd hr (by first | exact ha | simp)

/-- The loop is left once. -/
theorem pool_past {p p' : Pool.St} {e : Pool.Ev} (h : Pool.step p e = some (.ok p')) (hp : pastLoop p.acceptor = true) :
    pastLoop p'.acceptor = true := by
  cases e <;> simp only [Pool.step] at h <;> (repeat' split at h) <;> cases h <;> simp_all [pastLoop]

theorem stop_quiet_step {s s' : Stop.St} {e : Stop.Ev} (hq : StoppedQuietly s) (h : Stop.step s e = some (.ok s'))
    (ht : e = .test → s.left = true) : StoppedQuietly s' := by
  obtain ⟨h1, h2, h3, h4, h5, h6, h7⟩ := hq
  have hpool : ∀ p p', Pool.step s.pool p = some (.ok p') → s.running = true → s'.pool = p' → s'.closes = s.closes ∨
      (s'.closes = s.closes + 1 ∧ p'.acceptor = .stopping ∧ s.pool.acceptor = .accepting) →
      s'.stopper = s.stopper → s'.server = s.server → s'.context = s.context → s'.left = s.left → s'.running = s.running → StoppedQuietly s' := by
    intro p p' hp hrun ep ec es ev ecx el er
    have hl : s.left = false := by
      cases hl : s.left with
      | false => rfl
      | true => rw [(h5 hl).1] at hrun; cases hrun
    refine ⟨?_, ?_, ?_, ?_, ?_, ?_, ?_⟩
    · rw [es, el]; exact h1
    · rw [es]; exact h2
    · rw [ev, el]; exact h3
    · rw [ecx, el]; exact h4
    · rw [el, hl]; intro hc; cases hc
    · rw [ep]; exact pool_ended hp h6
    · rw [ep]
      rcases ec with ec | ⟨ec, ea, eb⟩
      · rw [ec]; exact ⟨h7.1, fun hc => pool_past hp (h7.2 hc)⟩
      · have : s.closes ≠ 1 := fun hc => by have := h7.2 hc; rw [eb] at this; cases this
        rw [ec, ea]
        exact ⟨by omega, fun _ => rfl⟩
  cases e with
  | pool p =>
    cases p with
    | accept a =>
      simp only [Stop.step, Stop.accept] at h
      repeat' split at h
      all_goals first
        | (cases h; done)
        | skip
      all_goals
        rename_i p' hp hc
        cases h
        refine hpool _ _ hp (by simp_all) rfl ?_ rfl rfl rfl rfl rfl
      · simp only [Bool.and_eq_true, beq_iff_eq] at hc
        exact .inr ⟨rfl, hc.2, by simp_all⟩
      · exact .inl rfl
    | _ =>
      simp only [Stop.step] at h
      split at h
      · cases h
      · rename_i hrun
        have hrun : s.running = true := by simpa using hrun
        repeat' split at h
        all_goals first
          | (cases h; done)
          | skip
        rename_i p' hp
        cases h
        exact hpool _ _ hp hrun rfl (.inl rfl) rfl rfl rfl rfl rfl
  | run =>
    simp only [Stop.step] at h
    repeat' split at h
    all_goals first
      | (cases h; done)
      | skip
    rename_i hl _
    cases h
    exact ⟨h1, h2, h3, h4, fun hc => absurd (hl.2.symm.trans hc) (by simp), h6, h7⟩
  | use i =>
    simp only [Stop.step] at h
    repeat' split at h
    all_goals first
      | (cases h; done)
      | skip
    cases h
    exact ⟨h1, h2, h3, h4, h5, h6, h7⟩
  | leave =>
    simp only [Stop.step] at h
    repeat' split at h
    all_goals first
      | (cases h; done)
      | skip
    rename_i hl _
    cases h
    exact ⟨fun _ => rfl, h2, fun _ => rfl, fun _ => rfl, fun _ => ⟨rfl, hl.1⟩, h6, h7⟩
  | test =>
    have hl := ht rfl
    simp only [Stop.step] at h
    split at h
    · cases h
      refine ⟨fun _ => hl, ?_, h3, h4, h5, h6, h7⟩
      rw [(h5 hl).1]
      simp
    · cases h
  | exchange =>
    simp only [Stop.step] at h
    split at h
    · rename_i hc; exact absurd hc h2.1
    · cases h
  | close =>
    simp only [Stop.step] at h
    split at h
    · rename_i hc; exact absurd hc h2.2
    · cases h
  | delete =>
    simp only [Stop.step] at h
    split at h
    · rename_i hc
      have hl : s.left = true := h1 (by rw [hc]; simp)
      cases h
      exact ⟨fun _ => hl, by simp, fun _ => hl, h4, h5, h6, h7⟩
    · cases h
  | free =>
    simp only [Stop.step] at h
    split at h
    · rename_i hc
      have hl : s.left = true := h1 (by rw [hc]; simp)
      cases h
      exact ⟨fun _ => hl, by simp, h3, fun _ => hl, h5, h6, h7⟩
    · cases h

theorem left_step {s s' : Stop.St} {e : Stop.Ev} (h : Stop.step s e = some (.ok s')) : s'.left = true ↔ s.left = true ∨ e = .leave := by
  cases e with
  | pool p => cases p <;> simp only [Stop.step, Stop.accept] at h <;> (repeat' split at h) <;> cases h <;> simp
  | _ => simp only [Stop.step] at h <;> (repeat' split at h) <;> cases h <;> simp

theorem stop_quiet_defined {s : Stop.St} {e : Stop.Ev} (hq : StoppedQuietly s) (hm : Sufficient [e]) : Stop.step s e ≠ some .ub := by
  obtain ⟨h1, h2, h3, h4, h5, h6, h7⟩ := hq
  have hp : ∀ p, e = .pool p → Pool.step s.pool p ≠ some .ub := fun p hp h => by
    rcases pool_step_ub h with rfl | rfl
    · exact hm.1 (by simp [hp])
    · exact hm.2 (by simp [hp])
  intro h
  cases e with
  | pool p =>
    have hp := hp p rfl
    cases p with
    | accept a =>
      simp only [Stop.step, Stop.accept] at h
      split at h
      · rename_i hacc
        split at h
        · cases h
        · split at h
          · rename_i hs
            have := (h5 (h3 hs)).2
            rw [hacc] at this
            cases this
          · repeat' split at h
            all_goals first | (cases h; done) | exact hp (by assumption)
      · cases h
    | _ =>
      simp only [Stop.step] at h
      repeat' split at h
      all_goals first | (cases h; done) | exact hp (by assumption)
  | run | leave =>
    simp only [Stop.step] at h
    split at h
    · rename_i hc
      split at h
      · cases h
      · rename_i hs
        have := h3 (by simpa using hs)
        rw [hc.2] at this
        cases this
    · cases h
  | use i =>
    simp only [Stop.step] at h
    split at h
    · rename_i hw
      split at h
      · cases h
      · rename_i hs
        have hl : s.left = true := by
          cases hsv : s.server with
          | false => exact h3 hsv
          | true => exact h4 (by simpa [hsv] using hs)
        have := h6 (h5 hl).2 _ (List.mem_iff_getElem?.2 ⟨i, hw⟩)
        cases this
    · cases h
  | _ =>
    simp only [Stop.step] at h
    split at h <;> cases h

/-- **C128** for the programs of this project, which stop a server when listening has returned: nothing undefined happens and the
socket is closed at most once.  Missing: a server that is stopped while it listens. -/
theorem C128_partial {n : Nat} {es : List Stop.Ev} (hm : Sufficient es) (hl : StoppedAfterwards es) :
    Stop.run (Stop.start n) es ≠ some .ub ∧ ∀ s, Stop.run (Stop.start n) es = some (.ok s) → s.closes ≤ 1 := by
  have key : ∀ (es : List Stop.Ev) (s : Stop.St), StoppedQuietly s → Sufficient es →
      (∀ a b, es = a ++ .test :: b → s.left = true ∨ .leave ∈ a) →
      Stop.run s es ≠ some .ub ∧ ∀ s', Stop.run s es = some (.ok s') → s'.closes ≤ 1 := by
    intro es
    induction es with
    | nil =>
      intro s hq _ _
      simp only [Stop.run]
      exact ⟨by simp, fun s' h => by cases h; exact hq.closes.1⟩
    | cons e es ih =>
      intro s hq hm ht
      have hm1 : Sufficient [e] := ⟨fun h => hm.1 (by simp at h; simp [h]), fun h => hm.2 (by simp at h; simp [h])⟩
      have hm2 : Sufficient es := ⟨fun h => hm.1 (by simp [h]), fun h => hm.2 (by simp [h])⟩
      have hd := stop_quiet_defined hq hm1
      simp only [Stop.run]
      split
      · rename_i s1 h1
        refine ih s1 (stop_quiet_step hq h1 fun he => ?_) hm2 fun a b hab => ?_
        · subst he
          rcases ht [] es rfl with h | h
          · exact h
          · cases h
        · rw [left_step h1]
          rcases ht (e :: a) b (by rw [hab]; rfl) with h | h
          · exact .inl (.inl h)
          · rcases List.mem_cons.1 h with h | h
            · exact .inl (.inr h.symm)
            · exact .inr h
      · rename_i r hn
        split
        · refine ⟨hd, fun s' h => absurd h (hn s')⟩
        · exact ⟨by simp, fun _ h => by cases h⟩
  refine key es (Stop.start n) ?_ hm fun a b hab => .inr (hl a b hab)
  exact ⟨by simp [Stop.start], by simp [Stop.start], by simp [Stop.start], by simp [Stop.start], by simp [Stop.start],
    by simp [Stop.start, Pool.start], by simp [Stop.start]⟩

/-! ## Cases -/

/-- A server with one thread has served a client and is about to accept the next. -/
def servedOne : List Stop.Ev :=
  [.run, .pool (.spawn true), .pool .begin, .pool (.accept .conn), .pool (.push true), .pool (.notify none), .pool (.take 0), .use 0,
    .pool (.finish 0 false), .pool (.take 0)]

/-- The server of this project: `accept` fails for good, the threads end, listening returns, the server is stopped. -/
def stoppedLate : List Stop.Ev :=
  servedOne ++ [.pool (.accept (.err 22)), .pool .stop, .pool .notifyAll, .pool (.take 0), .pool .join, .leave, .test, .delete, .free]

example : Sufficient stoppedLate := by decide
example : (Stop.run (Stop.start 1) stoppedLate).isSome = true := by decide
example : StoppedAfterwards stoppedLate := by
  intro a b h
  have h1 : stoppedLate.take a.length = a := by rw [h]; simp
  have h2 : stoppedLate[a.length]? = some .test := by rw [h]; simp
  have h3 : ∀ k, k < stoppedLate.length → stoppedLate[k]? = some .test → .leave ∈ stoppedLate.take k := by decide
  rw [← h1]
  exact h3 _ (by rw [h]; simp) h2

/-- Another thread stops the server while it waits for a client. -/
def stoppedEarly : List Stop.Ev := servedOne ++ [.test, .exchange, .close, .delete]

/-- **C128** is violated: the listening thread wakes up and looks at the server that has been deleted. -/
theorem C128_violated : ¬ C128_statement := fun h =>
  (h 1 (stoppedEarly ++ [.pool (.accept .stopped)]) (by decide)).1 (by decide)

/-- The same for a thread that is serving a client. -/
theorem C128_violated_serving : ∃ es, Sufficient es ∧ Stop.run (Stop.start 1) es = some .ub ∧ es.getLast? = some (.use 0) :=
  ⟨[.run, .pool (.spawn true), .pool .begin, .pool (.accept .conn), .pool (.push true), .pool (.notify none), .pool (.take 0), .test,
    .exchange, .close, .delete, .use 0], by decide, by decide, rfl⟩

/-- The same for a server that has not yet begun to listen. -/
theorem C128_violated_begin : Sufficient [.test, .delete, .run] ∧ Stop.run (Stop.start 1) [.test, .delete, .run] = some .ub :=
  ⟨by decide, by decide⟩

/-- Nothing undefined so far, but the descriptor of the listening socket, which may have been given to something else, is closed a
second time: `accept` failed and the server is stopped while the threads are still being waited for. -/
theorem C128_violated_closed : ∃ es s, Sufficient es ∧ Stop.run (Stop.start 1) es = some (.ok s) ∧ s.closes = 2 :=
  ⟨servedOne ++ [.pool (.accept (.err 22)), .test, .exchange, .close], _, by decide, rfl, by decide⟩

/-- The hypotheses of the exact statement, with both results. -/
example : ∃ s, Stop.run (Stop.start 1) stoppedEarly = some (.ok s) ∧ Stop.step s (.pool (.accept .stopped)) = some .ub ∧
    Sufficient [.pool (.accept .stopped)] := ⟨_, rfl, by decide, by decide⟩
example : ∃ s, Stop.run (Stop.start 1) servedOne = some (.ok s) ∧ Stop.step s .test ≠ none ∧ Sufficient [.test] :=
  ⟨_, rfl, by decide, by decide⟩
/-- A server stopped while it listens, and everything that is defined afterwards. -/
example : ∃ s, Stop.run (Stop.start 1) (servedOne ++ [.test, .exchange, .close] ++ .delete :: [.free, .pool (.wake 0), .pool (.take 0)]) =
    some (.ok s) := ⟨_, rfl⟩

/-- A server that is stopped while a client is served: the socket is taken away, and the listening thread leaves. -/
example : ∃ s, Stop.run (Stop.start 1) (servedOne ++ .exchange :: []) = none ∧
    Stop.run (Stop.start 1) ((servedOne ++ [.test]) ++ .exchange :: [.close, .pool (.accept .stopped), .pool .stop]) = some (.ok s) := ⟨_, by decide, rfl⟩

end Brski.Props
