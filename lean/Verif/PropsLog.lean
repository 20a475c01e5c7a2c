import Verif.Log
import Verif.PropsClock

/-!
# C55: which messages are written, and that they are never interleaved
-/

namespace Brski.Props

open BoolTime Clock Log Outcome

/-- Specification: which messages the log shows. -/
def Shown (L : Settings) (m : Msg) : Prop := L.quiet = false ∧ (m.ignoreLevel = true ∨ L.level ≤ m.level)

instance (L : Settings) (m : Msg) : Decidable (Shown L m) := inferInstanceAs (Decidable (_ ∧ _))

/-- What `log_msg` writes for one message when nobody else writes. -/
def textOf (zone : Zone) (L : Settings) (m : Msg) : Bytes :=
  match logMsg zone L m with
  | .ok acts => acts.filterMap fun a => match a with | .write c => some c | _ => none
  | .ub => []

/-! ## Interleavings of critical sections -/

/-- One critical section. -/
def section_ (b : Bytes) : List Action := .lock :: b.map .write ++ [.unlock]

/-- What the threads have finished so far (`order`, oldest first), and what remains. -/
structure Snap {α : Type} (line : α → Bytes) (items : Nat → List α) (s : State) (order : List (Nat × α))
    (pending : Nat → List α) : Prop where
  split : ∀ i, items i = (order.filter (·.1 == i)).map (·.2) ++ pending i
  free : s.owner = none → s.out = (order.map fun p => line p.2).flatten ∧
    ∀ i, s.todo i = (pending i).flatMap fun a => section_ (line a)
  held : ∀ k, s.owner = some k → ∃ a rest pre post, pending k = a :: rest ∧ line a = pre ++ post ∧
    s.out = (order.map fun p => line p.2).flatten ++ pre ∧
    s.todo k = post.map .write ++ [.unlock] ++ rest.flatMap (fun a => section_ (line a)) ∧
    ∀ i, i ≠ k → s.todo i = (pending i).flatMap fun a => section_ (line a)

theorem section_flat_cases {α : Type} (line : α → Bytes) (l : List α) :
    l.flatMap (fun a => section_ (line a)) = [] ∧ l = [] ∨
      ∃ a rest, l = a :: rest ∧ l.flatMap (fun a => section_ (line a)) =
        .lock :: ((line a).map .write ++ [.unlock] ++ rest.flatMap fun a => section_ (line a)) := by
  cases l with
  | nil => exact .inl ⟨rfl, rfl⟩
  | cons a rest => exact .inr ⟨a, rest, rfl, by simp [section_]⟩

theorem put_self (s : State) (i : Nat) (r : List Action) : s.put i r i = r := by simp [State.put]

theorem put_other (s : State) {i j : Nat} (r : List Action) (h : j ≠ i) : s.put i r j = s.todo j := by simp [State.put, h]

theorem snap_step {α : Type} {line : α → Bytes} {items : Nat → List α} {s s' : State} {i : Nat}
    (hs : ∃ order pending, Snap line items s order pending) (h : Step s i s') :
    ∃ order pending, Snap line items s' order pending := by
  obtain ⟨order, pending, hs⟩ := hs
  cases h with
  | @lock r ht ho =>
    obtain ⟨f1, f2⟩ := hs.free ho
    rcases section_flat_cases line (pending i) with ⟨h0, -⟩ | ⟨a, rest, h0, h1⟩
    · rw [f2 i, h0] at ht; cases ht
    · rw [f2 i, h1] at ht
      injection ht with _ ht
      refine ⟨order, pending, hs.split, (fun hn => by cases hn), fun k hk => ?_⟩
      injection hk with hk
      subst hk
      refine ⟨a, rest, [], line a, h0, rfl, by simpa using f1, by simp only [put_self, ht], fun j hj => ?_⟩
      simp only [put_other s r hj, f2 j]
  | @write c r ht =>
    cases ho : s.owner with
    | none =>
      obtain ⟨f1, f2⟩ := hs.free ho
      rcases section_flat_cases line (pending i) with ⟨h0, -⟩ | ⟨a, rest, h0, h1⟩
      · rw [f2 i, h0] at ht; cases ht
      · rw [f2 i, h1] at ht
        injection ht with ht _
        cases ht
    | some k =>
      obtain ⟨a, rest, pre, post, p1, p2, p3, p4, p5⟩ := hs.held k ho
      by_cases hik : i = k
      · subst hik
        rw [p4] at ht
        cases post with
        | nil => cases ht
        | cons c' post =>
          simp only [List.map_cons, List.cons_append, List.cons.injEq, Action.write.injEq] at ht
          obtain ⟨rfl, ht⟩ := ht
          refine ⟨order, pending, hs.split, (fun hn => by cases hn), fun k hk => ?_⟩
          simp only [Option.some.injEq] at hk
          subst hk
          refine ⟨a, rest, pre ++ [c'], post, p1, by simp [p2], by simp [p3], by simp only [put_self, ht], fun j hj => ?_⟩
          simp only [put_other s r hj, p5 j hj]
      · rw [p5 i hik] at ht
        rcases section_flat_cases line (pending i) with ⟨h0, -⟩ | ⟨a, rest, h0, h1⟩
        · rw [h0] at ht; cases ht
        · rw [h1] at ht
          injection ht with ht _
          cases ht
  | @unlock r ht ho =>
    obtain ⟨a, rest, pre, post, p1, p2, p3, p4, p5⟩ := hs.held i ho
    rw [p4] at ht
    cases post with
    | cons c post => cases ht
    | nil =>
      simp only [List.map_nil, List.nil_append, List.cons_append, List.cons.injEq, true_and] at ht
      refine ⟨order ++ [(i, a)], fun j => if j = i then rest else pending j, ?_, fun _ => ⟨?_, ?_⟩, fun k hk => by cases hk⟩
      · intro j
        by_cases hj : j = i
        · subst hj
          simp [hs.split j, p1]
        · have hne : ¬ i = j := fun e => hj e.symm
          simp [hs.split j, hj, hne]
      · simp [p3, p2]
      · intro j
        by_cases hj : j = i
        · subst hj
          simp [put_self, ht]
        · simp [put_other s r hj, p5 j hj, hj]

/-- Every reachable state is a snapshot. -/
theorem snap_reach {α : Type} {line : α → Bytes} {items : Nat → List α} {prog : Nat → List Action}
    (hp : ∀ i, prog i = (items i).flatMap fun a => section_ (line a)) {s : State} (hr : Reach prog s) :
    ∃ order pending, Snap line items s order pending := by
  induction hr with
  | init => exact ⟨[], items, by simp, fun _ => ⟨rfl, hp⟩, fun k hk => by cases hk⟩
  | step _ h ih => exact snap_step ih h

/-! ## The actions of one message -/

theorem checkLevel_iff (L : Settings) (m : Msg) :
    checkLevel L m.level m.ignoreLevel = true ↔ m.ignoreLevel = false ∧ (¬ L.level ≤ m.level ∨ L.quiet = true) := by
  unfold checkLevel
  rw [UInt8.not_le]
  cases m.ignoreLevel <;> cases L.quiet <;> simp

theorem shown_passes {L : Settings} {m : Msg} (h : Shown L m) : checkLevel L m.level m.ignoreLevel = false := by
  cases hc : checkLevel L m.level m.ignoreLevel with
  | false => rfl
  | true =>
    obtain ⟨h1, h2⟩ := (checkLevel_iff L m).1 hc
    obtain ⟨h3, h4⟩ := h
    rcases h2 with h2 | h2
    · rcases h4 with h4 | h4
      · rw [h1] at h4; cases h4
      · exact absurd h4 h2
    · rw [h3] at h2; cases h2

theorem logMsg_ok {zone : Zone} {L : Settings} {m : Msg} {acts : List Action} (h : logMsg zone L m = .ok acts) :
    (checkLevel L m.level m.ignoreLevel = true ∧ acts = []) ∨
    (checkLevel L m.level m.ignoreLevel = false ∧ ∃ out,
      acts = (if L.lock then [.lock] else []) ++ out.map .write ++ (if L.lock then [.unlock] else []) ∧
      (L.quiet = true ∧ out = [] ∨ L.quiet = false ∧ ∃ stamp, timeToStr zone 25 m.time m.usec = .ok stamp ∧
        printTo L m stamp = .ok out)) := by
  unfold logMsg at h
  cases hc : checkLevel L m.level m.ignoreLevel with
  | true =>
    rw [hc, if_pos rfl, Outcome.ok.injEq] at h
    exact .inl ⟨rfl, h.symm⟩
  | false =>
    rw [hc, if_neg (by decide)] at h
    right
    refine ⟨rfl, ?_⟩
    cases ht : timeToStr zone 25 m.time m.usec with
    | ub => rw [ht] at h; cases h
    | ok stamp =>
      rw [ht, bind'_ok] at h
      cases hq : L.quiet with
      | true =>
        rw [hq, if_pos rfl, bind'_ok, Outcome.ok.injEq] at h
        exact ⟨[], h.symm, .inl ⟨rfl, rfl⟩⟩
      | false =>
        rw [hq, if_neg (by decide)] at h
        cases hp : printTo L m stamp with
        | ub => rw [hp] at h; cases h
        | ok out =>
          rw [hp, bind'_ok, Outcome.ok.injEq] at h
          exact ⟨out, h.symm, .inr ⟨rfl, stamp, rfl, hp⟩⟩

/-- The bytes written by a list of actions. -/
def written (acts : List Action) : Bytes := acts.filterMap fun a => match a with | .write c => some c | _ => none

theorem written_map (b : Bytes) : written (b.map Action.write) = b := by
  induction b with
  | nil => rfl
  | cons c b ih =>
    unfold written at ih ⊢
    simp only [List.map_cons, List.filterMap_cons, ih]

theorem written_block (b : Bytes) (l : Bool) :
    written ((if l then [Action.lock] else []) ++ b.map .write ++ (if l then [.unlock] else [])) = b := by
  have := written_map b
  unfold written at this ⊢
  cases l <;> simp [this]

theorem textOf_ok {zone : Zone} {L : Settings} {m : Msg} {acts : List Action} (h : logMsg zone L m = .ok acts) :
    textOf zone L m = written acts := by
  unfold textOf; rw [h]; rfl

theorem printTo_ok {L : Settings} {m : Msg} {stamp out : Bytes} (h : printTo L m stamp = .ok out) :
    ∃ pre, metaText L m stamp = .ok pre ∧
      out = pre ++ (if m.err > 0 then str "[" ++ m.errText ++ str "] " else []) ++ m.text ++ [10] := by
  unfold printTo at h
  cases hm : metaText L m stamp with
  | ub => rw [hm] at h; cases h
  | ok pre =>
    rw [hm, bind'_ok, Outcome.ok.injEq] at h
    exact ⟨pre, rfl, h.symm⟩

/-- What `log_msg` does when it is defined: what it writes, whether it is shown, and the critical section. -/
theorem logMsg_cases {zone : Zone} {L : Settings} {m : Msg} {acts : List Action} (h : logMsg zone L m = .ok acts) :
    (¬ Shown L m ∧ textOf zone L m = [] ∧ (checkLevel L m.level m.ignoreLevel = true ∧ acts = [] ∨
      checkLevel L m.level m.ignoreLevel = false ∧ (L.lock = true → acts = section_ []))) ∨
    (Shown L m ∧ checkLevel L m.level m.ignoreLevel = false ∧ (L.lock = true → acts = section_ (textOf zone L m)) ∧
      ∃ stamp, timeToStr zone 25 m.time m.usec = .ok stamp ∧ printTo L m stamp = .ok (textOf zone L m)) := by
  rw [textOf_ok h]
  unfold Shown
  rcases logMsg_ok h with ⟨hc, rfl⟩ | ⟨hc, out, rfl, hq⟩
  · refine .inl ⟨?_, rfl, .inl ⟨hc, rfl⟩⟩
    intro hs
    have := shown_passes hs
    rw [hc] at this
    cases this
  · have hsec : L.lock = true →
        (if L.lock then [Action.lock] else []) ++ out.map .write ++ (if L.lock then [.unlock] else []) = section_ out := by
      intro hl
      rw [hl]
      rfl
    have hnc : ¬ checkLevel L m.level m.ignoreLevel = true := by rw [hc]; decide
    rw [written_block]
    rcases hq with ⟨h1, rfl⟩ | ⟨h1, stamp, h2, h3⟩
    · exact .inl ⟨fun h => by rw [h1] at h; exact absurd h.1 (by decide), rfl, .inr ⟨hc, hsec⟩⟩
    · refine .inr ⟨⟨h1, ?_⟩, hc, hsec, stamp, h2, h3⟩
      rw [checkLevel_iff] at hnc
      cases hi : m.ignoreLevel with
      | true => exact .inl rfl
      | false => exact .inr (Classical.byContradiction fun hh => hnc ⟨hi, .inl hh⟩)

/-! ## C55 -/

/-- **C55** (which messages are written): a message is written iff logging is not quiet and its level is at least the
configured one or it ignores the level. -/
theorem C55_filter (zone : Zone) (L : Settings) (m : Msg) (acts : List Action) (h : logMsg zone L m = .ok acts) :
    (∃ c, .write c ∈ acts) ↔ L.quiet = false ∧ (m.ignoreLevel = true ∨ L.level ≤ m.level) := by
  have hmem : (∃ c, .write c ∈ acts) ↔ textOf zone L m ≠ [] := by
    rw [textOf_ok h]
    unfold written
    constructor
    · rintro ⟨c, hc⟩ hn
      rw [List.filterMap_eq_nil_iff] at hn
      exact absurd (hn _ hc) (by simp)
    · intro hn
      obtain ⟨c, l, hl⟩ := List.exists_cons_of_ne_nil hn
      have : c ∈ acts.filterMap fun a => match a with | .write c => some c | _ => none := by rw [hl]; exact .head _
      obtain ⟨a, ha, hac⟩ := List.mem_filterMap.1 this
      cases a <;> simp at hac
      exact ⟨_, ha⟩
  rw [hmem]
  show _ ↔ Shown L m
  rcases logMsg_cases h with ⟨h1, h2, -⟩ | ⟨h1, -, -, stamp, h2, h3⟩
  · simp [h1, h2]
  · obtain ⟨pre, -, h4⟩ := printTo_ok h3
    refine ⟨fun _ => h1, fun _ => ?_⟩
    rw [h4]
    simp

/-- The critical sections of a thread. -/
theorem logMsgs_sections {zone : Zone} {L : Settings} (hl : L.lock = true) : ∀ {ms : List Msg} {acts : List Action},
    logMsgs zone L ms = .ok acts →
    acts = (ms.filter fun m => !checkLevel L m.level m.ignoreLevel).flatMap fun m => section_ (textOf zone L m)
  | [], acts, h => by
    rw [logMsgs, Outcome.ok.injEq] at h
    exact h.symm
  | m :: ms, acts, h => by
    rw [logMsgs] at h
    cases h1 : logMsg zone L m with
    | ub => rw [h1] at h; cases h
    | ok a =>
      rw [h1, bind'_ok] at h
      cases h2 : logMsgs zone L ms with
      | ub => rw [h2] at h; cases h
      | ok b =>
        rw [h2, bind'_ok, Outcome.ok.injEq] at h
        have ih := logMsgs_sections hl h2
        rw [← h, ih]
        rcases logMsg_cases h1 with ⟨-, e1, ⟨e2, e3⟩ | ⟨e2, e3⟩⟩ | ⟨-, e2, e3, -⟩
        · simp [e2, e3]
        · simp [e2, e3 hl, e1]
        · simp [e2, e3 hl]

/-- Every message of a thread whose program is defined is defined. -/
theorem logMsgs_mem {zone : Zone} {L : Settings} : ∀ {ms : List Msg} {acts : List Action},
    logMsgs zone L ms = .ok acts → ∀ m ∈ ms, ∃ a, logMsg zone L m = .ok a
  | [], _, _, m, hm => by cases hm
  | m :: ms, acts, h, m', hm => by
    rw [logMsgs] at h
    cases h1 : logMsg zone L m with
    | ub => rw [h1] at h; cases h
    | ok a =>
      rw [h1, bind'_ok] at h
      cases h2 : logMsgs zone L ms with
      | ub => rw [h2] at h; cases h
      | ok b =>
        cases hm with
        | head => exact ⟨a, h1⟩
        | tail _ hm => exact logMsgs_mem h2 m' hm

/-- A message that `log_msg` lets pass but that writes something is shown. -/
theorem shown_iff_text {zone : Zone} {L : Settings} {m : Msg} {a : List Action} (h : logMsg zone L m = .ok a) :
    Shown L m ↔ textOf zone L m ≠ [] := by
  rcases logMsg_cases h with ⟨h1, h2, -⟩ | ⟨h1, -, -, stamp, h2, h3⟩
  · simp [h1, h2]
  · obtain ⟨pre, -, h4⟩ := printTo_ok h3
    refine ⟨fun _ => ?_, fun _ => h1⟩
    rw [h4]
    simp

theorem flatten_shown (zone : Zone) (L : Settings) (order : List (Nat × Msg))
    (h : ∀ p ∈ order, Shown L p.2 ↔ textOf zone L p.2 ≠ []) :
    (order.map fun p => textOf zone L p.2).flatten =
      ((order.filter fun p => decide (Shown L p.2)).map fun p => textOf zone L p.2).flatten := by
  induction order with
  | nil => rfl
  | cons p l ih =>
    have ih := ih fun q hq => h q (.tail _ hq)
    have hp := h p (.head _)
    rw [List.filter_cons]
    by_cases hs : Shown L p.2
    · simp [hs, ih]
    · have : textOf zone L p.2 = [] := Classical.byContradiction fun hh => hs (hp.2 hh)
      simp [hs, ih, this]

/-- What every reachable state of logging threads looks like. -/
theorem log_reach {zone : Zone} {L : Settings} (hl : L.lock = true) {msgs : Nat → List Msg} {prog : Nat → List Action}
    (hp : ∀ i, logMsgs zone L (msgs i) = .ok (prog i)) {s : State} (hr : Reach prog s) :
    ∃ order pending,
      Snap (textOf zone L) (fun i => (msgs i).filter fun m => !checkLevel L m.level m.ignoreLevel) s order pending ∧
      (∀ i, ∀ m ∈ pending i, Shown L m ↔ textOf zone L m ≠ []) ∧
      (order.map fun p => textOf zone L p.2).flatten =
        ((order.filter fun p => decide (Shown L p.2)).map fun p => textOf zone L p.2).flatten ∧
      ∀ i, (msgs i).filter (fun m => decide (Shown L m)) =
        ((order.filter fun p => decide (Shown L p.2)).filter (·.1 == i)).map (·.2) ++
          (pending i).filter fun m => decide (Shown L m) := by
  obtain ⟨order, pending, hs⟩ := snap_reach (line := textOf zone L)
    (items := fun i => (msgs i).filter fun m => !checkLevel L m.level m.ignoreLevel)
    (fun i => logMsgs_sections hl (hp i)) hr
  have hmem : ∀ i, ∀ m ∈ (order.filter (·.1 == i)).map (·.2) ++ pending i, Shown L m ↔ textOf zone L m ≠ [] := by
    intro i m hm
    rw [← hs.split i] at hm
    obtain ⟨a, ha⟩ := logMsgs_mem (hp i) m (List.mem_filter.1 hm).1
    exact shown_iff_text ha
  refine ⟨order, pending, hs, fun i m hm => hmem i m (List.mem_append_right _ hm), flatten_shown zone L order ?_, ?_⟩
  · intro p hpo
    refine hmem p.1 p.2 (List.mem_append_left _ (List.mem_map.2 ⟨p, ?_, rfl⟩))
    exact List.mem_filter.2 ⟨hpo, by simp⟩
  · intro i
    have h1 : (msgs i).filter (fun m => decide (Shown L m)) =
        ((msgs i).filter fun m => !checkLevel L m.level m.ignoreLevel).filter fun m => decide (Shown L m) := by
      rw [List.filter_filter]
      refine List.filter_congr fun m _ => ?_
      by_cases hsh : Shown L m
      · simp [hsh, shown_passes hsh]
      · simp [hsh]
    rw [h1, hs.split i, List.filter_append, List.filter_map, List.filter_filter, List.filter_filter]
    congr 3
    funext p
    simp only [Function.comp_apply, Bool.and_comm]

/-- **C55** (no interleaving, at any time): with the lock function set, whatever the scheduler does, the stream holds at
any time whole messages, oldest first, each thread's in its order, and after them at most the beginning of the next
message of the thread that owns the mutex. -/
theorem C55_any_time (zone : Zone) (L : Settings) (hl : L.lock = true) (msgs : Nat → List Msg) (prog : Nat → List Action)
    (hp : ∀ i, logMsgs zone L (msgs i) = .ok (prog i)) (s : State) (hr : Reach prog s) :
    ∃ (order : List (Nat × Msg)) (tail : Bytes), s.out = (order.map fun p => textOf zone L p.2).flatten ++ tail ∧
      (∀ i, (order.filter (·.1 == i)).map (·.2) <+: (msgs i).filter fun m => decide (Shown L m)) ∧
      (tail ≠ [] → ∃ k m, s.owner = some k ∧ tail <+: textOf zone L m ∧
        (order.filter (·.1 == k)).map (·.2) ++ [m] <+: (msgs k).filter fun m => decide (Shown L m)) := by
  obtain ⟨order, pending, hs, htext, hflat, hshown⟩ := log_reach hl hp hr
  cases ho : s.owner with
  | none =>
    refine ⟨order.filter fun p => decide (Shown L p.2), [], ?_, fun i => ?_, fun h => absurd rfl h⟩
    · rw [(hs.free ho).1, List.append_nil, hflat]
    · rw [hshown i]
      exact List.prefix_append _ _
  | some k =>
    obtain ⟨m, rest, pre, post, p1, p2, p3, -, -⟩ := hs.held k ho
    refine ⟨order.filter fun p => decide (Shown L p.2), pre, ?_, fun i => ?_, fun hne => ⟨k, m, rfl, ?_, ?_⟩⟩
    · rw [p3, hflat]
    · rw [hshown i]
      exact List.prefix_append _ _
    · rw [p2]
      exact List.prefix_append _ _
    · have hm : Shown L m := (htext k m (by rw [p1]; simp)).2 (by rw [p2]; simp [hne])
      rw [hshown k, p1, List.filter_cons, if_pos (by simpa using hm)]
      refine ⟨rest.filter fun m => decide (Shown L m), ?_⟩
      simp

/-- **C55** (no interleaving): when all threads are done, the stream is the concatenation of the whole messages that are
shown, in an order that keeps the order of each thread, and the mutex is free. -/
theorem C55_no_interleaving (zone : Zone) (L : Settings) (hl : L.lock = true) (msgs : Nat → List Msg)
    (prog : Nat → List Action) (hp : ∀ i, logMsgs zone L (msgs i) = .ok (prog i)) (s : State) (hr : Reach prog s)
    (hend : ∀ i, s.todo i = []) :
    s.owner = none ∧ ∃ order : List (Nat × Msg), s.out = (order.map fun p => textOf zone L p.2).flatten ∧
      ∀ i, (order.filter (·.1 == i)).map (·.2) = (msgs i).filter fun m => decide (Shown L m) := by
  obtain ⟨order, pending, hs, htext, hflat, hshown⟩ := log_reach hl hp hr
  cases ho : s.owner with
  | some k =>
    obtain ⟨m, rest, pre, post, -, -, -, p4, -⟩ := hs.held k ho
    rw [hend k] at p4
    cases post <;> cases p4
  | none =>
    obtain ⟨f1, f2⟩ := hs.free ho
    refine ⟨rfl, order.filter fun p => decide (Shown L p.2), by rw [f1, hflat], fun i => ?_⟩
    have h0 := f2 i
    rw [hend i] at h0
    rcases section_flat_cases (textOf zone L) (pending i) with ⟨-, h1⟩ | ⟨a, rest, -, h1⟩
    · rw [hshown i, h1]
      simp
    · rw [h1] at h0
      cases h0

/-- Thread `k` runs alone. -/
inductive Alone (k : Nat) : State → State → Prop where
  | refl {s} : Alone k s s
  | step {s s' s''} : Step s k s' → Alone k s' s'' → Alone k s s''

/-- **C55** (the lock is always released): the owner of the mutex is never blocked, and running on its own it releases
the mutex. -/
theorem C55_release (zone : Zone) (L : Settings) (hl : L.lock = true) (msgs : Nat → List Msg) (prog : Nat → List Action)
    (hp : ∀ i, logMsgs zone L (msgs i) = .ok (prog i)) (s : State) (hr : Reach prog s) (k : Nat) (ho : s.owner = some k) :
    ∃ s', Alone k s s' ∧ s'.owner = none := by
  obtain ⟨order, pending, hs, -, -, -⟩ := log_reach hl hp hr
  obtain ⟨m, rest, pre, post, -, -, -, p4, -⟩ := hs.held k ho
  generalize rest.flatMap (fun a => section_ (textOf zone L a)) = r at p4
  clear hs hr
  induction post generalizing s with
  | nil => exact ⟨_, .step (.unlock p4 ho) .refl, rfl⟩
  | cons c post ih =>
    obtain ⟨s', h1, h2⟩ := ih ⟨s.owner, s.put k (post.map .write ++ [.unlock] ++ r), s.out ++ [c]⟩ ho
      (put_self s k _)
    exact ⟨s', .step (.write p4) h1, h2⟩

/-- **C55** (no deadlock): while some thread has something to do, some thread can go on; nobody releases a mutex they
do not own. -/
theorem C55_progress (zone : Zone) (L : Settings) (hl : L.lock = true) (msgs : Nat → List Msg) (prog : Nat → List Action)
    (hp : ∀ i, logMsgs zone L (msgs i) = .ok (prog i)) (s : State) (hr : Reach prog s) :
    ((∃ i, s.todo i ≠ []) → ∃ i s', Step s i s') ∧ ∀ i r, s.todo i = .unlock :: r → s.owner = some i := by
  obtain ⟨order, pending, hs, -, -, -⟩ := log_reach hl hp hr
  have hother : ∀ i, s.todo i = (pending i).flatMap (fun a => section_ (textOf zone L a)) →
      ∀ r, s.todo i ≠ .unlock :: r := by
    intro i h r hu
    rw [h] at hu
    rcases section_flat_cases (textOf zone L) (pending i) with ⟨h1, -⟩ | ⟨a, rest, -, h1⟩ <;> rw [h1] at hu <;> cases hu
  cases ho : s.owner with
  | none =>
    obtain ⟨-, f2⟩ := hs.free ho
    refine ⟨fun ⟨i, hi⟩ => ?_, fun i r hu => absurd hu (hother i (f2 i) r)⟩
    rcases section_flat_cases (textOf zone L) (pending i) with ⟨h1, -⟩ | ⟨a, rest, -, h1⟩
    · rw [f2 i, h1] at hi
      exact absurd rfl hi
    · exact ⟨i, _, .lock ((f2 i).trans h1) ho⟩
  | some k =>
    obtain ⟨m, rest, pre, post, -, -, -, p4, p5⟩ := hs.held k ho
    refine ⟨fun _ => ?_, fun i r hu => ?_⟩
    · cases post with
      | nil => exact ⟨k, _, .unlock p4 ho⟩
      | cons c post => exact ⟨k, _, .write p4⟩
    · by_cases hik : i = k
      · rw [hik]
      · exact absurd hu (hother i (p5 i hik) r)

/-! ## The text of a message -/

theorem natDec_length_le : ∀ (k n : Nat), n < 10 ^ (k + 1) → (natDec n).length ≤ k + 1
  | k, n, h => by
    rw [natDec]
    split
    · simp
    · cases k with
      | zero => simp at h; omega
      | succ k =>
        have := natDec_length_le k (n / 10) (by rw [Nat.pow_succ] at h; omega)
        simp only [List.length_append, List.length_singleton]
        omega

theorem natDec_length_gt : ∀ (k n : Nat), 10 ^ k ≤ n → k < (natDec n).length
  | 0, n, _ => by rw [natDec]; split <;> simp
  | k + 1, n, h => by
    rw [natDec, if_neg (by have : 1 ≤ 10 ^ k := Nat.pow_pos (by omega)
                           rw [Nat.pow_succ] at h; omega)]
    have := natDec_length_gt k (n / 10) (by rw [Nat.pow_succ] at h; omega)
    simp only [List.length_append, List.length_singleton]
    omega

theorem numPad_length_ge (w : Nat) (v : Int) : w ≤ (numPad w v).length := by
  unfold numPad
  simp only [List.length_append, List.length_replicate]
  omega

theorem numPad_length_eq {w : Nat} {v : Int} (n : Nat) (hv : v = n) (hw : 0 < w) (h : n < 10 ^ w) : (numPad w v).length = w := by
  subst hv
  obtain ⟨k, rfl⟩ : ∃ k, w = k + 1 := ⟨w - 1, by omega⟩
  have := natDec_length_le k n h
  unfold numPad
  rw [if_neg (by omega), Int.natAbs_natCast]
  simp only [List.length_append, List.length_replicate, List.length_nil]
  omega

theorem numPad_length_gt {w : Nat} {v : Int} (n : Nat) (hv : v = n) (h : 10 ^ w ≤ n) : w < (numPad w v).length := by
  subst hv
  have := natDec_length_gt w n h
  unfold numPad
  rw [Int.natAbs_natCast]
  simp only [List.length_append]
  omega

/-- **C55** (the time stamp): in the years 1000 to 9999 the text fits the 25 bytes exactly. -/
theorem C55_stamp (zone : Zone) (t : Int) (usec : Nat) (h : InYears (t + zone t)) (hu : usec < 1000000) :
    ∃ s, timeToStr zone 25 t usec = .ok s ∧ s.length = 24 := by
  obtain ⟨y, hy, hy1, hy2⟩ := year_range _ h
  obtain ⟨v, ⟨-, v1, v2, v3, v4, v5, v6, v7⟩, ⟨w1, w2, w3, w4, w5, w6⟩, -, v8, v9⟩ := breakDown_spec _ y hy hy2
  have hd := monthLen_le v.y v.mo
  have hlen : (stampText (breakDown (t + zone t)) (usec / 1000 % 65536)).length = 24 := by
    unfold stampText
    have l1 : (numPad 4 ((breakDown (t + zone t)).year + 1900)).length = 4 := numPad_length_eq v.y (by omega) (by omega) (by omega)
    have l2 : (numPad 2 ((breakDown (t + zone t)).mon + 1)).length = 2 := numPad_length_eq v.mo (by omega) (by omega) (by omega)
    have l3 : (numPad 2 (breakDown (t + zone t)).mday).length = 2 := numPad_length_eq v.d (by omega) (by omega) (by omega)
    have l4 : (numPad 2 (breakDown (t + zone t)).hour).length = 2 := numPad_length_eq v.h (by omega) (by omega) (by omega)
    have l5 : (numPad 2 (breakDown (t + zone t)).min).length = 2 := numPad_length_eq v.mi (by omega) (by omega) (by omega)
    have l6 : (numPad 2 (breakDown (t + zone t)).sec).length = 2 := numPad_length_eq v.s (by omega) (by omega) (by omega)
    have l7 : (numPad 3 ((usec / 1000 % 65536 : Nat) : Int)).length = 3 :=
      numPad_length_eq (usec / 1000 % 65536) rfl (by omega) (by omega)
    simp only [List.length_append, List.length_singleton, l1, l2, l3, l4, l5, l6, l7]
  refine ⟨_, ?_, hlen⟩
  unfold timeToStr localtime
  have hyr : (breakDown (t + zone t)).year = y - 1900 := by rw [w1, v9]
  simp only
  rw [if_pos (by rw [hyr]; omega)]
  simp only [hlen]
  rw [if_pos (by omega)]

theorem year_late (l : Int) (h : 253402300800 ≤ l) : ∃ y : Nat, (yearAndDay (l / 86400)).1 = y ∧ 10000 ≤ y := by
  have hd : 2932897 ≤ l / 86400 := by omega
  generalize l / 86400 = days at hd
  have key : 10000 ≤ (yearAndDay days).1 := by
    unfold yearAndDay
    simp only
    generalize hn : days + 719162 = n
    have hb : min 3 (n % 146097 / 36524) = 3 ∧ 3 * 36524 ≤ n % 146097 ∨
        min 3 (n % 146097 / 36524) = n % 146097 / 36524 ∧ n % 146097 < 3 * 36524 := by omega
    generalize min 3 (n % 146097 / 36524) = b at *
    generalize hr1 : n % 146097 - 36524 * b = r1 at *
    have hr1b : 0 ≤ r1 ∧ 0 ≤ b := by omega
    have he : min 3 (r1 % 1461 / 365) = 3 ∧ 1095 ≤ r1 % 1461 ∨
        min 3 (r1 % 1461 / 365) = r1 % 1461 / 365 ∧ r1 % 1461 < 1095 := by omega
    generalize min 3 (r1 % 1461 / 365) = e at *
    generalize hr2 : r1 % 1461 = r2 at *
    generalize hq : r1 / 1461 = c at *
    generalize ha : n / 146097 = a at *
    have : 0 ≤ c ∧ 0 ≤ e := by omega
    by_cases h25 : 25 ≤ a
    · omega
    · have ha24 : a = 24 := by omega
      have hb3 : b = 3 := by omega
      have hc24 : c = 24 := by omega
      omega
  exact ⟨(yearAndDay days).1.toNat, by omega, by omega⟩

/-- The precondition of `C55_stamp` is sharp: from year 10000 on the time stamp overruns its buffer. -/
theorem C55_stamp_overrun (zone : Zone) (t : Int) (usec : Nat) (h : 253402300800 ≤ t + zone t) :
    timeToStr zone 25 t usec = .ub := by
  obtain ⟨y, hy, hy1⟩ := year_late _ h
  have hyr : (breakDown (t + zone t)).year + 1900 = y := by
    have : (breakDown (t + zone t)).year = (yearAndDay ((t + zone t) / 86400)).1 - 1900 := rfl
    omega
  have hlen : ¬ (stampText (breakDown (t + zone t)) (usec / 1000 % 65536)).length + 1 ≤ 25 := by
    have l1 : 4 < (numPad 4 ((breakDown (t + zone t)).year + 1900)).length := numPad_length_gt y hyr hy1
    have l2 := numPad_length_ge 2 ((breakDown (t + zone t)).mon + 1)
    have l3 := numPad_length_ge 2 (breakDown (t + zone t)).mday
    have l4 := numPad_length_ge 2 (breakDown (t + zone t)).hour
    have l5 := numPad_length_ge 2 (breakDown (t + zone t)).min
    have l6 := numPad_length_ge 2 (breakDown (t + zone t)).sec
    have l7 := numPad_length_ge 3 ((usec / 1000 % 65536 : Nat) : Int)
    unfold stampText
    simp only [List.length_append, List.length_singleton]
    omega
  unfold timeToStr localtime
  generalize breakDown (t + zone t) = tm at hlen
  simp only
  by_cases hr : -2147483648 ≤ tm.year ∧ tm.year ≤ 2147483647
  · rw [if_pos hr]
    simp only
    rw [if_neg hlen]
  · rw [if_neg hr]

/-- **C55** (no undefined behaviour): the five levels of log.h and times before year 10000 are logged without undefined
behaviour, whatever the settings. -/
theorem C55_defined (zone : Zone) (L : Settings) (m : Msg) (hl : m.level < 5) (ht : InYears (m.time + zone m.time))
    (hu : m.usec < 1000000) : ∃ acts, logMsg zone L m = .ok acts := by
  obtain ⟨stamp, hs, -⟩ := C55_stamp zone m.time m.usec ht hu
  have hl' : m.level.toNat < 5 := by rw [UInt8.lt_iff_toNat_lt] at hl; exact hl
  have hm : ∃ pre, metaText L m stamp = .ok pre := by
    unfold metaText
    have h1 : levelNames[m.level.toNat]? = some (levelNames[m.level.toNat]'hl') := List.getElem?_eq_getElem hl'
    have h2 : levelColors[m.level.toNat]? = some (levelColors[m.level.toNat]'hl') := List.getElem?_eq_getElem hl'
    rw [h1, h2]
    split
    · simp only
      split <;> exact ⟨_, rfl⟩
    · exact ⟨_, rfl⟩
  obtain ⟨pre, hm⟩ := hm
  have hp : ∃ out, printTo L m stamp = .ok out := by
    unfold printTo
    rw [hm]
    exact ⟨_, rfl⟩
  obtain ⟨out, hp⟩ := hp
  unfold logMsg
  split
  · exact ⟨_, rfl⟩
  · rw [hs, bind'_ok]
    split
    · exact ⟨_, rfl⟩
    · rw [hp]
      exact ⟨_, rfl⟩

/-- The level precondition of `C55_defined` is sharp: with meta data a level without a name that is shown reads past the
array of names. -/
theorem C55_level_overrun (zone : Zone) (L : Settings) (m : Msg) (hl : 5 ≤ m.level) (hm : L.meta_ = true) (hs : Shown L m)
    : logMsg zone L m = .ub := by
  unfold logMsg
  rw [shown_passes hs, if_neg (by decide), hs.1]
  cases timeToStr zone 25 m.time m.usec with
  | ub => rfl
  | ok stamp =>
    rw [bind'_ok, if_neg (by decide)]
    unfold printTo metaText
    have hl' : 5 ≤ m.level.toNat := by rw [UInt8.le_iff_toNat_le] at hl; exact hl
    have : levelNames[m.level.toNat]? = none := List.getElem?_eq_none hl'
    rw [hm, this]
    rfl

/-- The digits of a number hold no newline. -/
theorem natDec_no_newline : ∀ n, (10 : UInt8) ∉ natDec n := by
  intro n
  induction n using Nat.strongRecOn with
  | _ n ih =>
    have hd : ∀ k, k < 10 → dig k ≠ 10 := by decide
    rw [natDec]
    split
    · rename_i h
      simp only [List.mem_singleton]
      exact fun e => hd n h e.symm
    · simp only [List.mem_append, List.mem_singleton, not_or]
      exact ⟨ih _ (by omega), fun e => hd (n % 10) (by omega) e.symm⟩

theorem numPad_no_newline (w : Nat) (v : Int) : (10 : UInt8) ∉ numPad w v := by
  unfold numPad
  simp only [List.mem_append, not_or]
  refine ⟨⟨?_, ?_⟩, natDec_no_newline _⟩
  · split <;> decide
  · intro h
    exact absurd (List.eq_of_mem_replicate h) (by decide)

theorem stamp_no_newline {zone : Zone} {size : Nat} {t : Int} {usec : Nat} {s : Bytes}
    (h : timeToStr zone size t usec = .ok s) : (10 : UInt8) ∉ s := by
  unfold timeToStr at h
  split at h
  · cases h
  · dsimp only at h
    split at h
    · injection h with h
      subst h
      unfold stampText
      simp [numPad_no_newline]
    · cases h

/-- **C55** (one line for each message): a message that is shown writes one line, which ends with its text; nothing but
its own text, file name and error text can add a newline. -/
theorem C55_line (zone : Zone) (L : Settings) (m : Msg) (acts : List Action) (h : logMsg zone L m = .ok acts)
    (hs : Shown L m) (h1 : (10 : UInt8) ∉ m.text) (h2 : (10 : UInt8) ∉ m.file) (h3 : (10 : UInt8) ∉ m.errText) :
    ∃ pre, textOf zone L m = pre ++ m.text ++ [10] ∧ (10 : UInt8) ∉ pre := by
  rcases logMsg_cases h with ⟨hn, -⟩ | ⟨-, -, -, stamp, hst, hp⟩
  · exact absurd hs hn
  · obtain ⟨pre, hm, ho⟩ := printTo_ok hp
    refine ⟨_, ho, ?_⟩
    have hst' := stamp_no_newline hst
    have herr : (10 : UInt8) ∉ errorText m := by
      unfold errorText
      split
      · have hno : (10 : UInt8) ∉ str "[" ++ m.errText ++ str "(" ++ decimal m.err ++ str ")]" := by
          simp only [List.mem_append, not_or]
          exact ⟨⟨⟨⟨by decide, h3⟩, by decide⟩, natDec_no_newline _⟩, by decide⟩
        exact fun hc => hno (List.mem_of_mem_take hc)
      · exact fun h => by cases h
    simp only [List.mem_append, not_or]
    constructor
    · unfold metaText at hm
      split at hm
      · split at hm
        · rename_i name color hn hc
          have hname : (10 : UInt8) ∉ pad5 name := by
            have : ∀ x ∈ levelNames, (10 : UInt8) ∉ pad5 x := by decide
            exact this _ (List.mem_of_getElem? hn)
          have hcolor : (10 : UInt8) ∉ color := by
            have : ∀ x ∈ levelColors, (10 : UInt8) ∉ x := by decide
            exact this _ (List.mem_of_getElem? hc)
          split at hm <;> injection hm with hm <;> subst hm <;>
            simp only [List.mem_append, List.mem_cons, not_or]
          all_goals repeat' (first | assumption | exact natDec_no_newline _ | decide | apply And.intro)
        · cases hm
      · injection hm with hm
        subst hm
        exact fun h => by cases h
    · split
      · simp only [List.mem_append, not_or]
        exact ⟨⟨by decide, h3⟩, by decide⟩
      · exact fun h => by cases h

/-! ## Non-vacuity, and the part of the lock -/

/-- A message of level INFO. -/
def sampleMsg (level : UInt8) (text : Bytes) : Msg := ⟨level, str "a.c", 7, false, 0, [], text, 1700000000, 123456⟩

/-- The settings of `main` with `-d` (without colours), with and without the lock function. -/
def sampleSettings (lock : Bool) : Settings := ⟨lock, 2, false, true, false⟩

example : textOf (fun _ => 0) (sampleSettings true) (sampleMsg 2 (str "hello")) =
      str "2023-11-14 22:13:20.123  INFO  a.c:7: hello" ++ [10] ∧
    textOf (fun _ => 0) { defaults with quiet := true } (sampleMsg 4 (str "hello")) = [] ∧
    textOf (fun _ => 0) (sampleSettings true) (sampleMsg 1 (str "hello")) = [] ∧
    textOf (fun _ => 0) (sampleSettings true) { sampleMsg 4 (str "x") with err := 2, errText := str "No such file or directory" } =
      str "2023-11-14 22:13:20.123  ERROR[No such file or directory(2) a.c:7: [No such file or directory] x" ++ [10] := by
  decide +kernel

/-- Without the lock function two messages can be interleaved: the hypothesis `L.lock = true` is needed. -/
theorem C55_lock_needed : ∃ (msgs : Nat → List Msg) (prog : Nat → List Action) (s : State),
    (∀ i, logMsgs (fun _ => 0) { sampleSettings false with meta_ := false } (msgs i) = .ok (prog i)) ∧ Reach prog s ∧
    (∀ i, s.todo i = []) ∧ s.out = str "ab" ++ [10, 10] := by
  let prog : Nat → List Action := fun i =>
    if i = 0 then [.write 97, .write 10] else if i = 1 then [.write 98, .write 10] else []
  refine ⟨fun i => if i = 0 then [sampleMsg 2 (str "a")] else if i = 1 then [sampleMsg 2 (str "b")] else [], prog,
    ⟨none, fun _ => [], str "ab" ++ [10, 10]⟩, fun i => ?_, ?_, fun _ => rfl, rfl⟩
  · by_cases h0 : i = 0
    · subst h0; decide +kernel
    · by_cases h1 : i = 1
      · subst h1; decide +kernel
      · simp [h0, h1, prog, logMsgs]
  · have h0 : Reach prog ⟨none, prog, []⟩ := .init
    have h1 := Reach.step h0 (.write (i := 0) (c := 97) (r := [.write 10]) rfl)
    have h2 := Reach.step h1 (.write (i := 1) (c := 98) (r := [.write 10]) rfl)
    have h3 := Reach.step h2 (.write (i := 1) (c := 10) (r := []) rfl)
    have h4 := Reach.step h3 (.write (i := 0) (c := 10) (r := []) rfl)
    have he : State.put ⟨none, State.put ⟨none, State.put ⟨none, State.put ⟨none, prog, []⟩ 0 [.write 10],
        [] ++ [97]⟩ 1 [.write 10], [] ++ [97] ++ [98]⟩ 1 [], [] ++ [97] ++ [98] ++ [10]⟩ 0 [] = fun _ => [] := by
      funext i
      simp only [State.put, prog]
      by_cases h0 : i = 0
      · simp [h0]
      · by_cases h1 : i = 1
        · simp [h1]
        · simp [h0, h1]
    rw [he] at h4
    exact h4

/-- Non-vacuity of the theorems on schedules: two threads with one message each, both done, second thread first. -/
example : ∃ (msgs : Nat → List Msg) (prog : Nat → List Action) (s : State),
    (∀ i, logMsgs (fun _ => 0) { sampleSettings true with meta_ := false } (msgs i) = .ok (prog i)) ∧ Reach prog s ∧
    (∀ i, s.todo i = []) ∧ s.out = str "b" ++ [10] ++ str "a" ++ [10] := by
  let prog : Nat → List Action := fun i =>
    if i = 0 then [.lock, .write 97, .write 10, .unlock] else if i = 1 then [.lock, .write 98, .write 10, .unlock] else []
  refine ⟨fun i => if i = 0 then [sampleMsg 2 (str "a")] else if i = 1 then [sampleMsg 2 (str "b")] else [], prog, ?_⟩
  have h0 : Reach prog ⟨none, prog, []⟩ := .init
  have h1 := Reach.step h0 (.lock (i := 1) (r := [.write 98, .write 10, .unlock]) rfl rfl)
  have h2 := Reach.step h1 (.write (i := 1) (c := 98) (r := [.write 10, .unlock]) rfl)
  have h3 := Reach.step h2 (.write (i := 1) (c := 10) (r := [.unlock]) rfl)
  have h4 := Reach.step h3 (.unlock (i := 1) (r := []) rfl rfl)
  have h5 := Reach.step h4 (.lock (i := 0) (r := [.write 97, .write 10, .unlock]) rfl rfl)
  have h6 := Reach.step h5 (.write (i := 0) (c := 97) (r := [.write 10, .unlock]) rfl)
  have h7 := Reach.step h6 (.write (i := 0) (c := 10) (r := [.unlock]) rfl)
  have h8 := Reach.step h7 (.unlock (i := 0) (r := []) rfl rfl)
  refine ⟨_, fun i => ?_, h8, fun i => ?_, rfl⟩
  · by_cases h0 : i = 0
    · subst h0; decide +kernel
    · by_cases h1 : i = 1
      · subst h1; decide +kernel
      · simp [h0, h1, prog, logMsgs]
  · simp only [State.put, prog]
    by_cases h0 : i = 0
    · simp [h0]
    · by_cases h1 : i = 1
      · simp [h1]
      · simp [h0, h1]

end Brski.Props
