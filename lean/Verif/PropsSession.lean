import Verif.Session

/-!
# C129-C131: what a connection leaves behind in a server, and how long it can last
-/

namespace Brski.Props

open Session

/-! ## Specification -/

/-- The life of a session: not created, created, usable, freed. -/
inductive Stage where
  | absent
  | created
  | usable
  | freed
deriving Repr, DecidableEq

/-- What has to be known to judge what a connection does next. -/
structure Held where
  locked : Bool
  stage : Stage
  blocking : Bool
  shut : Bool
  closed : Bool
deriving Repr, DecidableEq

/-- What may happen: the mutex is taken by nobody who has it; sessions are created and freed under it and used without it; a session
is created once, used between its creation and its release only, and freed once; requests are handled on a blocking socket when the
handshake is complete; the socket is shut and closed when there is no session any more, and not used afterwards. -/
def follow (t : Held) : Session.Ev → Option Held
  | .lock => if t.locked = false ∧ t.closed = false then some { t with locked := true } else none
  | .unlock => if t.locked then some { t with locked := false } else none
  | .create => if t.locked ∧ t.stage = .absent then some { t with stage := .created } else none
  | .free => if t.locked ∧ (t.stage = .created ∨ t.stage = .usable) then some { t with stage := .freed } else none
  | .nonblocking on => if t.shut = false then some { t with blocking := !on } else none
  | .accept complete =>
    if t.locked = false ∧ t.stage = .created then some { t with stage := if complete then .usable else .created } else none
  | .wait => if t.locked = false ∧ t.stage = .created ∧ t.blocking = false then some t else none
  | .goodbye => if t.locked = false ∧ (t.stage = .created ∨ t.stage = .usable) then some t else none
  | .request => if t.locked = false ∧ t.stage = .usable ∧ t.blocking then some t else none
  | .shut =>
    if t.locked = false ∧ (t.stage = .absent ∨ t.stage = .freed) ∧ t.shut = false then some { t with shut := true } else none
  | .close => if t.shut ∧ t.closed = false then some { t with closed := true } else none

/-- What is allowed, one event after another. -/
def followAll (t : Held) : List Session.Ev → Option Held
  | [] => some t
  | e :: es => (follow t e).bind fun t => followAll t es

/-- A connection that was accepted: no session, a blocking socket. -/
def justAccepted : Held := ⟨false, .absent, true, false, false⟩

/-- A connection behaves and leaves nothing behind: in the end the mutex is free, the session, if there was one, is freed, and the
socket is closed. -/
def LeavesNothing (es : List Session.Ev) : Prop :=
  ∃ t, followAll justAccepted es = some t ∧ t.locked = false ∧ (t.stage = .absent ∨ t.stage = .freed) ∧ t.closed = true

/-- Each wait ends after five seconds at the latest. -/
def InTime (ss : List Shake) : Prop :=
  ∀ s ∈ ss, ∀ ready ms, s = .wantRead ready ms ∨ s = .wantWrite ready ms → ms ≤ 5000

/-- The client did something before the wait ended. -/
def active : Shake → Bool
  | .wantRead ready _ => ready > 0
  | .wantWrite ready _ => ready > 0
  | _ => false

/-- **C130** as stated: the handshake is over after five seconds. -/
def C130_statement : Prop := ∀ C : Session.Client, InTime C.shakes → (sslNew C).2.2 ≤ 5000

/-! ## C129 -/

theorem followAll_append (a b : List Session.Ev) (t : Held) : followAll t (a ++ b) = (followAll t a).bind fun t => followAll t b := by
  induction a generalizing t with
  | nil => rfl
  | cons e a ih =>
    simp only [List.cons_append, followAll]
    cases follow t e with
    | none => rfl
    | some t => exact ih t

theorem handshake_follows (ss : List Shake) :
    followAll ⟨false, .created, false, false, false⟩ (handshake ss).2.1 =
      some ⟨false, if (handshake ss).1 then .usable else .created, false, false, false⟩ := by
  induction ss with
  | nil => simp [handshake, followAll, follow]
  | cons s ss ih =>
    cases s <;> simp only [handshake]
    · simp [followAll, follow]
    · split
      · simpa [followAll, follow] using ih
      · simp [followAll, follow]
    · split
      · simpa [followAll, follow] using ih
      · simp [followAll, follow]
    · simp [followAll, follow]

theorem serve_follows (n : Nat) (ret : Bool) (ts : List Turn) :
    followAll ⟨false, .usable, true, false, false⟩ (serve n ret ts).2.1 = some ⟨false, .usable, true, false, false⟩ := by
  induction n generalizing ret ts with
  | zero => simp [serve, followAll]
  | succ n ih =>
    cases ts with
    | nil => simp [serve, followAll]
    | cons t ts =>
      simp only [serve]
      repeat' split
      all_goals simp [followAll, follow, ih]

/-- **C129**: whatever the client does, a connection behaves and leaves nothing behind. -/
theorem C129_main (C : Session.Client) : LeavesNothing (Session.process C).2.1 := by
  simp only [Session.process, sslNew, sslDelete]
  cases C.session with
  | false => exact ⟨⟨false, .absent, true, true, true⟩, by simp [followAll, follow, justAccepted], rfl, .inl rfl, rfl⟩
  | true =>
    have hh := handshake_follows C.shakes
    have hs := serve_follows 5 false C.turns
    cases hb : (handshake C.shakes).1 with
    | false =>
      rw [hb] at hh
      refine ⟨⟨false, .freed, true, true, true⟩, ?_, rfl, .inr rfl, rfl⟩
      simp [followAll_append, followAll, follow, justAccepted, hh]
    | true =>
      rw [hb] at hh
      refine ⟨⟨false, .freed, true, true, true⟩, ?_, rfl, .inr rfl, rfl⟩
      cases (serve 5 false C.turns).1 <;> simp [followAll_append, followAll, follow, justAccepted, hh, hs]

/-- What `LeavesNothing` says about the counts: one socket closed, as many sessions freed as created, at most one. -/
theorem C129_counts (C : Session.Client) : (Session.process C).2.1.count .close = 1 ∧
    (Session.process C).2.1.count .create = (Session.process C).2.1.count .free ∧ (Session.process C).2.1.count .create ≤ 1 ∧
    (Session.process C).2.1.getLast? = some .close := by
  have key : ∀ (es : List Session.Ev) (t t' : Held), followAll t es = some t' →
      es.count .close + (if t.closed then 1 else 0) = (if t'.closed then 1 else 0) ∧
      es.count .create + (if t.stage = .absent then 0 else 1) = (if t'.stage = .absent then 0 else 1) ∧
      es.count .free + (if t.stage = .freed then 1 else 0) = (if t'.stage = .freed then 1 else 0) := by
    intro es
    induction es with
    | nil => intro t t' h; cases h; simp
    | cons e es ih =>
      intro t t' h
      simp only [followAll] at h
      cases hf : follow t e with
      | none => rw [hf] at h; cases h
      | some t1 =>
        rw [hf] at h
        obtain ⟨a, b, c⟩ := ih t1 t' h
        obtain ⟨l, st, bl, sh, cl⟩ := t
        rw [← a, ← b, ← c]
        cases e <;> simp only [follow] at hf <;> (repeat' split at hf) <;> cases hf <;> simp_all
        rename_i hc
        rcases hc.2 with rfl | rfl <;> simp [b]
  obtain ⟨t, h, h1, h2, h3⟩ := C129_main C
  obtain ⟨a, b, c⟩ := key _ _ _ h
  refine ⟨?_, ?_, ?_, ?_⟩
  · simpa [justAccepted, h3] using a
  · rcases h2 with h2 | h2 <;> simp_all [justAccepted]
  · rcases h2 with h2 | h2 <;> simp_all [justAccepted]
  · simp only [Session.process]
    split <;> simp

/-- Requests are handled only after a complete handshake. -/
theorem C129_shaken (C : Session.Client) (h : .request ∈ (Session.process C).2.1) : .accept true ∈ (Session.process C).2.1 := by
  have hno : ∀ ss, Session.Ev.request ∉ (handshake ss).2.1 := by
    intro ss
    induction ss with
    | nil => simp [handshake]
    | cons s ss ih => cases s <;> simp only [handshake] <;> (repeat' split) <;> simp [ih]
  have hyes : ∀ ss, (handshake ss).1 = true → Session.Ev.accept true ∈ (handshake ss).2.1 := by
    intro ss
    induction ss with
    | nil => simp [handshake]
    | cons s ss ih => cases s <;> simp only [handshake] <;> (repeat' split) <;> simp_all
  have hn := hno C.shakes
  have hy := hyes C.shakes
  simp only [Session.process, sslNew, sslDelete] at h ⊢
  repeat' split at h
  all_goals simp_all

/-! ## C130 -/

/-- **C130**, as far as it goes: five seconds, and five more for each wait that the client ended by sending or taking something. -/
theorem C130_partial {C : Session.Client} (h : InTime C.shakes) : (sslNew C).2.2 ≤ 5000 * (C.shakes.countP active + 1) := by
  have key : ∀ ss, InTime ss → (handshake ss).2.2 ≤ 5000 * (ss.countP active + 1) := by
    intro ss
    induction ss with
    | nil => simp [handshake]
    | cons s ss ih =>
      intro h
      have ih := ih fun x hx => h x (List.mem_cons_of_mem _ hx)
      have h0 := h s (by simp)
      cases s with
      | complete => simp [handshake]
      | failed => simp [handshake]
      | wantRead r ms | wantWrite r ms =>
        have h0 := h0 r ms (by simp)
        simp only [handshake]
        split
        · rename_i hr
          rw [List.countP_cons_of_pos (by simpa [active] using hr)]
          simp only
          omega
        · rw [List.countP_cons_of_neg (by simpa [active] using ‹¬ r > 0›)]
          simp only
          omega
  simp only [sslNew]
  repeat' split
  all_goals first | exact key _ h | simp

/-- The client that sends something every five seconds: `k` waits, and the handshake complete in the end. -/
def slow (k : Nat) : Session.Client := ⟨true, List.replicate k (.wantRead 1 4999) ++ [.complete], []⟩

/-- No time is enough: for every time there is a client that takes longer, with every wait in time, and that is served then. -/
theorem C130_unbounded (T : Nat) : ∃ C : Session.Client, InTime C.shakes ∧ T ≤ (sslNew C).2.2 ∧ (sslNew C).1 = true := by
  have key : ∀ k, (handshake (List.replicate k (.wantRead 1 4999) ++ [.complete])).1 = true ∧
      (handshake (List.replicate k (.wantRead 1 4999) ++ [.complete])).2.2 = 4999 * k := by
    intro k
    induction k with
    | zero => simp [handshake]
    | succ k ih =>
      simp only [List.replicate_succ, List.cons_append, handshake]
      rw [if_pos (by decide)]
      exact ⟨ih.1, by simp only [ih.2]; omega⟩
  refine ⟨slow T, ?_, ?_, ?_⟩
  · intro s hs r ms hr
    simp only [slow, List.mem_append, List.mem_replicate, List.mem_singleton] at hs
    rcases hs with ⟨_, rfl⟩ | rfl
    · rcases hr with hr | hr <;> cases hr
      decide
    · rcases hr with hr | hr <;> cases hr
  · simp only [sslNew, slow, (key T).1, (key T).2, if_true]
    omega
  · simp [sslNew, slow, (key T).1]

/-- **C130** is violated. -/
theorem C130_violated : ¬ C130_statement := by
  intro h
  obtain ⟨C, hC, hT, _⟩ := C130_unbounded 5001
  have := h C hC
  omega

/-! ## C131 -/

/-- **C131**: `keep_alive` finds a request if and only if something arrives before five seconds without it are over and before an
error. -/
theorem C131_exact (ps : List (Int × Nat)) : (keepAlive 0 ps).1 = true ↔
    ∃ a v ms b, ps = a ++ (v, ms) :: b ∧ 0 < v ∧ (∀ p ∈ a, p.1 = 0) ∧ (a.map Prod.snd).sum ≤ 5000 := by
  have key : ∀ (ps : List (Int × Nat)) (k : Nat), k ≤ 5000 → ((keepAlive k ps).1 = true ↔
      ∃ a v ms b, ps = a ++ (v, ms) :: b ∧ 0 < v ∧ (∀ p ∈ a, p.1 = 0) ∧ k + (a.map Prod.snd).sum ≤ 5000) := by
    intro ps
    induction ps with
    | nil => intro k hk; simp [keepAlive]
    | cons p ps ih =>
      intro k hk
      obtain ⟨val, ms⟩ := p
      simp only [keepAlive]
      by_cases h1 : val < 0
      · rw [if_pos h1]
        simp only [Bool.false_eq_true, false_iff]
        rintro ⟨a, v, m, b, he, hv, ha, _⟩
        cases a with
        | nil => cases he; omega
        | cons q a => cases he; have := ha _ List.mem_cons_self; simp only at this; omega
      · rw [if_neg h1]
        by_cases h2 : val = 0
        · rw [if_pos h2]
          subst h2
          by_cases h3 : k + ms > 5 * 1000
          · rw [if_pos h3]
            simp only [Bool.false_eq_true, false_iff]
            rintro ⟨a, v, m, b, he, hv, ha, hs⟩
            cases a with
            | nil => cases he; omega
            | cons q a => cases he; simp only [List.map_cons, List.sum_cons] at hs; omega
          · rw [if_neg h3, ih (k + ms) (by omega)]
            constructor
            · rintro ⟨a, v, m, b, rfl, hv, ha, hs⟩
              refine ⟨(0, ms) :: a, v, m, b, rfl, hv, ?_, ?_⟩
              · intro p hp
                rcases List.mem_cons.1 hp with rfl | hp
                · rfl
                · exact ha p hp
              · simp only [List.map_cons, List.sum_cons]; omega
            · rintro ⟨a, v, m, b, he, hv, ha, hs⟩
              cases a with
              | nil => cases he; omega
              | cons q a =>
                cases he
                refine ⟨a, v, m, b, rfl, hv, fun p hp => ha p (List.mem_cons_of_mem _ hp), ?_⟩
                simp only [List.map_cons, List.sum_cons] at hs
                omega
        · rw [if_neg h2]
          simp only [true_iff]
          exact ⟨[], val, ms, ps, rfl, by omega, by simp, by simpa using hk⟩
  simpa using key ps 0 (by omega)

theorem keepAlive_time {d : Nat} (ps : List (Int × Nat)) (h : ∀ p ∈ ps, p.2 ≤ d) (k : Nat) (hk : k ≤ 5000) :
    (keepAlive k ps).2 ≤ 5000 + d := by
  induction ps generalizing k with
  | nil => simp only [keepAlive]; omega
  | cons p ps ih =>
    obtain ⟨val, ms⟩ := p
    have hm : ms ≤ d := h (val, ms) (by simp)
    simp only [keepAlive]
    repeat' split
    all_goals first
      | (simp only; omega)
      | exact ih (fun p hp => h p (List.mem_cons_of_mem _ hp)) _ (by omega)

/-- **C131**: at most five requests; if each look for the next one takes at most `d` and each request at most `r`, the connection is
over after the handshake and five times the five seconds, one look and one request. -/
theorem C131_main {C : Session.Client} {d r : Nat} (hd : ∀ t ∈ C.turns, ∀ p ∈ t.polls, p.2 ≤ d) (hr : ∀ t ∈ C.turns, t.ms ≤ r) :
    (Session.process C).2.1.count .request ≤ 5 ∧ (Session.process C).2.2 ≤ (sslNew C).2.2 + 5 * (5000 + d + r) := by
  have hno : ∀ ss, (handshake ss).2.1.count .request = 0 := by
    intro ss
    induction ss with
    | nil => simp [handshake]
    | cons s ss ih => cases s <;> simp only [handshake] <;> (repeat' split) <;> simp [ih]
  have key : ∀ (n : Nat) (ret : Bool) (ts : List Turn), (∀ t ∈ ts, ∀ p ∈ t.polls, p.2 ≤ d) → (∀ t ∈ ts, t.ms ≤ r) →
      (serve n ret ts).2.1.count .request ≤ n ∧ (serve n ret ts).2.2 ≤ n * (5000 + d + r) := by
    intro n
    induction n with
    | zero => intro ret ts _ _; simp [serve]
    | succ n ih =>
      intro ret ts hd hr
      cases ts with
      | nil => simp [serve]
      | cons t ts =>
        have h1 := keepAlive_time t.polls (hd t (by simp)) 0 (by omega)
        have h2 := hr t (by simp)
        have h3 := ih t.ret ts (fun x hx => hd x (List.mem_cons_of_mem _ hx)) (fun x hx => hr x (List.mem_cons_of_mem _ hx))
        have h4 : (n + 1) * (5000 + d + r) = n * (5000 + d + r) + (5000 + d + r) := Nat.succ_mul _ _
        have h5 := Nat.zero_le (n * (5000 + d + r))
        simp only [serve]
        repeat' split
        all_goals simp
        all_goals omega
  have h := key 5 false C.turns hd hr
  have hn := hno C.shakes
  have hnew : (sslNew C).2.1.count .request = 0 := by
    simp only [sslNew]
    repeat' split
    all_goals simp [List.count_cons, hn]
  have hdel : ∀ b, (sslDelete b).count .request = 0 := by intro b; cases b <;> decide
  simp only [Session.process]
  split
  · simp [List.count_cons, hnew, hdel]
    omega
  · simp [List.count_cons, hnew]

/-- **C131**: when the listening socket is closed before request `i`, no further request is handled. -/
theorem C131_stopped {C : Session.Client} {i : Nat} {t : Turn} (ht : C.turns[i]? = some t) (hv : t.valid = false) :
    (Session.process C).2.1.count .request ≤ i := by
  have hno : ∀ ss, (handshake ss).2.1.count .request = 0 := by
    intro ss
    induction ss with
    | nil => simp [handshake]
    | cons s ss ih => cases s <;> simp only [handshake] <;> (repeat' split) <;> simp [ih]
  have key : ∀ (n : Nat) (ret : Bool) (ts : List Turn) (i : Nat), ts[i]? = some t →
      (serve n ret ts).2.1.count .request ≤ i := by
    intro n
    induction n with
    | zero => intro ret ts i _; simp [serve]
    | succ n ih =>
      intro ret ts i hi
      cases ts with
      | nil => simp [serve]
      | cons u ts =>
        cases i with
        | zero =>
          simp only [List.getElem?_cons_zero, Option.some.injEq] at hi
          subst hi
          simp [serve, hv]
        | succ i =>
          have h3 := ih u.ret ts i (by simpa using hi)
          simp only [serve]
          repeat' split
          all_goals simp
          all_goals omega
  have h := key 5 false C.turns i ht
  have hn := hno C.shakes
  have hnew : (sslNew C).2.1.count .request = 0 := by
    simp only [sslNew]
    repeat' split
    all_goals simp [List.count_cons, hn]
  have hdel : ∀ b, (sslDelete b).count .request = 0 := by intro b; cases b <;> decide
  simp only [Session.process]
  split
  · simp [List.count_cons, hnew, hdel]
    omega
  · simp [List.count_cons, hnew]

/-! ## Cases -/

/-- A client with two requests on a connection: the handshake needs two waits, the second request comes after 20 milliseconds, then
the client is silent. -/
def twoOnOne : Session.Client :=
  ⟨true, [.wantRead 1 3, .wantRead 1 4, .complete],
    [⟨true, [(1, 0)], true, false, 7⟩, ⟨true, [(0, 11), (1, 9)], true, false, 6⟩, ⟨true, List.replicate 500 (0, 11), true, false, 5⟩]⟩

example : (Session.process twoOnOne).2.1 = [.lock, .create, .unlock, .nonblocking true, .accept false, .wait, .accept false, .wait,
    .accept true, .nonblocking false, .request, .request, .goodbye, .lock, .free, .unlock, .shut, .close] := by decide +kernel
example : (Session.process twoOnOne).2.2 = 7 + 7 + 20 + 6 + 5005 := by decide +kernel
example : InTime twoOnOne.shakes := by
  intro s hs r ms hr
  simp only [twoOnOne, List.mem_cons, List.not_mem_nil, or_false] at hs
  rcases hs with rfl | rfl | rfl <;> rcases hr with hr | hr <;> cases hr <;> decide
example : (∀ t ∈ twoOnOne.turns, ∀ p ∈ t.polls, p.2 ≤ 11) ∧ (∀ t ∈ twoOnOne.turns, t.ms ≤ 7) := by decide +kernel

/-- The handshake fails: the session is freed, no request is handled. -/
example : (Session.process ⟨true, [.wantRead 0 5000], []⟩).2.1 = [.lock, .create, .unlock, .nonblocking true, .accept false, .wait,
    .goodbye, .lock, .free, .unlock, .nonblocking false, .shut, .close] := by decide
/-- The server is stopped after the first request. -/
example : [⟨true, [(1, 0)], true, false, 7⟩, ⟨false, [(1, 0)], true, false, 7⟩][1]? = some (⟨false, [(1, 0)], true, false, 7⟩ : Turn) ∧
    (Session.process ⟨true, [.complete], [⟨true, [(1, 0)], true, false, 7⟩, ⟨false, [(1, 0)], true, false, 7⟩]⟩).2.1.count .request =
      1 := by decide

end Brski.Props
