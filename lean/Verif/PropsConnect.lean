import Verif.Connect

/-!
# C121 to C125: opening sockets
-/

namespace Brski.Props

open Outcome Connect

/-! ## Specification -/

/-- A record of the descriptors of the process and of whether the list of addresses is held.  `none`: something is opened that is open,
or used or released that is not held. -/
def account : List Nat × Bool → List Connect.Ev → Option (List Nat × Bool)
  | st, [] => some st
  | (o, l), .resolved :: es => if l then none else account (o, true) es
  | (o, l), .addr :: es => if l then account (o, l) es else none
  | (o, l), .released :: es => if l then account (o, false) es else none
  | (o, l), .opened fd :: es => if fd ∈ o then none else account (fd :: o, l) es
  | (o, l), .used fd :: es => if fd ∈ o then account (o, l) es else none
  | (o, l), .closed fd :: es => if fd ∈ o then account (o.erase fd, l) es else none

/-- The system gives descriptors that are not open. -/
def NewIn {α : Type} (o : List Nat) (l : List (Addr α)) : Prop := ∀ a ∈ l, ∀ fd, a.sock = some fd → fd ∉ o

/-- The other side accepts the connection within the limit, whatever signals arrive meanwhile. -/
def acceptsIn (limit : Nat) : Meets → Prop
  | .done => True
  | .refused => False
  | .pending w => w.fails = false ∧ w.soError = some 0 ∧ ∃ d, w.ready = some d ∧ w.interrupted.sum + d ≤ limit

/-- A socket can be had for the address, and the other side accepts the connection. -/
def Reachable (limit : Nat) (a : Addr Meets) : Prop := a.sock.isSome ∧ a.cloexec = true ∧ acceptsIn limit a.env

/-- `a` is the first element with this property. -/
def IsFirst {α : Type} (P : α → Prop) (l : List α) (a : α) : Prop := ∃ pre post, l = pre ++ a :: post ∧ P a ∧ ∀ b ∈ pre, ¬ P b

/-- **C122** as stated: a client connects to the first address at which the server accepts its connection, and fails only if there is
none. -/
def C122_statement : Prop :=
  ∀ limit l r, clientSocket limit (some l) = ok r →
    (∀ fd a, r.sock = some (fd, a) → IsFirst (Reachable limit) l a ∧ a.sock = some fd ∧ r.error = .success) ∧
    (r.sock = none → (∀ a ∈ l, ¬ Reachable limit a) ∧ r.error ≠ .success)

/-- **C123** as stated: a client is connected or gives up within the time limit for connections. -/
def C123_statement : Prop := ∀ limit l r, clientSocket limit l = ok r → r.spent ≤ limit

/-- **C124** as stated: a server does not listen where another program listens. -/
def C124_statement : Prop :=
  ∀ (β : Type) (overlap : β → β → Bool) held user l h, serve overlap held user l = ok (some h) → ∀ b ∈ held, overlap b.addr h.addr = false

/-- A client that got a connection to this address talks to the program with this socket and no other. -/
def TalksTo {β : Type} (overlap : β → β → Bool) (others : List (Holder β)) (h : Holder β) (a : β) : Prop :=
  overlap h.addr a = true ∧ ∀ b ∈ others, overlap b.addr a = false

/-- **C125** as stated: a client that looks for a server under the name under which it was started talks to this server. -/
def C125_statement : Prop :=
  ∀ (β : Type) (overlap : β → β → Bool) (held : List (Holder β)) (user limit : Nat) (l : List (Site β)) (v : List (Via β)) (h : Holder β),
    (∀ a, overlap a a = true) → v.map Via.addr = l.map Site.addr → (∀ x ∈ v, x.sock.isSome ∧ x.cloexec = true) →
    serve overlap held user (some l) = ok (some h) →
    ∃ a, reach overlap (h :: held) limit v = ok (some a) ∧ TalksTo overlap held h a

/-! ## The loop -/

theorem account_append (a : List Connect.Ev) : ∀ st b, account st (a ++ b) = (account st a).bind fun st' => account st' b := by
  induction a with
  | nil => intro st b; rfl
  | cons e a ih =>
    intro (o, l) b
    cases e <;> simp only [List.cons_append, account] <;> split <;> first | rfl | exact ih _ _

section
variable {α σ : Type} {options : Bool} {boc : σ → Nat → α → Outcome (Bool × σ × List Connect.Ev)}

/-- What `bind_or_connect` does to the descriptor is allowed while it and the list are held. -/
def Careful (boc : σ → Nat → α → Outcome (Bool × σ × List Connect.Ev)) : Prop :=
  ∀ s fd e q o, boc s fd e = ok q → fd ∈ o → account (o, true) q.2.2 = some (o, true)

theorem tries_account (hb : Careful boc) (o : List Nat) : ∀ (l : List (Addr α)) (s : σ) r, NewIn o l →
    tries options boc s l = ok r → account (o, true) r.2.2 = some ((r.1.map Prod.fst).toList ++ o, false) := by
  intro l
  induction l with
  | nil => intro s r _ h; simp only [tries] at h; cases h; simp [account]
  | cons a l ih =>
    intro s r hnew h
    have hl : NewIn o l := fun b hb => hnew b (List.mem_cons_of_mem _ hb)
    simp only [tries] at h
    split at h
    · cases ht : tries options boc s l with
      | ub => rw [ht] at h; cases h
      | ok r' =>
        rw [ht] at h
        simp only [bind_ok] at h
        cases h
        simp only [account, if_true]
        exact ih s r' hl ht
    · rename_i fd hfd
      have hfo : fd ∉ o := hnew a (by simp) fd hfd
      split at h
      · cases hq : boc s fd a.env with
        | ub => rw [hq] at h; cases h
        | ok q =>
          rw [hq] at h
          simp only [bind_ok] at h
          have hes : account (o, true) ([.addr, .opened fd, .used fd] ++ (if options then [.used fd] else []) ++
              (if a.v6 then [.used fd] else []) ++ q.2.2) = some (fd :: o, true) := by
            have h1 : account (o, true) ([.addr, .opened fd, .used fd] ++ (if options then [.used fd] else []) ++
              (if a.v6 then [.used fd] else [])) = some (fd :: o, true) := by
              cases options <;> cases a.v6 <;> simp [account, hfo]
            rw [account_append, h1]
            exact hb _ _ _ _ _ hq (by simp)
          split at h
          · cases h
            show account _ (_ ++ [Ev.released]) = _
            rw [account_append, hes]
            simp [account]
          · cases ht : tries options boc q.2.1 l with
            | ub => rw [ht] at h; cases h
            | ok r' =>
              rw [ht] at h
              simp only [bind_ok] at h
              cases h
              show account _ (_ ++ _) = _
              rw [account_append, hes]
              simp only [Option.bind_some, account, List.mem_cons, true_or, if_true, List.erase_cons_head]
              exact ih _ r' hl ht
      · cases ht : tries options boc s l with
        | ub => rw [ht] at h; cases h
        | ok r' =>
          rw [ht] at h
          simp only [bind_ok] at h
          cases h
          simp only [List.cons_append, List.nil_append, account, hfo, if_true, if_false, List.mem_cons, true_or, List.erase_cons_head]
          exact ih s r' hl ht

/-- Where the loop ends. -/
def firstOf (P : Nat → α → Bool) (l : List (Addr α)) : Option (Nat × Addr α) :=
  l.findSome? fun a => a.sock.bind fun fd => if a.cloexec && P fd a.env then some (fd, a) else none

theorem tries_first (P : Nat → α → Bool) (hP : ∀ s fd e, ∃ q, boc s fd e = ok q ∧ q.1 = P fd e) : ∀ (l : List (Addr α)) (s : σ),
    ∃ r, tries options boc s l = ok r ∧ r.1 = firstOf P l := by
  intro l
  induction l with
  | nil => exact fun s => ⟨_, rfl, rfl⟩
  | cons a l ih =>
    intro s
    simp only [tries, firstOf, List.findSome?_cons]
    split
    · rename_i hs
      obtain ⟨r, h1, h2⟩ := ih s
      rw [h1, hs]
      exact ⟨_, rfl, h2⟩
    · rename_i fd hs
      rw [hs]
      simp only [Option.bind_some]
      split
      · rename_i hc
        obtain ⟨q, hq, hp⟩ := hP s fd a.env
        rw [hq]
        simp only [bind_ok]
        rw [hp, hc]
        simp only [Bool.true_and]
        split
        · rename_i hp1
          exact ⟨_, rfl, by simp⟩
        · rename_i hp1
          obtain ⟨r, h1, h2⟩ := ih q.2.1
          rw [h1]
          exact ⟨_, rfl, by simpa [firstOf] using h2⟩
      · rename_i hc
        obtain ⟨r, h1, h2⟩ := ih s
        rw [h1]
        exact ⟨_, rfl, by simpa [hc, firstOf] using h2⟩

theorem firstOf_some {P : Nat → α → Bool} {l : List (Addr α)} {fd : Nat} {a : Addr α} (h : firstOf P l = some (fd, a)) :
    a.sock = some fd ∧ IsFirst (fun b : Addr α => ∃ f, b.sock = some f ∧ b.cloexec = true ∧ P f b.env = true) l a := by
  obtain ⟨pre, x, post, hl, hx, hpre⟩ := List.findSome?_eq_some_iff.1 h
  cases hs : x.sock with
  | none => rw [hs] at hx; cases hx
  | some f =>
    rw [hs] at hx
    simp only [Option.bind_some] at hx
    split at hx
    · rename_i hc
      cases hx
      rw [Bool.and_eq_true] at hc
      refine ⟨hs, pre, post, hl, ⟨fd, hs, hc.1, hc.2⟩, fun b hb ⟨f, h1, h2, h3⟩ => ?_⟩
      have := hpre b hb
      rw [h1] at this
      simp [h2, h3] at this
    · cases hx

theorem firstOf_none {P : Nat → α → Bool} {l : List (Addr α)} (h : firstOf P l = none) :
    ∀ b ∈ l, ¬ ∃ f, b.sock = some f ∧ b.cloexec = true ∧ P f b.env = true := by
  intro b hb ⟨f, h1, h2, h3⟩
  have := List.findSome?_eq_none_iff.1 h b hb
  rw [h1] at this
  simp [h2, h3] at this

end

theorem IsFirst.of_map {α β : Type} {f : α → β} {P : β → Prop} {l : List α} {b : β} (h : IsFirst P (l.map f) b) :
    ∃ a, f a = b ∧ IsFirst (fun x => P (f x)) l a := by
  obtain ⟨pre, post, hl, hb, hpre⟩ := h
  obtain ⟨p, q, h1, h2, h3⟩ := List.map_eq_append_iff.1 hl
  obtain ⟨a, q', h4, h5, h6⟩ := List.map_eq_cons_iff.1 h3
  refine ⟨a, h5, p, q', by rw [h1, h4], (by rw [h5]; exact hb : P (f a)), fun x hx => hpre _ ?_⟩
  rw [← h2]
  exact List.mem_map_of_mem hx

/-! ## The client -/

theorem selects_success (w : Wait) : ∀ (ds : List Nat) (left : Nat), (selects w left ds).1 = .success ↔
    w.fails = false ∧ w.soError = some 0 ∧ ∃ d, w.ready = some d ∧ ds.sum + d ≤ left := by
  intro ds
  induction ds with
  | nil =>
    intro left
    simp only [selects]
    cases w.fails with
    | true => simp
    | false =>
      cases w.ready with
      | none => simp
      | some d =>
        by_cases hd : d ≤ left
        · by_cases hs : w.soError = some 0 <;> simp [hd, hs]
        · simp [hd]
  | cons d ds ih =>
    intro left
    simp only [selects]
    split
    · rename_i hd
      rw [ih]
      simp only [List.sum_cons]
      constructor
      · rintro ⟨h1, h2, e, h3, h4⟩
        exact ⟨h1, h2, e, h3, by omega⟩
      · rintro ⟨h1, h2, e, h3, h4⟩
        exact ⟨h1, h2, e, h3, by omega⟩
    · rename_i hd
      simp only [List.sum_cons]
      constructor
      · intro h; cases h
      · rintro ⟨h1, h2, e, h3, h4⟩
        omega

theorem selects_spent (w : Wait) : ∀ (ds : List Nat) (left : Nat), (selects w left ds).2 ≤ left := by
  intro ds
  induction ds with
  | nil =>
    intro left
    simp only [selects]
    split
    · simp
    · split
      · split
        · assumption
        · simp
      · simp
  | cons d ds ih =>
    intro left
    simp only [selects]
    split
    · have := ih (left - d)
      simp only
      omega
    · simp

/-- Whether a connection is made. -/
def made (limit fd : Nat) : Meets → Bool
  | .done => true
  | .refused => false
  | .pending w => decide (fd < 1024) && decide ((selects w limit w.interrupted).1 = .success)

theorem waitReady_eq (limit fd : Nat) (w : Wait) :
    waitReady limit fd w = ok (if fd < 1024 then selects w limit w.interrupted else (.connection, 0)) := by
  unfold waitReady fdSet
  by_cases h : fd < 1024
  · simp [h, Nat.not_le.2 h]
  · simp [h, Nat.not_lt.1 h]

theorem connectTo_made (limit : Nat) (s : Err × Nat) (fd : Nat) (m : Meets) : ∃ q, connectTo limit s fd m = ok q ∧ q.1 = made limit fd m ∧
    q.2.1.2 ≤ s.2 + limit ∧ (q.1 = true → q.2.1.1 = .success) := by
  cases m with
  | done => exact ⟨_, rfl, rfl, by simp, fun _ => rfl⟩
  | refused => exact ⟨_, rfl, rfl, by simp, fun h => by cases h⟩
  | pending w =>
    simp only [connectTo, waitReady_eq, bind_ok, made]
    have hs := selects_spent w w.interrupted limit
    by_cases hfd : fd < 1024
    · rw [if_pos hfd]
      split
      · rename_i h; exact ⟨_, rfl, by simp [hfd, h], by simpa using hs, fun _ => rfl⟩
      · rename_i h; exact ⟨_, rfl, by simp [h], by simpa using hs, fun h => by cases h⟩
    · rw [if_neg hfd]
      exact ⟨_, rfl, by simp [hfd], by simp, fun h => by cases h⟩

theorem connectTo_careful (limit : Nat) : Careful (connectTo limit) := by
  intro s fd m q o h hfd
  cases m with
  | done => cases h; simp [account, hfd]
  | refused => cases h; simp [account, hfd]
  | pending w =>
    simp only [connectTo, waitReady_eq, bind_ok] at h
    generalize (if fd < 1024 then selects w limit w.interrupted else (Err.connection, 0)) = r at h
    split at h <;> cases h <;> simp [account, hfd]

theorem listenOn_careful : Careful listenOn := by
  intro s fd b q o h hfd
  unfold listenOn at h
  split at h <;> cases h <;> simp [account, hfd]

theorem clientSocket_eq (limit : Nat) (l : List (Addr Meets)) : ∃ r, clientSocket limit (some l) = ok r ∧ r.sock = firstOf (made limit) l ∧
    (r.error = .success ↔ r.sock.isSome) := by
  obtain ⟨r, h1, h2⟩ := tries_first (options := false) (boc := connectTo limit) (made limit)
    (fun s fd e => by obtain ⟨q, h, h', _⟩ := connectTo_made limit s fd e; exact ⟨q, h, h'⟩) l (.success, 0)
  simp only [clientSocket, createSocket, h1, bind_ok]
  refine ⟨_, rfl, h2, ?_⟩
  simp only
  split
  · rename_i h; simp [h]
  · rename_i h
    split
    · simp [h]
    · rename_i h'; simp [h, h']

/-- **C121**: opening a socket, to connect or to listen, never has undefined behaviour, and whatever descriptors the process has, they are
all it has afterwards, together with the one that is returned; each is closed once and used only while it is open, and the list of
addresses is released. -/
theorem C121_holds (o : List Nat) :
    (∀ limit (l : Option (List (Addr Meets))), (∀ as, l = some as → NewIn o as) → ∃ r, clientSocket limit l = ok r ∧
      account (o, false) r.events = some ((r.sock.map Prod.fst).toList ++ o, false)) ∧
    (∀ l : Option (List (Addr Binds)), (∀ as, l = some as → NewIn o as) → ∃ r, serverSocket l = ok r ∧
      account (o, false) r.2 = some ((r.1.map Prod.fst).toList ++ o, false)) := by
  constructor
  · intro limit l hl
    cases l with
    | none => exact ⟨_, rfl, rfl⟩
    | some l =>
      obtain ⟨r, h1, h2⟩ := tries_first (options := false) (boc := connectTo limit) (made limit)
        (fun s fd e => by obtain ⟨q, h, h', _⟩ := connectTo_made limit s fd e; exact ⟨q, h, h'⟩) l (.success, 0)
      simp only [clientSocket, createSocket, h1, bind_ok]
      refine ⟨_, rfl, ?_⟩
      simp only [account, Bool.false_eq_true, if_false]
      exact tries_account (connectTo_careful limit) o l _ r (hl l rfl) h1
  · intro l hl
    cases l with
    | none => exact ⟨_, rfl, rfl⟩
    | some l =>
      obtain ⟨r, h1, h2⟩ := tries_first (options := true) (boc := listenOn) (fun _ b => b.bind && b.listen)
        (fun s fd e => by unfold listenOn; cases h : e.bind <;> exact ⟨_, rfl, by simp⟩) l ()
      simp only [serverSocket, createSocket, h1, bind_ok]
      refine ⟨_, rfl, ?_⟩
      simp only [account, Bool.false_eq_true, if_false]
      exact tries_account listenOn_careful o l _ r (hl l rfl) h1

/-- The descriptor can be waited for, where this is needed. -/
def Waitable (a : Addr Meets) : Prop := a.env = .done ∨ ∃ fd, a.sock = some fd ∧ fd < 1024

theorem made_iff (limit : Nat) (a : Addr Meets) : (∃ f, a.sock = some f ∧ a.cloexec = true ∧ made limit f a.env = true) ↔
    Reachable limit a ∧ Waitable a := by
  unfold Reachable Waitable
  cases hs : a.sock with
  | none => simp
  | some fd =>
    cases he : a.env with
    | done => simp [made, acceptsIn]
    | refused => simp [made, acceptsIn]
    | pending w =>
      have := selects_success w w.interrupted limit
      simp only [made, acceptsIn, Option.some.injEq, Bool.and_eq_true, decide_eq_true_eq]
      constructor
      · rintro ⟨f, rfl, hc, hf, hx⟩
        exact ⟨⟨rfl, hc, this.1 hx⟩, .inr ⟨_, rfl, hf⟩⟩
      · rintro ⟨⟨_, hc, hx⟩, h | ⟨f, rfl, hf⟩⟩
        · cases h
        · exact ⟨_, rfl, hc, hf, this.2 hx⟩

/-- **C122**, partial, exactly: a client connects to the first address at which the server accepts its connection either at once or on a
descriptor below 1024, and fails only if there is none; the error says which.  Missing: larger descriptors (`C122_violated`). -/
theorem C122_partial (limit : Nat) (l : List (Addr Meets)) : ∃ r, clientSocket limit (some l) = ok r ∧
    (∀ fd a, r.sock = some (fd, a) → IsFirst (fun b => Reachable limit b ∧ Waitable b) l a ∧ a.sock = some fd ∧ r.error = .success) ∧
    (r.sock = none → (∀ a ∈ l, ¬ (Reachable limit a ∧ Waitable a)) ∧ r.error ≠ .success) := by
  obtain ⟨r, h1, h2, h3⟩ := clientSocket_eq limit l
  refine ⟨r, h1, fun fd a h => ?_, fun h => ?_⟩
  · rw [h] at h2
    obtain ⟨h4, pre, post, h5, h6, h7⟩ := firstOf_some h2.symm
    exact ⟨⟨pre, post, h5, (made_iff limit a).1 h6, fun b hb hc => h7 b hb ((made_iff limit b).2 hc)⟩, h4, h3.2 (by rw [h]; rfl)⟩
  · rw [h] at h2
    refine ⟨fun a ha hc => firstOf_none h2.symm a ha ((made_iff limit a).2 hc), fun he => ?_⟩
    have := h3.1 he
    rw [h] at this
    cases this

/-- A connection to the address is attempted. -/
def Attempted (a : Addr Meets) : Prop := a.sock.isSome ∧ a.cloexec = true

/-- The attempt is not decided within the limit. -/
def TimedOut (limit : Nat) (a : Addr Meets) : Prop :=
  Attempted a ∧ Waitable a ∧ ∃ w, a.env = .pending w ∧
    (limit < w.interrupted.sum ∨ (w.fails = false ∧ ∀ d, w.ready = some d → limit < w.interrupted.sum + d))

theorem selects_timeout (w : Wait) : ∀ (ds : List Nat) (left : Nat), (selects w left ds).1 = .timeout ↔
    (left < ds.sum ∨ (w.fails = false ∧ ∀ d, w.ready = some d → left < ds.sum + d)) := by
  intro ds
  induction ds with
  | nil =>
    intro left
    simp only [selects]
    cases w.fails with
    | true => simp
    | false =>
      cases w.ready with
      | none => simp
      | some d =>
        by_cases hd : d ≤ left
        · by_cases hs : w.soError = some 0 <;> simp [hd, hs]
        · simp [hd]
          omega
  | cons d ds ih =>
    intro left
    simp only [selects]
    split
    · rename_i hd
      rw [ih]
      simp only [List.sum_cons]
      constructor
      · rintro (h | ⟨h1, h2⟩)
        · exact .inl (by omega)
        · exact .inr ⟨h1, fun e he => by have := h2 e he; omega⟩
      · rintro (h | ⟨h1, h2⟩)
        · exact .inl (by omega)
        · exact .inr ⟨h1, fun e he => by have := h2 e he; omega⟩
    · simp only [List.sum_cons, true_iff]
      exact .inl (by omega)

theorem connectTo_timeout (limit : Nat) (s : Err × Nat) (a : Addr Meets) (fd : Nat) (hs : a.sock = some fd) (hc : a.cloexec = true) q
    (h : connectTo limit s fd a.env = ok q) (hq : q.1 = false) : q.2.1.1 = .timeout ↔ TimedOut limit a := by
  have ha : Attempted a := ⟨by rw [hs]; rfl, hc⟩
  cases he : a.env with
  | done => rw [he] at h; cases h; cases hq
  | refused =>
    rw [he] at h
    cases h
    simp only [reduceCtorEq, false_iff]
    rintro ⟨_, _, w, hw, _⟩
    rw [he] at hw
    cases hw
  | pending w =>
    rw [he] at h
    simp only [connectTo, waitReady_eq, bind_ok] at h
    have key : TimedOut limit a ↔ fd < 1024 ∧ (selects w limit w.interrupted).1 = .timeout := by
      rw [selects_timeout]
      constructor
      · rintro ⟨_, h1, w', h2, h3⟩
        rw [he] at h2
        cases h2
        rcases h1 with h1 | ⟨f, h1, h4⟩
        · rw [he] at h1; cases h1
        · rw [hs] at h1; cases h1; exact ⟨h4, h3⟩
      · rintro ⟨h1, h2⟩
        exact ⟨ha, .inr ⟨fd, hs, h1⟩, w, he, h2⟩
    rw [key]
    by_cases hfd : fd < 1024
    · rw [if_pos hfd] at h
      split at h
      · cases h; cases hq
      · cases h; simp [hfd]
    · rw [if_neg hfd] at h
      simp only [reduceCtorEq, if_false] at h
      cases h
      simp [hfd]

theorem tries_timeout (limit : Nat) : ∀ (l : List (Addr Meets)) (s : Err × Nat) r, tries false (connectTo limit) s l = ok r → r.1 = none →
    (r.2.1.1 = .timeout ↔ (s.1 = .timeout ∧ ∀ b ∈ l, ¬ Attempted b) ∨
      ∃ pre a post, l = pre ++ a :: post ∧ TimedOut limit a ∧ ∀ b ∈ post, ¬ Attempted b) := by
  intro l
  induction l with
  | nil => intro s r h _; simp only [tries] at h; cases h; simp
  | cons a l ih =>
    intro s r h hr
    have skip : ¬ Attempted a → ∀ e : Err, ((e = .timeout ∧ ∀ b ∈ l, ¬ Attempted b) ∨
        ∃ pre b post, l = pre ++ b :: post ∧ TimedOut limit b ∧ ∀ c ∈ post, ¬ Attempted c) ↔
        ((e = .timeout ∧ ∀ b ∈ a :: l, ¬ Attempted b) ∨
        ∃ pre b post, a :: l = pre ++ b :: post ∧ TimedOut limit b ∧ ∀ c ∈ post, ¬ Attempted c) := by
      intro ha e
      constructor
      · rintro (⟨h1, h2⟩ | ⟨pre, b, post, h1, h2⟩)
        · refine .inl ⟨h1, fun b hb => ?_⟩
          rcases List.mem_cons.1 hb with rfl | hb
          · exact ha
          · exact h2 b hb
        · exact .inr ⟨a :: pre, b, post, by rw [h1]; rfl, h2⟩
      · rintro (⟨h1, h2⟩ | ⟨pre, b, post, h1, h2, h3⟩)
        · exact .inl ⟨h1, fun b hb => h2 b (List.mem_cons_of_mem _ hb)⟩
        · cases pre with
          | nil => cases h1; exact absurd h2.1 ha
          | cons c pre => cases h1; exact .inr ⟨pre, b, post, rfl, h2, h3⟩
    simp only [tries] at h
    split at h
    · rename_i hs
      have ha : ¬ Attempted a := by rintro ⟨h1, _⟩; rw [hs] at h1; cases h1
      cases ht : tries false (connectTo limit) s l with
      | ub => rw [ht] at h; cases h
      | ok r' =>
        rw [ht] at h
        simp only [bind_ok] at h
        cases h
        rw [← skip ha]
        exact ih s r' ht hr
    · rename_i fd hs
      split at h
      · rename_i hc
        obtain ⟨q, hq, -⟩ := connectTo_made limit s fd a.env
        simp only [hq, bind_ok] at h
        split at h
        · cases h; cases hr
        · rename_i hq1
          cases ht : tries false (connectTo limit) q.2.1 l with
          | ub => rw [ht] at h; cases h
          | ok r' =>
            rw [ht] at h
            simp only [bind_ok] at h
            cases h
            rw [ih q.2.1 r' ht hr, connectTo_timeout limit s a fd hs hc q hq (by simpa using hq1)]
            constructor
            · rintro (⟨h1, h2⟩ | ⟨pre, b, post, h1, h2⟩)
              · exact .inr ⟨[], a, l, rfl, h1, h2⟩
              · exact .inr ⟨a :: pre, b, post, by rw [h1]; rfl, h2⟩
            · rintro (⟨h1, h2⟩ | ⟨pre, b, post, h1, h2, h3⟩)
              · exact absurd ⟨by rw [hs]; rfl, hc⟩ (h2 a (by simp))
              · cases pre with
                | nil => cases h1; exact .inl ⟨h2, h3⟩
                | cons c pre => cases h1; exact .inr ⟨pre, b, post, rfl, h2, h3⟩
      · rename_i hc
        have ha : ¬ Attempted a := fun h1 => hc h1.2
        cases ht : tries false (connectTo limit) s l with
        | ub => rw [ht] at h; cases h
        | ok r' =>
          rw [ht] at h
          simp only [bind_ok] at h
          cases h
          rw [← skip ha]
          exact ih s r' ht hr

/-- **C122**, the error: a client that got no connection reports that the time was over if and only if this was so at the last address
that it tried. -/
theorem C122_partial_error (limit : Nat) (l : List (Addr Meets)) r (h : clientSocket limit (some l) = ok r) (hr : r.sock = none) :
    (r.error = .timeout ↔ ∃ pre a post, l = pre ++ a :: post ∧ TimedOut limit a ∧ ∀ b ∈ post, ¬ Attempted b) := by
  simp only [clientSocket, createSocket] at h
  cases ht : tries false (connectTo limit) (.success, 0) l with
  | ub => rw [ht] at h; cases h
  | ok q =>
    rw [ht] at h
    simp only [bind_ok] at h
    cases h
    simp only at hr
    have := tries_timeout limit l _ q ht hr
    simp only [reduceCtorEq, false_and, false_or] at this
    rw [← this]
    simp only [hr, Option.isSome_none, Bool.false_eq_true, if_false]
    split
    · rename_i h1; simp [h1]
    · rfl

/-- Both answers: the time is over because of the signals; the first address takes too long and the second one refuses. -/
example : (∃ r, clientSocket 10 (some [⟨false, some 5, true, .pending ⟨[4, 7], true, none, none⟩⟩]) = ok r ∧ r.sock = none ∧
      r.error = .timeout) ∧
    ∃ r, clientSocket 10 (some [⟨false, some 5, true, .pending ⟨[], false, none, none⟩⟩, ⟨false, some 5, true, .refused⟩]) = ok r ∧
      r.sock = none ∧ r.error = .connection := ⟨⟨_, rfl, rfl, rfl⟩, _, rfl, rfl, rfl⟩

/-- The first address accepts the connection after a millisecond. -/
def slowly (fd : Nat) : Addr Meets := ⟨false, some fd, true, .pending ⟨[], false, some 1, some 0⟩⟩

/-- The code violates C122: on descriptor 1024 a connection that is accepted after a millisecond is given up. -/
theorem C122_violated : ¬ C122_statement := by
  intro h
  have := (h 300000 [slowly 1024] ⟨none, .connection, 0, [.resolved, .addr, .opened 1024, .used 1024, .used 1024, .addr, .used 1024,
    .used 1024, .closed 1024, .addr, .released]⟩ (by decide)).2 rfl
  exact this.1 (slowly 1024) (by simp) ⟨rfl, rfl, rfl, rfl, 1, rfl, by decide⟩

theorem tries_spent (limit : Nat) : ∀ (l : List (Addr Meets)) (s : Err × Nat) r, tries false (connectTo limit) s l = ok r →
    r.2.1.2 ≤ s.2 + limit * l.length := by
  intro l
  induction l with
  | nil => intro s r h; simp only [tries] at h; cases h; simp
  | cons a l ih =>
    intro s r h
    have hm : limit * (a :: l).length = limit + limit * l.length := by rw [List.length_cons, Nat.mul_succ, Nat.add_comm]
    rw [hm]
    simp only [tries] at h
    split at h
    · cases ht : tries false (connectTo limit) s l with
      | ub => rw [ht] at h; cases h
      | ok r' =>
        rw [ht] at h
        simp only [bind_ok] at h
        cases h
        have := ih s r' ht
        simp only
        omega
    · rename_i fd _
      split at h
      · obtain ⟨q, hq, _, h2, _⟩ := connectTo_made limit s fd a.env
        rw [hq] at h
        simp only [bind_ok] at h
        split at h
        · cases h
          simp only
          omega
        · cases ht : tries false (connectTo limit) q.2.1 l with
          | ub => rw [ht] at h; cases h
          | ok r' =>
            rw [ht] at h
            simp only [bind_ok] at h
            cases h
            have := ih _ r' ht
            simp only
            omega
      · cases ht : tries false (connectTo limit) s l with
        | ub => rw [ht] at h; cases h
        | ok r' =>
          rw [ht] at h
          simp only [bind_ok] at h
          cases h
          have := ih s r' ht
          simp only
          omega

/-- **C123**, partial: the limit holds for each address, also when signals interrupt the waiting: a client is connected or gives up within
the limit times the number of addresses.  Missing: one limit for all (`C123_violated`). -/
theorem C123_partial (limit : Nat) (l : List (Addr Meets)) : ∃ r, clientSocket limit (some l) = ok r ∧ r.spent ≤ limit * l.length := by
  obtain ⟨r, h1, h2⟩ := tries_first (options := false) (boc := connectTo limit) (made limit)
    (fun s fd e => by obtain ⟨q, h, h', _⟩ := connectTo_made limit s fd e; exact ⟨q, h, h'⟩) l (.success, 0)
  have := tries_spent limit l _ r h1
  simp only [clientSocket, createSocket, h1, bind_ok]
  exact ⟨_, rfl, by simpa using this⟩

/-- An address at which nobody answers. -/
def silent (fd : Nat) : Addr Meets := ⟨false, some fd, true, .pending ⟨[], false, none, none⟩⟩

/-- The code violates C123: with two addresses at which nobody answers, a client gives up after twice the limit, ten minutes. -/
theorem C123_violated : ¬ C123_statement := by
  intro h
  obtain ⟨r, h1, -⟩ := C123_partial connectionLimit [silent 5, silent 5]
  have h2 := h _ _ r h1
  have h3 : (clientSocket connectionLimit (some [silent 5, silent 5])) = ok ⟨none, .timeout, 600000, [.resolved, .addr, .opened 5, .used 5,
    .used 5, .addr, .used 5, .used 5, .closed 5, .addr, .addr, .opened 5, .used 5, .used 5, .addr, .used 5, .used 5, .closed 5, .addr, .released]⟩ := by
    decide
  rw [h1] at h3
  cases h3
  exact absurd h2 (by decide)

/-! ## The server -/

/-- The server can listen here: all that listen here have `SO_REUSEPORT` as the server has, and belong to its user. -/
def Free {β : Type} (overlap : β → β → Bool) (held : List (Holder β)) (user : Nat) (a : Site β) : Prop :=
  a.sock.isSome ∧ a.cloexec = true ∧ a.listen = true ∧
    ∀ b ∈ held, overlap b.addr a.addr = true → b.reuse = true ∧ a.reuse = true ∧ b.user = user

theorem free_iff {β : Type} (overlap : β → β → Bool) (held : List (Holder β)) (user : Nat) (a : Site β) :
    (∃ f, a.sock = some f ∧ a.cloexec = true ∧ (bindOk overlap held ⟨a.addr, a.reuse, user⟩ && a.listen) = true) ↔
      Free overlap held user a := by
  unfold Free
  have hb : bindOk overlap held ⟨a.addr, a.reuse, user⟩ = true ↔
      ∀ b ∈ held, overlap b.addr a.addr = true → b.reuse = true ∧ a.reuse = true ∧ b.user = user := by
    simp only [bindOk, List.all_eq_true]
    constructor
    · intro h b hb ho
      have := h b hb
      simpa [ho, and_assoc] using this
    · intro h b hb
      cases ho : overlap b.addr a.addr with
      | false => rfl
      | true => simpa [and_assoc] using h b hb ho
  rw [Bool.and_eq_true, hb, Option.isSome_iff_exists]
  constructor
  · rintro ⟨f, h1, h2, h3, h4⟩
    exact ⟨⟨f, h1⟩, h2, h4, h3⟩
  · rintro ⟨⟨f, h1⟩, h2, h4, h3⟩
    exact ⟨f, h1, h2, h3, h4⟩

/-- **C124**, partial, exactly: a server listens at the first address that is free or shared only with sockets of the same user that allow
it, and at none if there is no such address.  So it never shares with programs of other users, or with programs that do not ask for it.
Missing: programs of the same user that allow it, as all servers here do (`C124_violated`). -/
theorem C124_partial {β : Type} (overlap : β → β → Bool) (held : List (Holder β)) (user : Nat) (l : List (Site β)) :
    ∃ r, serve overlap held user (some l) = ok r ∧
      (∀ h, r = some h → ∃ a, IsFirst (Free overlap held user) l a ∧ h = ⟨a.addr, a.reuse, user⟩) ∧
      (r = none → ∀ a ∈ l, ¬ Free overlap held user a) := by
  obtain ⟨r, h1, h2⟩ := tries_first (options := true) (boc := fun u fd (b : Binds × β × Bool) => listenOn u fd b.1)
    (fun _ b => b.1.bind && b.1.listen) (fun s fd e => by
      unfold listenOn; cases h : e.1.bind <;> exact ⟨_, rfl, by simp⟩) (meetSites overlap held user l) ()
  simp only [serve, createSocket, Option.map_some, h1, bind_ok]
  refine ⟨_, rfl, fun h hh => ?_, fun hh a ha hf => ?_⟩
  · obtain ⟨⟨fd, x⟩, hx, rfl⟩ := Option.map_eq_some_iff.1 hh
    rw [h2] at hx
    obtain ⟨_, hfirst⟩ := firstOf_some hx
    obtain ⟨a, rfl, pre, post, h4, h5, h6⟩ := hfirst.of_map
    exact ⟨a, ⟨pre, post, h4, (free_iff _ _ _ _).1 h5, fun b hb hc => h6 b hb ((free_iff _ _ _ _).2 hc)⟩, rfl⟩
  · rw [Option.map_eq_none_iff, h2] at hh
    exact firstOf_none hh _ (List.mem_map_of_mem ha) ((free_iff _ _ _ _).2 hf)

/-- **C124** (others): where a program of another user, or one that does not allow sharing, listens, no server listens; and once a server
listens, no program of another user can listen there. -/
theorem C124_others {β : Type} (overlap : β → β → Bool) (held : List (Holder β)) (user : Nat) (l : List (Site β)) (h : Holder β)
    (hs : serve overlap held user (some l) = ok (some h)) :
    (∀ b ∈ held, b.user ≠ user ∨ b.reuse = false → overlap b.addr h.addr = false) ∧
    ∀ x : Holder β, x.user ≠ user → overlap h.addr x.addr = true → bindOk overlap (h :: held) x = false := by
  obtain ⟨r, h1, h2, _⟩ := C124_partial overlap held user l
  rw [hs] at h1
  cases h1
  obtain ⟨a, ⟨_, _, _, ha, _⟩, rfl⟩ := h2 h rfl
  constructor
  · intro b hb hne
    cases ho : overlap b.addr a.addr with
    | false => rfl
    | true =>
      obtain ⟨h3, _, h4⟩ := ha.2.2.2 b hb ho
      rcases hne with hne | hne
      · exact absurd h4 hne
      · rw [h3] at hne; cases hne
  · intro x hx ho
    simp only [bindOk, List.all_cons, ho, Bool.not_true, Bool.false_or, Bool.and_eq_false_iff]
    left; right
    simpa using fun he => hx he.symm

/-- The address of a registrar, port 12345, on the usual machine. -/
def here : Site Nat := ⟨12345, false, some 3, true, true, true⟩

/-- The code violates C124: a second server of the same user with the same port starts. -/
theorem C124_violated : ¬ C124_statement := by
  intro h
  have := h Nat (· == ·) [⟨12345, true, 1000⟩] 1000 (some [here]) ⟨12345, true, 1000⟩ (by decide) ⟨12345, true, 1000⟩ (by simp)
  exact absurd this (by decide)

/-! ## Client and server -/

theorem reach_first {β : Type} (overlap : β → β → Bool) (held : List (Holder β)) (limit : Nat) (v : List (Via β))
    (hv : ∀ x ∈ v, x.sock.isSome ∧ x.cloexec = true) :
    ∃ r, reach overlap held limit v = ok r ∧
      (∀ a, r = some a → ∃ x, IsFirst (fun y : Via β => ∃ b ∈ held, overlap b.addr y.addr = true) v x ∧ x.addr = a) ∧
      (r = none → ∀ x ∈ v, ¬ ∃ b ∈ held, overlap b.addr x.addr = true) := by
  have hmade : ∀ (fd : Nat) (y : β), made limit fd (meetHolders overlap held y) = true ↔ ∃ b ∈ held, overlap b.addr y = true := by
    intro fd y
    unfold meetHolders
    split
    · rename_i h; simpa [made] using List.any_eq_true.1 h
    · rename_i h
      simp only [made, Bool.false_eq_true, false_iff]
      intro hc
      exact h (List.any_eq_true.2 hc)
  obtain ⟨r, h1, h2⟩ := tries_first (options := false) (boc := fun s fd (p : Meets × β) => connectTo limit s fd p.1)
    (fun fd p => made limit fd p.1) (fun s fd e => by obtain ⟨q, h, h', _⟩ := connectTo_made limit s fd e.1; exact ⟨q, h, h'⟩)
    (v.map fun a => (⟨a.v6, a.sock, a.cloexec, meetHolders overlap held a.addr, a.addr⟩ : Addr (Meets × β))) (.success, 0)
  simp only [reach, createSocket, h1, bind_ok]
  refine ⟨_, rfl, fun a ha => ?_, fun hn x hx hc => ?_⟩
  · obtain ⟨⟨fd, z⟩, hz, rfl⟩ := Option.map_eq_some_iff.1 ha
    rw [h2] at hz
    obtain ⟨x, rfl, pre, post, h4, ⟨f, _, _, h5⟩, h6⟩ := (firstOf_some hz).2.of_map
    refine ⟨x, ⟨pre, post, h4, (hmade f _).1 h5, fun b hb hc => h6 b hb ?_⟩, rfl⟩
    obtain ⟨h7, h8⟩ := hv b (by rw [h4]; simp [hb])
    obtain ⟨f', h7⟩ := Option.isSome_iff_exists.1 h7
    exact ⟨f', h7, h8, (hmade f' _).2 hc⟩
  · rw [Option.map_eq_none_iff, h2] at hn
    obtain ⟨h7, h8⟩ := hv x hx
    obtain ⟨f', h7⟩ := Option.isSome_iff_exists.1 h7
    exact firstOf_none hn _ (List.mem_map_of_mem hx) ⟨f', h7, h8, (hmade f' _).2 hc⟩

/-- **C125**, partial: where no other program listens at any of the addresses of the name, a client that looks for the server under the
name under which it was started is connected to this server.  Missing: names with addresses that are in use (`C125_violated`). -/
theorem C125_partial {β : Type} (overlap : β → β → Bool) (held : List (Holder β)) (user limit : Nat) (l : List (Site β)) (v : List (Via β))
    (h : Holder β) (hrefl : ∀ a, overlap a a = true) (hvl : v.map Via.addr = l.map Site.addr)
    (hv : ∀ x ∈ v, x.sock.isSome ∧ x.cloexec = true) (hs : serve overlap held user (some l) = ok (some h))
    (hfree : ∀ b ∈ held, ∀ x ∈ l, overlap b.addr x.addr = false) :
    ∃ a, reach overlap (h :: held) limit v = ok (some a) ∧ TalksTo overlap held h a := by
  obtain ⟨r, h1, h2, h3⟩ := reach_first overlap (h :: held) limit v hv
  obtain ⟨r', h4, h5, _⟩ := C124_partial overlap held user l
  rw [hs] at h4
  cases h4
  obtain ⟨a, ⟨pre, post, hl, _⟩, rfl⟩ := h5 h rfl
  have hv' : ∀ x ∈ v, ∃ y ∈ l, y.addr = x.addr := by
    intro x hx
    have : x.addr ∈ l.map Site.addr := hvl ▸ List.mem_map_of_mem hx
    obtain ⟨y, hy, he⟩ := List.mem_map.1 this
    exact ⟨y, hy, he⟩
  cases r with
  | none =>
    have : a.addr ∈ v.map Via.addr := by rw [hvl, hl]; simp
    obtain ⟨x, hx, he⟩ := List.mem_map.1 this
    exact absurd ⟨_, List.mem_cons_self, by rw [he]; exact hrefl _⟩ (h3 rfl x hx)
  | some c =>
    obtain ⟨x, ⟨p, q, hpq, ⟨b, hb, ho⟩, _⟩, rfl⟩ := h2 c rfl
    have hx : x ∈ v := by rw [hpq]; simp
    obtain ⟨y, hy, he⟩ := hv' x hx
    refine ⟨x.addr, h1, ?_, fun b hb => by rw [← he]; exact hfree b hb y hy⟩
    rcases List.mem_cons.1 hb with rfl | hb
    · exact ho
    · have := hfree b hb y hy
      rw [he, ho] at this
      cases this

/-- Two addresses of one name, as with `localhost`. -/
def twoSites : List (Site Nat) := [⟨6, true, some 3, true, true, true⟩, ⟨4, false, some 3, true, true, true⟩]

/-- The same for a client. -/
def twoVias : List (Via Nat) := [⟨6, true, some 5, true⟩, ⟨4, false, some 5, true⟩]

/-- The code violates C125: when a program of another user listens at the first address of the name, the server listens at the second
and reports success; clients are connected to the other program. -/
theorem C125_violated : ¬ C125_statement := by
  intro h
  obtain ⟨a, h1, h2, h3⟩ := h Nat (· == ·) [⟨6, false, 7⟩] 1000 300000 twoSites twoVias ⟨4, true, 1000⟩ (by simp) (by decide) (by decide) (by decide)
  have : reach (· == ·) [⟨4, true, 1000⟩, ⟨6, false, 7⟩] 300000 twoVias = ok (some 6) := by decide
  rw [h1] at this
  cases this
  exact absurd (h3 _ (List.mem_singleton.2 rfl)) (by decide)

/-! ## Cases -/

/-- No socket; no `FD_CLOEXEC`; refused; too late; interrupted twice and accepted in time; accepted at once. -/
def sixAddresses : List (Addr Meets) :=
  [⟨false, none, true, .done⟩, ⟨false, some 7, false, .done⟩, ⟨true, some 7, true, .refused⟩,
   ⟨false, some 7, true, .pending ⟨[4], false, some 7, some 0⟩⟩, ⟨true, some 8, true, .pending ⟨[2, 3], false, some 5, some 0⟩⟩,
   ⟨false, some 7, true, .done⟩]

example : NewIn [0, 1, 2] sixAddresses ∧ (∃ es, clientSocket 10 (some sixAddresses) =
    ok ⟨some (8, ⟨true, some 8, true, .pending ⟨[2, 3], false, some 5, some 0⟩⟩), .success, 20, es⟩ ∧
      account ([0, 1, 2], false) es = some ([8, 0, 1, 2], false)) := by
  refine ⟨?_, ?_⟩
  · have : ∀ a ∈ sixAddresses, a.sock = none ∨ a.sock = some 7 ∨ a.sock = some 8 := by decide
    intro a ha fd hfd
    rcases this a ha with h | h | h <;> rw [h] at hfd <;> cases hfd <;> decide
  · exact ⟨_, rfl, by decide⟩

/-- A server whose first address cannot be bound; non-vacuity of `C121_holds` for servers. -/
example : ∃ es, serverSocket (some [⟨true, some 3, true, ⟨false, true⟩⟩, ⟨false, some 3, true, ⟨true, false⟩⟩, ⟨false, some 4, true, ⟨true, true⟩⟩]) =
    ok (some (4, ⟨false, some 4, true, ⟨true, true⟩⟩), es) ∧ account ([0, 1, 2], false) es = some ([4, 0, 1, 2], false) := ⟨_, rfl, by decide⟩

/-- Non-vacuity of `C124_others` and `C125_partial`. -/
example : serve (· == ·) [⟨6, false, 7⟩] 1000 (some twoSites) = ok (some ⟨4, true, 1000⟩) ∧
    serve (· == ·) [⟨9, false, 7⟩] 1000 (some twoSites) = ok (some ⟨6, true, 1000⟩) ∧
    serve (· == ·) [⟨6, true, 7⟩, ⟨4, false, 1000⟩] 1000 (some twoSites) = ok none ∧
    reach (· == ·) [⟨6, true, 1000⟩, ⟨9, false, 7⟩] 300000 twoVias = ok (some 6) := by decide

end Brski.Props
