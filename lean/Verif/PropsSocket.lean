import Verif.Socket
import Verif.PropsRecords

/-!
# C115: the number of a descriptor makes no difference
-/

namespace Brski.Props
open Outcome Routes Wire Conn Ranges Socket

/-- From the `i`th call on the client sends nothing more: the handshake wants to read and the socket never becomes ready. -/
def Silent (P : Peer) (i : Nat) : Prop := ∀ j, i ≤ j → P.res j = .wantRead ∧ P.ready j = none

/-- **C115** as stated: whatever descriptor the system has given to a connection, its requests get the same replies, and a client
that falls silent during the handshake is given up. -/
def C115_statement : Prop :=
  (∀ sock sock' rs mp E recs, Socket.connection sock rs mp E recs = Socket.connection sock' rs mp E recs) ∧
    ∀ sock P i, Silent P i → ∃ n, (handshake sock P n 0 0).isSome

/-! ## Replies -/

theorem refuse_spec {bd s : Bytes} {close : Bool} {d : Done} (h : refuse bd close s = some d) :
    d.reply.status = 500 ∧ d.reply.body = str "Router error" ∧ d.ran = none := by
  unfold refuse at h
  cases hg : getLine s with
  | none => rw [hg] at h; cases h
  | some p =>
    rw [hg] at h
    cases h
    dsimp only
    rw [respond_none]
    revert close
    decide +kernel

theorem refusals_spec (E : Env) : ∀ (n k : Nat) (s : Bytes), ∀ d ∈ refusals E k n s,
    d.reply.status = 500 ∧ d.reply.body = str "Router error" ∧ d.ran = none
  | 0, _, _, d, h => by cases h
  | n + 1, k, s, d, h => by
    unfold refusals at h
    split at h
    · cases hr : refuse (E.bd k) (n == 0) s with
      | none => rw [hr] at h; cases h
      | some d' =>
        rw [hr] at h
        dsimp only at h
        split at h
        · rcases List.mem_cons.1 h with rfl | h
          · exact refuse_spec hr
          · exact refusals_spec E n (k + 1) _ d h
        · rw [List.mem_singleton.1 h]
          exact refuse_spec hr
    · cases h

/-- **C115**, exactly: with a descriptor below 1024 the connection is the one of C114 and C91, whatever the number; from 1024 on no
handler ever runs, and every reply is 500. -/
theorem C115_exact (rs : List Route) (mp : Multipart) (E : Env) (recs : List Bytes) :
    (∀ sock, sock < 1024 → Socket.connection sock rs mp E recs = Records.connection rs mp E recs) ∧
      ∀ sock, 1024 ≤ sock → ∃ ds, Socket.connection sock rs mp E recs = .ok ds ∧
        ∀ d ∈ ds, d.reply.status = 500 ∧ d.reply.body = str "Router error" ∧ d.ran = none := by
  refine ⟨fun sock h => ?_, fun sock h => ⟨_, if_pos h, refusals_spec E 5 0 _⟩⟩
  unfold Socket.connection
  rw [if_neg (by simp only [setSize]; omega)]

/-- Whatever comes first, gets this 500. -/
theorem C115_refused (E : Env) (hE : E.alive 0 = true) (rs : List Route) (mp : Multipart) {sock : Nat} (h : 1024 ≤ sock)
    (recs : List Bytes) (hl : recs.flatten ≠ []) :
    ∃ d ds, Socket.connection sock rs mp E recs = .ok (d :: ds) ∧ d.reply.status = 500 := by
  obtain ⟨p, hp⟩ : ∃ p, getLine recs.flatten = some p := ⟨_, if_neg hl⟩
  have hr : refuse (E.bd 0) false recs.flatten =
      some ⟨false, respond false .get [] (E.bd 0) false ⟨500, [], []⟩, none, afterLines p.2, false⟩ := by
    rw [refuse, hp]; rfl
  have hc : Socket.connection sock rs mp E recs = .ok (refusals E 0 5 recs.flatten) := if_pos h
  rw [hc, refusals, if_pos hE, show (4 == 0) = false from rfl, hr]
  dsimp only
  split
  · exact ⟨_, _, rfl, (refuse_spec hr).1⟩
  · exact ⟨_, _, rfl, (refuse_spec hr).1⟩

/-! ## Handshake -/

theorem handshake_silent {sock : Nat} (h : sock < 1024) {P : Peer} {i : Nat} (hs : Silent P i) : ∀ (k j t : Nat), j + k = i →
    ∃ b t', handshake sock P (k + 1) j t = some (b, t') ∧ t' ≤ t + 5000 * (k + 1)
  | 0, j, t, hj => by
    obtain ⟨h1, h2⟩ := hs j (by omega)
    unfold handshake
    have hw : wait sock none = (false, 5000) := by
      unfold wait
      rw [if_neg (by simp only [setSize]; omega)]
    rw [h1, h2, hw]
    exact ⟨false, _, rfl, by omega⟩
  | k + 1, j, t, hj => by
    unfold handshake
    have hw : (wait sock (P.ready j)).2 ≤ 5000 := by
      unfold wait
      split
      · exact Nat.zero_le _
      · split
        · split
          · assumption
          · exact Nat.le_refl _
        · exact Nat.le_refl _
    have ind : ∀ t', t' ≤ t + 5000 → ∃ b t'', handshake sock P (k + 1) (j + 1) t' = some (b, t'') ∧ t'' ≤ t + 5000 * (k + 1 + 1) := by
      intro t' ht
      obtain ⟨b, t'', h1, h2⟩ := handshake_silent h hs k (j + 1) t' (by omega)
      refine ⟨b, t'', h1, ?_⟩
      rw [Nat.mul_succ 5000 (k + 1)]
      generalize 5000 * (k + 1) = x at *
      omega
    have step : ∃ b t', (if (wait sock (P.ready j)).1 then handshake sock P (k + 1) (j + 1) (t + (wait sock (P.ready j)).2)
        else some (false, t + (wait sock (P.ready j)).2)) = some (b, t') ∧ t' ≤ t + 5000 * (k + 1 + 1) := by
      split
      · exact ind _ (by omega)
      · exact ⟨_, _, rfl, by omega⟩
    cases P.res j with
    | done => exact ⟨_, _, rfl, by omega⟩
    | failed => exact ⟨_, _, rfl, by omega⟩
    | wantRead => exact step
    | wantWrite => exact step

/-- **C115**, the part that holds for the handshake: with a descriptor below 1024 a client that falls silent at the `i`th call is given up
by then, at most five seconds later for each call. -/
theorem C115_handshake {sock : Nat} (h : sock < 1024) {P : Peer} {i : Nat} (hs : Silent P i) :
    ∃ b t, handshake sock P (i + 1) 0 0 = some (b, t) ∧ t ≤ 5000 * (i + 1) := by
  obtain ⟨b, t, h1, h2⟩ := handshake_silent h hs i 0 0 (by omega)
  exact ⟨b, t, h1, by rwa [Nat.zero_add] at h2⟩

/-- With a larger descriptor a silent client is never given up: the thread calls `SSL_accept` again and again, without waiting. -/
theorem C115_spins {sock : Nat} (h : 1024 ≤ sock) {P : Peer} {i : Nat} (hs : Silent P i)
    (hb : ∀ j, j < i → P.res j = .wantRead ∨ P.res j = .wantWrite) : ∀ n j t, handshake sock P n j t = none := by
  intro n
  induction n with
  | zero => exact fun _ _ => rfl
  | succ n ih =>
    intro j t
    have hw : wait sock (P.ready j) = (true, 0) := if_pos h
    have hr : P.res j = .wantRead ∨ P.res j = .wantWrite := by
      by_cases hj : j < i
      · exact hb j hj
      · exact .inl (hs j (by omega)).1
    unfold handshake
    rcases hr with hr | hr <;> simp only [hr, hw, if_true] <;> exact ih _ _

/-- A client that connects and says nothing. -/
def mute : Peer := ⟨fun _ => .wantRead, fun _ => none⟩

theorem mute_silent : Silent mute 0 := fun _ _ => ⟨rfl, rfl⟩

/-- The code violates C115, both by its replies … -/
theorem C115_violated : ¬ C115_statement := by
  intro h
  have h1 := h.1 7 1024 registrarRoutes noParts echoEnv [posted.text]
  have h2 : seen (Socket.connection 7 registrarRoutes noParts echoEnv [posted.text]) = [(200, some (str "abc"))] := by decide +kernel
  have h3 : seen (Socket.connection 1024 registrarRoutes noParts echoEnv [posted.text]) = [(500, none), (500, none)] := by decide +kernel
  rw [h1, h3] at h2
  cases h2

/-- … and by a handshake that does not end. -/
theorem C115_violated_handshake : ¬ ∀ sock P i, Silent P i → ∃ n, (handshake sock P n 0 0).isSome := by
  intro h
  obtain ⟨n, hn⟩ := h 1024 mute 0 mute_silent
  rw [C115_spins (Nat.le_refl _) mute_silent (fun j hj => absurd hj (by omega))] at hn
  cases hn

/-- Concrete cases: the silent client is given up after five seconds, one that sends two messages in time is accepted. -/
example : handshake 7 mute 1 0 0 = some (false, 5000) ∧
    handshake 7 ⟨fun i => if i < 2 then .wantRead else .done, fun _ => some 30⟩ 3 0 0 = some (true, 60) ∧
    handshake 1024 ⟨fun i => if i < 2 then .wantRead else .done, fun _ => some 30⟩ 3 0 0 = some (true, 0) := by
  decide

end Brski.Props
