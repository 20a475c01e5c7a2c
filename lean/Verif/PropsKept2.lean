import Verif.PropsKept
import Verif.PropsInterim
import Verif.PropsResend
import Verif.PropsCut

/-!
# C141 for lines that are refused, and C143: how much a reply makes the client keep
-/

namespace Brski.Props
open Outcome Routes Wire Conn Client

/-! ## C141 -/

/-- A line that is too long is refused only when all of it has been read, however long it is: the reply is 414, and nothing but what
follows the fields is left. -/
theorem C141_late (rs : List Route) (mp : Multipart) (bd : Bytes) (stop : Bytes → Nat) (dyn : List Field → Bytes → Endpoint → Reply)
    (close : Bool) {x : Bytes} (h10 : (10 : UInt8) ∉ x) (hx : 8192 < x.length) (s : Bytes) :
    ∃ d, serveNext rs mp bd stop dyn close (x ++ [13, 10] ++ ([13, 10] ++ s)) = .ok (some d) ∧ d.reply.status = 414 ∧ d.ran = none ∧ d.rest = s := by
  have hl : 8192 < (x ++ [13, 10]).length := by simp only [List.length_append, List.length_cons, List.length_nil]; omega
  have ha : afterLines ([13, 10] ++ s) = s := by
    have hg : getLine ([13, 10] ++ s) = some ([13, 10], s) := getLine_crlf (x := []) s (by simp)
    rw [afterLines]
    split
    · rename_i h; rw [hg] at h; cases h
    · rename_i h
      rw [hg] at h
      cases h
      rw [if_pos (by decide)]
  unfold serveNext
  rw [getLine_crlf _ h10]
  dsimp only
  rw [if_pos hl]
  refine ⟨_, rfl, ?_, rfl, ?_⟩
  · unfold process
    rw [if_pos hl]
    have : ∀ c, (writeResponse c .get false ⟨414, [], []⟩).status = 414 := by intro c; cases c <;> decide +kernel
    exact this close
  · dsimp only
    rw [if_pos hl, ha]

/-- Non-vacuity of `C141_late`: there are such lines. -/
example : (10 : UInt8) ∉ List.replicate 10000 (97 : UInt8) ∧ 8192 < (List.replicate 10000 (97 : UInt8)).length :=
  ⟨fun h => absurd (List.eq_of_mem_replicate h) (by decide), by rw [List.length_replicate]; decide⟩

/-! ## C143 -/

/-- **C143** as stated: there is a size that no body a request gives to its caller exceeds, whatever the servers send. -/
def C143_statement : Prop :=
  ∃ N, ∀ (L : Tls.Lib) (files : Bool) (J : Job L) (a b : Attempt L) (r : Result L), post files J a b = .ok r →
    ∀ st body c, r.value = some (st, body, c) → body.length ≤ N

theorem readStatus_sizes : ∀ (n : Nat) (s : Bytes), s.length = n → ∀ st r, readStatus s = some (st, r) → r.length ≤ s.length := by
  intro n
  induction n using Nat.strongRecOn with
  | ind n ih =>
    intro s hs st r h
    cases hg : getLine s with
    | none => rw [readStatus] at h; split at h <;> rename_i he <;> rw [hg] at he <;> cases he; cases h
    | some p =>
      obtain ⟨l, r1⟩ := p
      have h1 := getLine_lt hg
      rw [readStatus_first hg] at h
      split at h
      · cases h
      · split at h
        · cases hg2 : getLine r1 with
          | none => rw [hg2] at h; cases h
          | some q =>
            obtain ⟨l2, r2⟩ := q
            have h2 := getLine_lt hg2
            rw [hg2] at h
            have := ih r2.length (by omega) r2 rfl st r h
            omega
        · cases h
          omega

theorem readReply_sizes {s b : Bytes} {st : Nat} (h : readReply s = .ok (some (st, b))) : b.length ≤ s.length := by
  unfold readReply at h
  cases hs : readStatus s with
  | none => rw [hs] at h; cases h
  | some p =>
    obtain ⟨st', r⟩ := p
    have h1 := readStatus_sizes _ s rfl _ _ hs
    rw [hs] at h
    dsimp only at h
    have h2 := (readLines_sizes _ r rfl).2
    cases hl : readLines r with
    | mk ls o =>
      rw [hl] at h h2
      cases o with
      | none => cases h
      | some r2 =>
        have h2 := h2 r2 rfl
        dsimp only at h h2
        split at h
        · cases h; simp
        · cases hc : readContent (readHeaders ls) r2 with
          | ub => rw [hc] at h; cases h
          | ok c =>
            rw [hc] at h
            cases c with
            | failed x => cases h
            | read b' r' t =>
              cases h
              have := (readContent_sizes hc).2
              omega

/-- What is taken for a whole reply is one, where the connection ends in order. -/
theorem reply_ended {s : Cut.Strm} {a : Nat × Bytes} (hr : Cut.readReply s = .ok (some a)) : readReply s.bytes = .ok (some a) := by
  have ht : Cut.readReply { s with orderly := true } = .ok (some a) := by
    have hu : Cut.Upto [] s { s with orderly := true } := ⟨by simp, fun _ => ⟨rfl, rfl⟩⟩
    unfold Cut.readReply at hr ⊢
    cases h1 : Cut.readStatus s with
    | none => rw [h1] at hr; cases hr
    | some p =>
      obtain ⟨st, s'⟩ := p
      obtain ⟨t', h2, h3⟩ := Cut.readStatus_sim hu h1
      rw [h1] at hr
      rw [h2]
      dsimp only at hr ⊢
      cases h4 : Cut.readLines s' with
      | mk ls b =>
        cases b with
        | none => rw [h4] at hr; cases hr
        | some s2 =>
          obtain ⟨k1, t2, k2, k3⟩ := Cut.readLines_sim h3 (s' := s2) (by rw [h4])
          rw [h4] at hr k1
          cases h5 : Cut.readLines t' with
          | mk ls' b' =>
            rw [h5] at k1 k2
            dsimp only at k1 k2 hr ⊢
            subst k1 k2
            dsimp only
            by_cases h6 : st = 204
            · rw [if_pos h6] at hr ⊢
              exact hr
            · rw [if_neg h6] at hr ⊢
              obtain ⟨_, m2, _⟩ := Cut.readContent_sim k3 (.inl rfl) (x := [])
              cases h7 : Cut.readContent Cut.append [] (readHeaders ls') s2 with
              | ub => rw [h7] at hr; cases hr
              | ok o =>
                cases o with
                | error st => rw [h7] at hr; cases hr
                | ok p =>
                  obtain ⟨y, s3, tr⟩ := p
                  obtain ⟨t3, m4⟩ := m2 _ _ _ h7
                  rw [h7] at hr
                  rw [m4]
                  exact hr
  rwa [C109_reply_wire rfl] at ht

theorem send_sizes {L : Tls.Lib} {J : Job L} {n : Nat} {a : Attempt L} {s s' : St L} {st : Nat} {body : Bytes}
    (h : send_ J n a s = .ok (.reply st body, s')) : body.length ≤ a.reply.bytes.length := by
  have hp : ∀ t t', processRequest J n a t = .ok (.reply st body, t') → body.length ≤ a.reply.bytes.length := by
    intro t t' h
    unfold processRequest at h
    split at h
    · cases h
    · split at h
      · cases h
      · cases hr : Cut.readReply a.reply with
        | ub => rw [hr] at h; cases h
        | ok o =>
          rw [hr] at h
          cases o with
          | none => cases h
          | some q =>
            obtain ⟨st', b'⟩ := q
            cases h
            exact readReply_sizes (reply_ended hr)
  unfold send_ at h
  split at h
  · split at h
    · cases h
    · split at h
      · cases h
      · rename_i t _ _
        cases hq : processRequest J n a t with
        | ub => rw [hq] at h; cases h
        | ok r =>
          obtain ⟨e, t'⟩ := r
          rw [hq] at h
          cases h
          exact hp _ _ hq
  · cases h

/-- **C143**, the part that holds: a body is never larger than what the server has sent. -/
theorem C143_partial {L : Tls.Lib} {files : Bool} {J : Job L} {a b : Attempt L} {r : Result L} (h : post files J a b = .ok r) {st : Nat}
    {body : Bytes} {c : Option L.Cert} (hv : r.value = some (st, body, c)) :
    body.length ≤ a.reply.bytes.length ∨ (a.closed = true ∧ body.length ≤ b.reply.bytes.length) := by
  cases files with
  | false => unfold post at h; cases h; cases hv
  | true =>
    have fin : ∀ {e : End} {s : St L}, (final e s : Result L).value = some (st, body, c) → ∃ q, e = .reply q body := by
      intro e s hf
      unfold final at hf
      cases e with
      | reply st' b' => cases hf; exact ⟨_, rfl⟩
      | peerClosed => cases hf
      | failed => cases hf
    rcases post_all h with ⟨_, e, s, h1, _, rfl⟩ | ⟨hc, s, e, s', _, h1, rfl⟩
    · obtain ⟨q, rfl⟩ := fin hv
      exact .inl (send_sizes h1)
    · obtain ⟨q, rfl⟩ := fin hv
      exact .inr ⟨hc.2.2.1, send_sizes h1⟩

/-- The head of a reply without fields. -/
def bareHead : Bytes := str "HTTP/1.1 200 OK" ++ [13, 10, 13, 10]

theorem bareHead_read (body : Bytes) : readReply (bareHead ++ body) = .ok (some (200, body)) := by
  have h1 := readStatus_line (st := 200) (by decide) (by decide) ([13, 10] ++ body)
  have e : bareHead ++ body = statusText 200 ++ [13, 10] ++ ([13, 10] ++ body) := by
    have : statusText 200 = str "HTTP/1.1 200 OK" := by decide +kernel
    rw [this]
    unfold bareHead
    simp only [List.append_assoc, List.cons_append, List.nil_append]
  unfold readReply
  rw [e, h1]
  dsimp only
  rw [readLines_end]
  dsimp only
  rw [if_neg (by decide)]
  unfold readContent
  dsimp only
  rw [show readHeaders [] = [] from rfl]
  rw [if_neg (by decide), if_neg (by decide), if_pos (by decide)]
  rfl

/-- A request that is answered. -/
theorem post_reply {L : Tls.Lib} {J : Job L} {a b : Attempt L} {st : Nat} {body : Bytes} (hs : a.socket = true) (hp : J.path ≠ [])
    (hc : a.closed = false) (hr : Cut.readReply a.reply = .ok (some (st, body))) (s0 : St L)
    (h0 : s0 = ({ fresh0 J with sock := some 0 }.log [.acquire (.sock 0)])) (hi : (initSsl J 0 a s0).1 = true)
    (hw : (writeRequest J 0 a.writes (initSsl J 0 a s0).2).1 = true) :
    ∃ r c, post true J a b = .ok r ∧ r.value = some (st, body, c) := by
  have h1 : processRequest J 0 a (initSsl J 0 a s0).2 = .ok (.reply st body, (writeRequest J 0 a.writes (initSsl J 0 a s0).2).2) := by
    unfold processRequest
    cases hq : writeRequest J 0 a.writes (initSsl J 0 a s0).2 with
    | mk ok s' =>
      rw [hq] at hw
      cases hw
      dsimp only
      rw [hc, if_neg (by decide), hr]
      rfl
  have h2 : ∃ s', send_ J 0 a (fresh0 J) = .ok (.reply st body, s') := by
    unfold send_
    rw [if_pos hs, ← h0]
    cases hq : initSsl J 0 a s0 with
    | mk ok s' =>
      rw [hq] at hi h1
      cases hi
      dsimp only at h1 ⊢
      rw [if_neg hp, h1]
      exact ⟨_, rfl⟩
  obtain ⟨s', h2⟩ := h2
  unfold fresh0 startFields at h2
  unfold post send
  dsimp only
  rw [if_pos rfl, h2]
  exact ⟨_, _, rfl, rfl⟩

/-- A server that replies with this body. -/
def sending (body : Bytes) : Attempt toyTls := { replying 7 with reply := ⟨bareHead ++ body, [], true⟩ }

/-- Every body at all is given to the caller. -/
theorem C143_unlimited (body : Bytes) : ∃ r c, post true (askFor []) (sending body) (sending body) = .ok r ∧ r.value = some (200, body, c) := by
  refine post_reply rfl (show str "/p" ≠ [] by decide) rfl ((C109_reply_wire rfl).trans (bareHead_read body)) _ rfl ?_ ?_
  · show (initSsl (askFor []) 0 (sending []) _).1 = true
    decide +kernel
  · show (writeRequest (askFor []) 0 (sending []).writes (initSsl (askFor []) 0 (sending []) _).2).1 = true
    decide +kernel

/-- **C143** is violated. -/
theorem C143_violated : ¬ C143_statement := by
  rintro ⟨N, h⟩
  obtain ⟨r, c, h1, h2⟩ := C143_unlimited (List.replicate (N + 1) 65)
  have := h _ _ _ _ _ r h1 _ _ _ h2
  rw [List.length_replicate] at this
  omega

/-- Non-vacuity of `C143_partial`: a request that is answered, and one that is answered when it is sent again. -/
example : (trace (post true (askFor []) (replying 7) (replying 9))).map (·.1) = some (some (200, str "y", some 7)) ∧
    (trace (post true (askFor []) (closing 7) (replying 9))).map (·.1) = some (some (200, str "y", some 9)) ∧ (closing 7).closed = true := by
  decide +kernel

end Brski.Props
