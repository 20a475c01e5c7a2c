import Verif.Client
import Verif.PropsStatus
import Verif.PropsHeaders

/-!
# C116-C118: what a request of a client leads to
-/

namespace Brski.Props
open Outcome Routes Wire Client

/-! ## Specification -/

/-- The bytes that connection `n` got. -/
def sentOn (n : Nat) (t : List Ev) : Bytes :=
  t.flatMap fun
    | .wrote m b => if m = n then b else []
    | _ => []

/-- The connection comes about and the client accepts the server. -/
def Accepted {L : Tls.Lib} (J : Job L) (a : Attempt L) : Prop :=
  a.socket = true ∧ a.session = true ∧ a.handshake = true ∧
    (J.verify = true → a.chain ≠ [] ∧ L.chainOk (J.store ++ J.system) a.chain = true)

/-- What is held after the events, if nothing is acquired while it is held, nothing released that is not held, and nothing written
to a connection without session. -/
def holds : List Handle → List Ev → Option (List Handle)
  | H, [] => some H
  | H, .acquire h :: t => if h ∈ H then none else holds (h :: H) t
  | H, .release h :: t => if h ∈ H then holds (H.erase h) t else none
  | H, .wrote n _ :: t => if .ssl n ∈ H then holds H t else none

/-- The request has one text. -/
def jobText {L : Tls.Lib} (J : Job L) : Bytes := requestText J.host J.path J.ctype J.body

/-- **C116** as stated: a request is sent over at most one connection. -/
def C116_statement : Prop :=
  ∀ (L : Tls.Lib) (files : Bool) (J : Job L) (a b : Attempt L) (r : Result L), post files J a b = .ok r →
    ∀ m n, sentOn m r.trace ≠ [] → sentOn n r.trace ≠ [] → m = n

/-- **C117** as stated: what a connection gets is the request or the beginning of it. -/
def C117_statement : Prop :=
  ∀ (L : Tls.Lib) (files : Bool) (J : Job L) (a b : Attempt L) (r : Result L), post files J a b = .ok r →
    ∀ n, sentOn n r.trace <+: jobText J

/-- **C118** as stated: what a request has acquired is released, once, when it is over. -/
def C118_statement : Prop :=
  ∀ (L : Tls.Lib) (files : Bool) (J : Job L) (a b : Attempt L) (r : Result L), post files J a b = .ok r →
    holds [] r.trace = some []

/-! ## Writing -/

theorem writeData_spec : ∀ (ws : List Int) (d : Bytes),
    (writeData ws d).2.1 <+: d ∧ ((writeData ws d).1 = true ↔ (writeData ws d).2.1 = d)
  | ws, [] => by simp [writeData]
  | [], _ :: _ => by simp [writeData]
  | w :: ws, c :: d => by
    unfold writeData
    split
    · simp
    · obtain ⟨h1, h2⟩ := writeData_spec ws ((c :: d).drop w.toNat)
      dsimp only
      refine ⟨?_, ?_⟩
      · conv => rhs; rw [← List.take_append_drop w.toNat (c :: d)]
        exact (List.prefix_append_right_inj _).2 h1
      · rw [h2]
        constructor
        · intro h; rw [h, List.take_append_drop]
        · intro h
          conv at h => rhs; rw [← List.take_append_drop w.toNat (c :: d)]
          exact List.append_cancel_left h

theorem hasField_addField (hs : List Field) (k v k' : Bytes) :
    hasField (addField hs k v) k' = (hasField hs k' || (!hasCrlf k && !hasCrlf v) && Wire.named k' (k, v)) := by
  unfold addField hasField
  split
  · rename_i h
    rw [h, Bool.true_and]
    unfold emplace
    rw [List.any_append, List.any_cons]
    conv => rhs; rw [← List.takeWhile_append_dropWhile (p := fun g => !ciLt k g.1) (l := hs), List.any_append]
    dsimp only
    cases (List.takeWhile (fun g => !ciLt k g.fst) hs).any (Wire.named k') <;>
      cases (List.dropWhile (fun g => !ciLt k g.fst) hs).any (Wire.named k') <;> cases Wire.named k' (k, v) <;> rfl
  · rename_i h
    simp only [Bool.not_eq_true] at h
    rw [h]; simp

theorem hasField_mono {hs : List Field} {k : Bytes} (k' v' : Bytes) (h : hasField hs k = true) :
    hasField (addField hs k' v') k = true := by
  rw [hasField_addField, h, Bool.true_or]

/-- Adding the field once more would change nothing. -/
def Concluded (hs : List Field) (k v : Bytes) : Prop := hasField hs k = true ∨ (!hasCrlf k && !hasCrlf v) = false

theorem settled_eq {hs : List Field} {k v : Bytes} (h : Concluded hs k v) : addOnce hs k v = hs := by
  unfold addOnce
  split
  · rfl
  · rename_i hn
    rcases h with h | h
    · exact absurd h hn
    · unfold addField; rw [if_neg]; simp [h]

theorem settled_addField {hs : List Field} {k v : Bytes} (k' v' : Bytes) (h : Concluded hs k v) : Concluded (addField hs k' v') k v :=
  h.imp (hasField_mono k' v') id

theorem settled_addOnce {hs : List Field} {k v : Bytes} (k' v' : Bytes) (h : Concluded hs k v) : Concluded (addOnce hs k' v') k v := by
  unfold addOnce
  split
  · exact h
  · exact settled_addField k' v' h

theorem settled_self (hs : List Field) (k v : Bytes) : Concluded (addOnce hs k v) k v := by
  unfold addOnce
  split
  · rename_i h; exact .inl h
  · cases hc : (!hasCrlf k && !hasCrlf v)
    · exact .inr hc
    · refine .inl ?_
      rw [hasField_addField, hc, Bool.true_and]
      simp [Wire.named, ciLt_same (show SameName k k from rfl)]

/-- The fields are the same when they are prepared again, unless the body is empty. -/
theorem prepare_again (host body : Bytes) (hs : List Field) :
    prepare host body (prepare host body hs) =
      if body = [] then addField (prepare host body hs) (str "Content-Length") (str "0") else prepare host body hs := by
  generalize hp : prepare host body hs = q
  have h1 : Concluded q (str "Connection") (str "close") ∧ Concluded q (str "Host") host ∧ Concluded q (str "Accept") (str "*/*") ∧
      Concluded q (str "User-Agent") (str "cpp-httplib/0.14.3") ∧
      (body ≠ [] → Concluded q (str "Content-Type") (str "text/plain") ∧
        Concluded q (str "Content-Length") (BoolTime.natDec body.length)) := by
    rw [← hp]
    unfold prepare
    dsimp only
    split
    · refine ⟨?_, ?_, ?_, ?_, fun h => absurd ‹_› h⟩ <;> apply settled_addField
      · exact settled_addOnce _ _ (settled_addOnce _ _ (settled_addOnce _ _ (settled_self _ _ _)))
      · exact settled_addOnce _ _ (settled_addOnce _ _ (settled_self _ _ _))
      · exact settled_addOnce _ _ (settled_self _ _ _)
      · exact settled_self _ _ _
    · refine ⟨?_, ?_, ?_, ?_, fun _ => ⟨?_, settled_self _ _ _⟩⟩ <;> apply settled_addOnce
      · exact settled_addOnce _ _ (settled_addOnce _ _ (settled_addOnce _ _ (settled_addOnce _ _ (settled_self _ _ _))))
      · exact settled_addOnce _ _ (settled_addOnce _ _ (settled_addOnce _ _ (settled_self _ _ _)))
      · exact settled_addOnce _ _ (settled_addOnce _ _ (settled_self _ _ _))
      · exact settled_addOnce _ _ (settled_self _ _ _)
      · exact settled_self _ _ _
  obtain ⟨h1, h2, h3, h4, h5⟩ := h1
  unfold prepare
  dsimp only
  rw [settled_eq h1, settled_eq h2, settled_eq h3, settled_eq h4]
  split
  · rfl
  · rename_i hb
    rw [settled_eq (h5 hb).1, settled_eq (h5 hb).2]

/-- The fields that the request starts with (`Content-Type`). -/
abbrev startFields (ctype : Bytes) : List Field := if ctype = [] then [] else addField [] (str "Content-Type") ctype

theorem addOnce_new {hs : List Field} {k v : Bytes} (h : hasField hs k = false) : addOnce hs k v = addField hs k v := by
  unfold addOnce; rw [h]; rfl

theorem hasField_skip {hs : List Field} {k v k' : Bytes} (hn : (!ciLt k k' && !ciLt k' k) = false) :
    hasField (addField hs k v) k' = hasField hs k' := by
  rw [hasField_addField, show Wire.named k' (k, v) = false from hn]; simp

theorem start_lacks {ctype k : Bytes} (hn : (!ciLt (str "Content-Type") k && !ciLt k (str "Content-Type")) = false) :
    hasField (startFields ctype) k = false := by
  unfold startFields
  split
  · rfl
  · rw [hasField_skip hn]; rfl

theorem prepare_first (host ctype body : Bytes) :
    prepare host body (startFields ctype) = requestFields host ctype body := by
  unfold prepare requestFields
  dsimp only
  rw [addOnce_new (hs := startFields ctype) (start_lacks (by decide +kernel))]
  rw [addOnce_new (k := str "Host") (by
    rw [hasField_skip (by decide +kernel)]; exact start_lacks (by decide +kernel))]
  rw [addOnce_new (k := str "Accept") (by
    rw [hasField_skip (by decide +kernel), hasField_skip (by decide +kernel)]; exact start_lacks (by decide +kernel))]
  rw [addOnce_new (k := str "User-Agent") (by
    rw [hasField_skip (by decide +kernel), hasField_skip (by decide +kernel), hasField_skip (by decide +kernel)]
    exact start_lacks (by decide +kernel))]
  have hl : ∀ v1 v2 v3 v4, hasField (addField (addField (addField (addField (startFields ctype) (str "Connection") v1) (str "Host") v2)
      (str "Accept") v3) (str "User-Agent") v4) (str "Content-Length") = false := by
    intro v1 v2 v3 v4
    rw [hasField_skip (by decide +kernel), hasField_skip (by decide +kernel), hasField_skip (by decide +kernel),
      hasField_skip (by decide +kernel)]
    exact start_lacks (by decide +kernel)
  by_cases hb : body = []
  · subst hb
    rw [if_pos rfl, if_neg (by simp), show BoolTime.natDec ([] : Bytes).length = str "0" by decide +kernel]
  · rw [if_neg hb]
    rw [addOnce_new (k := str "Content-Length")]
    · unfold addOnce
      split
      · rename_i h; rw [if_neg (by rw [h]; simp)]
      · rename_i h; rw [if_pos ⟨hb, by simpa using h⟩]
    · unfold addOnce
      split
      · exact hl _ _ _ _
      · rw [hasField_skip (by decide +kernel)]; exact hl _ _ _ _

/-! ## One attempt -/

theorem sentOn_append (n : Nat) (s t : List Ev) : sentOn n (s ++ t) = sentOn n s ++ sentOn n t := List.flatMap_append

theorem sentOn_wrote (n : Nat) : ∀ ws : List Bytes, sentOn n (ws.map (Ev.wrote n)) = ws.flatten
  | [] => rfl
  | w :: ws => by
    show (if n = n then w else []) ++ sentOn n (ws.map (Ev.wrote n)) = _
    rw [if_pos rfl, sentOn_wrote n ws]; rfl

theorem sentOn_other {m n : Nat} (h : m ≠ n) : ∀ ws : List Bytes, sentOn n (ws.map (Ev.wrote m)) = []
  | [] => rfl
  | w :: ws => by
    show (if m = n then w else []) ++ sentOn n (ws.map (Ev.wrote m)) = _
    rw [if_neg h, sentOn_other h ws]; rfl

/-- What the next request on a client would look like. -/
def nextText {L : Tls.Lib} (J : Job L) (s : St L) : Bytes := headText J.path (prepare J.host J.body s.fields) ++ J.body

theorem writeRequest_spec {L : Tls.Lib} (J : Job L) (n : Nat) (ws : List Int) (s : St L) :
    ∃ (ok : Bool) (bs : List Bytes), writeRequest J n ws s =
        (ok, { s with fields := prepare J.host J.body s.fields, trace := s.trace ++ bs.map (Ev.wrote n) }) ∧
      bs.flatten <+: nextText J s ∧ (ok = true ↔ bs.flatten = nextText J s) := by
  unfold writeRequest
  dsimp only
  obtain ⟨h1, h2⟩ := writeData_spec ws (headText J.path (prepare J.host J.body s.fields))
  generalize writeData ws (headText J.path (prepare J.host J.body s.fields)) = w at h1 h2 ⊢
  obtain ⟨ok, b, ws'⟩ := w
  dsimp only at h1 h2 ⊢
  cases ok with
  | true =>
    have hb := h2.1 rfl
    obtain ⟨h3, h4⟩ := writeData_spec ws' J.body
    generalize writeData ws' J.body = v at h3 h4 ⊢
    obtain ⟨ok, b', ws''⟩ := v
    dsimp only at h3 h4 ⊢
    refine ⟨ok, [b, b'], ?_, ?_, ?_⟩
    · simp [St.log]
    · simp only [List.flatten_cons, List.flatten_nil, List.append_nil]
      rw [hb]
      exact (List.prefix_append_right_inj _).2 h3
    · simp only [List.flatten_cons, List.flatten_nil, List.append_nil]
      rw [h4, hb]
      unfold nextText
      exact (List.append_right_inj _).symm
  | false =>
    refine ⟨false, [b], ?_, ?_, ?_⟩
    · simp [St.log]
    · simp only [List.flatten_cons, List.flatten_nil, List.append_nil]
      exact h1.trans (List.prefix_append _ _)
    · simp only [List.flatten_cons, List.flatten_nil, List.append_nil]
      constructor
      · intro h; cases h
      · intro h
        have hle := h1.length_le
        have : b = headText J.path (prepare J.host J.body s.fields) := by
          apply h1.eq_of_length_le
          rw [h]; unfold nextText; simp
        exact h2.2 this

/-- The certificate that the client keeps from a connection. -/
def keeps {L : Tls.Lib} (J : Job L) (n : Nat) (a : Attempt L) (old : Option (Nat × L.Cert)) : Option (Nat × L.Cert) :=
  if J.verify then old else a.chain.head?.map fun c => (n, c)

/-- The events by which it gets it. -/
def gets {L : Tls.Lib} (J : Job L) (n : Nat) (a : Attempt L) : List Ev :=
  if J.verify = false ∧ a.chain ≠ [] then [.acquire (.cert n)] else []

/-- The events of an attempt that gets no session. -/
def idle (n : Nat) : List (List Ev) :=
  [[], [.acquire (.sock n), .release (.sock n)],
    [.acquire (.sock n), .acquire (.ssl n), .release (.ssl n), .release (.sock n)]]

theorem accepted_iff {L : Tls.Lib} (J : Job L) (a : Attempt L) : Accepted J a ↔
    a.socket = true ∧ a.session = true ∧ (a.handshake && Tls.connect L J.system J.verify (some J.store) a.chain) = true := by
  unfold Accepted Tls.connect Tls.loadCerts
  cases a.socket <;> cases a.session <;> cases a.handshake <;> cases J.verify <;> cases a.chain <;>
    simp

theorem initSsl_ok {L : Tls.Lib} (J : Job L) (n : Nat) (a : Attempt L) (sock : Option Nat) (s : St L) (hse : a.session = true)
    (hok : (a.handshake && Tls.connect L J.system J.verify (some J.store) a.chain) = true) :
    initSsl J n a ({ s with sock := sock }.log [.acquire (.sock n)]) = (true, ⟨sock, some n, keeps J n a s.cert, s.fields,
      s.trace ++ ([.acquire (.sock n)] ++ gets J n a ++ [.acquire (.ssl n)])⟩) := by
  unfold initSsl keeps gets
  rw [if_pos hse, if_pos hok]
  cases J.verify <;> cases a.chain <;> simp [St.log]

theorem send_spec {L : Tls.Lib} {J : Job L} {n : Nat} {a : Attempt L} {s s' : St L} {e : End}
    (hs : s.sock = none) (hl : s.ssl = none) (h : send_ J n a s = .ok (e, s')) :
    s'.sock = none ∧ s'.ssl = none ∧
      ((¬ Accepted J a ∧ e = .failed ∧ s'.cert = s.cert ∧ ∃ t ∈ idle n, s'.trace = s.trace ++ t) ∨
        (Accepted J a ∧ s'.cert = keeps J n a s.cert ∧ ∃ bs : List Bytes,
          s'.trace = s.trace ++ ([.acquire (.sock n)] ++ gets J n a ++ [.acquire (.ssl n)] ++ bs.map (Ev.wrote n) ++
            [.release (.ssl n), .release (.sock n)]) ∧
          bs.flatten <+: nextText J s ∧
          (J.path = [] → bs = [] ∧ e = .failed) ∧
          (J.path ≠ [] → s'.fields = prepare J.host J.body s.fields) ∧
          (J.path ≠ [] → bs.flatten ≠ nextText J s → e = .failed) ∧
          (J.path ≠ [] → bs.flatten = nextText J s → a.closed = true → e = .peerClosed) ∧
          (J.path ≠ [] → bs.flatten = nextText J s → a.closed = false →
            ∃ r, Cut.readReply a.reply = .ok r ∧ e = match r with
              | none => .failed
              | some (st, b) => .reply st b))) := by
  obtain ⟨sock, ssl, cert, fields, trace⟩ := s
  dsimp only at hs hl
  subst hs hl
  rw [accepted_iff]
  unfold send_ at h
  split at h
  case isFalse hk =>
    cases h
    exact ⟨rfl, rfl, .inl ⟨fun h => hk h.1, rfl, rfl, [], by simp [idle], by simp⟩⟩
  case isTrue hk =>
    cases hse : a.session with
    | false =>
      unfold initSsl at h
      rw [hse] at h
      simp only [Bool.false_eq_true, if_false] at h
      cases h
      refine ⟨rfl, rfl, .inl ⟨by simp, rfl, rfl, _, List.mem_cons_of_mem _ (List.mem_cons_self ..), ?_⟩⟩
      simp [St.close, St.log]
    | true =>
      cases hok : (a.handshake && Tls.connect L J.system J.verify (some J.store) a.chain) with
      | false =>
        unfold initSsl at h
        rw [hse, hok] at h
        simp only [if_true, Bool.false_eq_true, if_false] at h
        cases h
        refine ⟨rfl, rfl, .inl ⟨by simp, rfl, rfl, _, List.mem_cons_of_mem _ (List.mem_cons_of_mem _ (List.mem_cons_self ..)), ?_⟩⟩
        simp [St.close, St.log]
      | true =>
        rw [initSsl_ok J n _ _ _ hse hok] at h
        dsimp only at h
        split at h
        · rename_i hp
          cases h
          refine ⟨rfl, rfl, .inr ⟨⟨hk, rfl, rfl⟩, rfl, [], ?_, List.nil_prefix, fun _ => ⟨rfl, rfl⟩, fun h => absurd hp h,
            fun h => absurd hp h, fun h => absurd hp h, fun h => absurd hp h⟩⟩
          simp [St.close, St.log]
        · rename_i hp
          unfold processRequest at h
          obtain ⟨ok, bs, hw, hpre, hok'⟩ := writeRequest_spec J n a.writes
            (⟨some n, some n, keeps J n a cert, fields,
              trace ++ ([.acquire (.sock n)] ++ gets J n a ++ [.acquire (.ssl n)])⟩ : St L)
          rw [hw] at h
          change bs.flatten <+: headText J.path (prepare J.host J.body fields) ++ J.body at hpre
          change ok = true ↔ bs.flatten = headText J.path (prepare J.host J.body fields) ++ J.body at hok'
          have hn : nextText J (⟨none, none, cert, fields, trace⟩ : St L) =
            headText J.path (prepare J.host J.body fields) ++ J.body := rfl
          cases ok with
          | false =>
            cases h
            refine ⟨rfl, rfl, .inr ⟨⟨hk, rfl, rfl⟩, rfl, bs, ?_, hpre, fun h => absurd h hp, fun _ => rfl, fun _ _ => rfl,
              fun _ h => ?_, fun _ h => ?_⟩⟩
            · simp [St.close, St.log]
            · exact absurd (hok'.2 (hn ▸ h)) (by simp)
            · exact absurd (hok'.2 (hn ▸ h)) (by simp)
          | true =>
            dsimp only at h
            split at h
            · rename_i hc
              cases h
              refine ⟨rfl, rfl, .inr ⟨⟨hk, rfl, rfl⟩, rfl, bs, ?_, hpre, fun h => absurd h hp, fun _ => rfl, fun _ h => ?_,
                fun _ _ _ => rfl, fun _ _ h => ?_⟩⟩
              · simp [St.close, St.log]
              · exact absurd (hok'.1 rfl) (hn ▸ h)
              · rw [hc] at h; cases h
            · rename_i hc
              cases hr : Cut.readReply a.reply with
              | ub => rw [hr] at h; cases h
              | ok r =>
                rw [hr] at h
                cases r with
                | none =>
                  cases h
                  refine ⟨rfl, rfl, .inr ⟨⟨hk, rfl, rfl⟩, rfl, bs, ?_, hpre, fun h => absurd h hp, fun _ => rfl, fun _ h => ?_,
                    fun _ _ h => absurd h hc, fun _ _ _ => ⟨none, rfl, rfl⟩⟩⟩
                  · simp [St.close, St.log]
                  · exact absurd (hok'.1 rfl) (hn ▸ h)
                | some p =>
                  obtain ⟨st, b⟩ := p
                  cases h
                  refine ⟨rfl, rfl, .inr ⟨⟨hk, rfl, rfl⟩, rfl, bs, ?_, hpre, fun h => absurd h hp, fun _ => rfl, fun _ h => ?_,
                    fun _ _ h => absurd h hc, fun _ _ _ => ⟨some (st, b), rfl, rfl⟩⟩⟩
                  · simp [St.close, St.log]
                  · exact absurd (hok'.1 rfl) (hn ▸ h)

/-! ## A request -/

/-- The client when the request begins. -/
def fresh0 {L : Tls.Lib} (J : Job L) : St L := ⟨none, none, none, startFields J.ctype, [.acquire .ctx]⟩

/-- What is returned in the end. -/
def final {L : Tls.Lib} (e : End) (s : St L) : Result L :=
  ⟨match e with
    | .reply st body => some (st, body, s.cert.map (·.2))
    | _ => none, s.destroy.trace⟩

theorem post_shape {L : Tls.Lib} {J : Job L} {a b : Attempt L} {r : Result L} (h : post true J a b = .ok r) :
    ∃ e s, send_ J 0 a (fresh0 J) = .ok (e, s) ∧
      ((e ≠ .peerClosed ∧ r = final e s) ∨ (e = .peerClosed ∧ ∃ e' s', send_ J 1 b s = .ok (e', s') ∧ r = final e' s')) := by
  unfold post at h
  rw [if_pos rfl] at h
  obtain ⟨⟨e, s⟩, hs, h⟩ := bind_inv' h
  unfold send at hs
  obtain ⟨⟨e0, s0⟩, h0, hs⟩ := bind_inv' hs
  refine ⟨e0, s0, h0, ?_⟩
  cases e0 with
  | peerClosed =>
    refine .inr ⟨rfl, e, s, hs, ?_⟩
    cases e <;> · cases h; rfl
  | failed =>
    cases hs; cases h
    exact .inl ⟨by simp, rfl⟩
  | reply st body =>
    cases hs; cases h
    exact .inl ⟨by simp, rfl⟩

theorem destroy_trace {L : Tls.Lib} {s : St L} (h : s.sock = none) :
    s.destroy.trace = s.trace ++ (.release .ctx :: (s.cert.map fun c => Ev.release (.cert c.1)).toList) := by
  obtain ⟨sock, ssl, cert, fields, trace⟩ := s
  subst h
  cases cert <;> simp [St.destroy, St.log, St.close]

theorem sentOn_destroy {L : Tls.Lib} {s : St L} (h : s.sock = none) (n : Nat) : sentOn n s.destroy.trace = sentOn n s.trace := by
  rw [destroy_trace h, sentOn_append]
  cases s.cert <;> simp [sentOn]

theorem sentOn_idle {n m : Nat} {t : List Ev} (h : t ∈ idle n) : sentOn m t = [] := by
  simp only [idle, List.mem_cons, List.not_mem_nil, or_false] at h
  rcases h with rfl | rfl | rfl <;> rfl

theorem sentOn_attempt {L : Tls.Lib} (J : Job L) (a : Attempt L) (n m : Nat) (bs : List Bytes) :
    sentOn m ([.acquire (.sock n)] ++ gets J n a ++ [.acquire (.ssl n)] ++ bs.map (Ev.wrote n) ++
      [.release (.ssl n), .release (.sock n)]) = if m = n then bs.flatten else [] := by
  rw [sentOn_append, sentOn_append, sentOn_append, sentOn_append]
  have h1 : sentOn m (gets J n a) = [] := by unfold gets; split <;> rfl
  rw [h1]
  split
  · rename_i h; subst h; rw [sentOn_wrote]; simp [sentOn]
  · rename_i h; rw [sentOn_other (Ne.symm h)]; simp [sentOn]

theorem nextText_fresh {L : Tls.Lib} (J : Job L) : nextText J (fresh0 J) = jobText J := by
  unfold nextText fresh0 jobText requestText headText
  dsimp only
  rw [prepare_first]

/-- What would be sent the second time. -/
def againText {L : Tls.Lib} (J : Job L) : Bytes :=
  if J.body = [] then headText J.path (addField (requestFields J.host J.ctype J.body) (str "Content-Length") (str "0"))
  else jobText J

theorem nextText_again {L : Tls.Lib} {J : Job L} {s : St L} (h : s.fields = prepare J.host J.body (startFields J.ctype)) :
    nextText J s = againText J := by
  unfold nextText againText jobText requestText headText
  rw [h, prepare_again, prepare_first]
  split
  · rename_i hb; rw [hb, List.append_nil]
  · rfl

/-- The request was sent completely over the first connection, and the server closed it without a reply. -/
def Closed {L : Tls.Lib} (J : Job L) (a : Attempt L) (r : Result L) : Prop :=
  J.path ≠ [] ∧ Accepted J a ∧ a.closed = true ∧ sentOn 0 r.trace = jobText J

/-- All that is known about a request: the first attempt decides, or it was closed and the second one decides. -/
theorem post_all {L : Tls.Lib} {J : Job L} {a b : Attempt L} {r : Result L} (h : post true J a b = .ok r) :
    (¬ Closed J a r ∧ ∃ e s, send_ J 0 a (fresh0 J) = .ok (e, s) ∧ e ≠ .peerClosed ∧ r = final e s) ∨
      (Closed J a r ∧ ∃ s e' s', send_ J 0 a (fresh0 J) = .ok (.peerClosed, s) ∧ send_ J 1 b s = .ok (e', s') ∧ r = final e' s') := by
  obtain ⟨e, s, h0, hr⟩ := post_shape h
  obtain ⟨hk, hl, hc⟩ := send_spec rfl rfl h0
  rcases hr with ⟨he, rfl⟩ | ⟨rfl, e', s', h1, rfl⟩
  · refine .inl ⟨fun hcl => ?_, e, s, h0, he, rfl⟩
    obtain ⟨hp, ha, hcl, hw⟩ := hcl
    rcases hc with ⟨hn, _⟩ | ⟨_, _, bs, ht, _, _, _, _, h5, _⟩
    · exact hn ha
    · refine he (h5 hp ?_ hcl)
      rw [nextText_fresh, ← hw]
      show _ = sentOn 0 s.destroy.trace
      rw [sentOn_destroy hk, ht, sentOn_append, sentOn_attempt, if_pos rfl]; rfl
  · refine .inr ⟨?_, s, e', s', h0, h1, rfl⟩
    rcases hc with ⟨_, hn, _⟩ | ⟨ha, _, bs, ht, _, h2, _, h4, _, h6⟩
    · cases hn
    · have hp : J.path ≠ [] := fun h => by cases (h2 h).2
      have hw : bs.flatten = nextText J (fresh0 J) := Classical.byContradiction fun h => by cases h4 hp h
      have hcl : a.closed = true := by
        cases hx : a.closed with
        | true => rfl
        | false =>
          obtain ⟨x, _, hx⟩ := h6 hp hw hx
          cases x <;> cases hx
      refine ⟨hp, ha, hcl, ?_⟩
      obtain ⟨hk', _, hc'⟩ := send_spec hk hl h1
      show sentOn 0 s'.destroy.trace = _
      rw [sentOn_destroy hk', ← nextText_fresh, ← hw]
      have h0' : sentOn 0 s.trace = bs.flatten := by
        rw [ht, sentOn_append, sentOn_attempt, if_pos rfl]; rfl
      rcases hc' with ⟨_, _, _, t, ht', htr⟩ | ⟨_, _, bs', htr, _⟩
      · rw [htr, sentOn_append, sentOn_idle ht', h0', List.append_nil]
      · rw [htr, sentOn_append, sentOn_attempt, if_neg (by decide), h0', List.append_nil]

/-! ## C116 -/

/-- **C116**, exactly: no connection but the first and the second gets anything; the second gets something only if the first got all of the
request and was closed by the server without a byte of reply; a reply comes from the last connection that was used, which got all of a
request, and without verification the certificate handed over is the one shown on that connection. -/
theorem C116_partial {L : Tls.Lib} {files : Bool} {J : Job L} {a b : Attempt L} {r : Result L} (h : post files J a b = .ok r) :
    (∀ n, 2 ≤ n → sentOn n r.trace = []) ∧
      (sentOn 1 r.trace ≠ [] → files = true ∧ Closed J a r ∧ Accepted J b) ∧
      (a.closed = false → sentOn 1 r.trace = []) ∧
      ∀ st body c, r.value = some (st, body, c) → ∃ x k, ((x = a ∧ k = 0 ∧ ¬ Closed J a r ∧ sentOn 0 r.trace = jobText J) ∨
          (x = b ∧ k = 1 ∧ Closed J a r ∧ sentOn 1 r.trace = againText J)) ∧
        Accepted J x ∧ x.closed = false ∧ Cut.readReply x.reply = .ok (some (st, body)) ∧
        (∀ n, k < n → sentOn n r.trace = []) ∧ c = if J.verify then none else x.chain.head? := by
  cases files with
  | false =>
    cases h
    refine ⟨fun _ _ => rfl, fun h => absurd rfl h, fun _ => rfl, fun _ _ _ h => by cases h⟩
  | true =>
    rcases post_all h with ⟨hn, e, s, h0, he, rfl⟩ | ⟨hcl, s, e', s', h0, h1, rfl⟩
    · obtain ⟨hk, hl, hc⟩ := send_spec rfl rfl h0
      have hso : ∀ n, n ≠ 0 → sentOn n (final e s).trace = [] := by
        intro n hn0
        show sentOn n s.destroy.trace = _
        rw [sentOn_destroy hk]
        rcases hc with ⟨_, _, _, t, ht, htr⟩ | ⟨_, _, bs, htr, _⟩
        · rw [htr, sentOn_append, sentOn_idle ht]; rfl
        · rw [htr, sentOn_append, sentOn_attempt, if_neg hn0]; rfl
      refine ⟨fun n hn => hso n (by omega), fun h => absurd (hso 1 (by decide)) h, fun _ => hso 1 (by decide), ?_⟩
      intro st body c hv
      cases e with
      | failed => cases hv
      | peerClosed => exact absurd rfl he
      | reply st' body' =>
        cases hv
        rcases hc with ⟨_, h, _⟩ | ⟨ha, hcert, bs, ht, _, h2, _, h4, h5, h6⟩
        · cases h
        · have hp : J.path ≠ [] := fun h => by cases (h2 h).2
          have hw : bs.flatten = nextText J (fresh0 J) := Classical.byContradiction fun h => by cases h4 hp h
          have hx : a.closed = false := by
            cases hx : a.closed with
            | false => rfl
            | true => cases h5 hp hw hx
          obtain ⟨x, hx1, hx2⟩ := h6 hp hw hx
          refine ⟨a, 0, .inl ⟨rfl, rfl, hn, ?_⟩, ha, hx, ?_, fun n hn => hso n (by omega), ?_⟩
          · show sentOn 0 s.destroy.trace = _
            rw [sentOn_destroy hk, ht, sentOn_append, sentOn_attempt, if_pos rfl, hw, nextText_fresh]; rfl
          · rw [hx1]
            cases x with
            | none => cases hx2
            | some p => cases hx2; rfl
          · rw [hcert]
            unfold keeps
            cases J.verify
            · cases a.chain <;> simp
            · rfl
    · obtain ⟨hk, hl, hc⟩ := send_spec rfl rfl h0
      obtain ⟨hk', _, hc'⟩ := send_spec hk hl h1
      have hf : s.fields = prepare J.host J.body (startFields J.ctype) := by
        rcases hc with ⟨h, _⟩ | ⟨_, _, _, _, _, _, hf, _⟩
        · exact absurd hcl.2.1 h
        · exact hf hcl.1
      have hs1 : ∀ n, n ≠ 0 → sentOn n s.trace = [] := by
        intro n hn0
        rcases hc with ⟨_, _, _, t, ht, htr⟩ | ⟨_, _, bs, htr, _⟩
        · rw [htr, sentOn_append, sentOn_idle ht]; rfl
        · rw [htr, sentOn_append, sentOn_attempt, if_neg hn0]; rfl
      have hs2 : ∀ n, 2 ≤ n → sentOn n (final e' s').trace = [] := by
        intro n hn
        show sentOn n s'.destroy.trace = _
        rw [sentOn_destroy hk']
        rcases hc' with ⟨_, _, _, t, ht, htr⟩ | ⟨_, _, bs, htr, _⟩
        · rw [htr, sentOn_append, sentOn_idle ht, hs1 n (by omega)]; rfl
        · rw [htr, sentOn_append, sentOn_attempt, if_neg (by omega), hs1 n (by omega)]; rfl
      refine ⟨hs2, fun h => ⟨rfl, hcl, ?_⟩, fun h => (by rw [hcl.2.2.1] at h; cases h), ?_⟩
      · rcases hc' with ⟨_, _, _, t, ht, htr⟩ | ⟨hb, _⟩
        · refine absurd ?_ h
          show sentOn 1 s'.destroy.trace = _
          rw [sentOn_destroy hk', htr, sentOn_append, sentOn_idle ht, hs1 1 (by decide)]; rfl
        · exact hb
      · intro st body c hv
        cases e' with
        | failed => cases hv
        | peerClosed => cases hv
        | reply st' body' =>
          cases hv
          rcases hc' with ⟨_, h, _⟩ | ⟨hb, hcert, bs, ht, _, h2, _, h4, h5, h6⟩
          · cases h
          · have hp := hcl.1
            have hw : bs.flatten = nextText J s := Classical.byContradiction fun h => by cases h4 hp h
            have hx : b.closed = false := by
              cases hx : b.closed with
              | false => rfl
              | true => cases h5 hp hw hx
            obtain ⟨x, hx1, hx2⟩ := h6 hp hw hx
            refine ⟨b, 1, .inr ⟨rfl, rfl, hcl, ?_⟩, hb, hx, ?_, fun n hn => hs2 n hn, ?_⟩
            · show sentOn 1 s'.destroy.trace = _
              rw [sentOn_destroy hk', ht, sentOn_append, sentOn_attempt, if_pos rfl, hw, hs1 1 (by decide), nextText_again hf]; rfl
            · rw [hx1]
              cases x with
              | none => cases hx2
              | some p => cases hx2; rfl
            · rw [hcert]
              unfold keeps
              have hold : J.verify = true → s.cert = none := by
                intro hv
                rcases hc with ⟨h, _⟩ | ⟨_, hc, _⟩
                · exact absurd hcl.2.1 h
                · rw [hc]; unfold keeps; rw [hv]; rfl
              cases hv : J.verify
              · cases b.chain <;> simp
              · simp [hold hv]

/-- **C116**: such a server does make the client connect again. -/
theorem C116_again {L : Tls.Lib} {J : Job L} {a b : Attempt L} {r : Result L} (h : post true J a b = .ok r) (hc : Closed J a r)
    (hb : b.socket = true) : Ev.acquire (.sock 1) ∈ r.trace := by
  rcases post_all h with ⟨hn, _⟩ | ⟨_, s, e', s', h0, h1, rfl⟩
  · exact absurd hc hn
  · obtain ⟨hk, hl, _⟩ := send_spec rfl rfl h0
    obtain ⟨hk', _, hc'⟩ := send_spec hk hl h1
    show _ ∈ s'.destroy.trace
    rw [destroy_trace hk']
    refine List.mem_append_left _ ?_
    rcases hc' with ⟨hn, _, _, t, ht, htr⟩ | ⟨_, _, bs, htr, _⟩
    · rw [htr]
      refine List.mem_append_right _ ?_
      simp only [idle, List.mem_cons, List.not_mem_nil, or_false] at ht
      rcases ht with rfl | rfl | rfl
      · unfold send_ initSsl at h1
        rw [if_pos hb] at h1
        cases hs : b.session with
        | false =>
          rw [hs] at h1
          cases h1
          simp [St.close, St.log, hl] at htr
        | true =>
          rw [accepted_iff] at hn
          cases hh : (b.handshake && Tls.connect L J.system J.verify (some J.store) b.chain) with
          | true => exact absurd ⟨hb, hs, hh⟩ hn
          | false =>
            rw [hs, hh] at h1
            cases h1
            simp [St.close, St.log, hl] at htr
      · simp
      · simp
    · rw [htr]; simp

/-- **C116**: a request that is sent completely and not closed is the one of `Tls.post` (C69, C70, C113). -/
theorem C116_link {L : Tls.Lib} {files mem : Bool} {J : Job L} {a b : Attempt L} {r : Result L} {x : Option (Nat × Bytes)}
    (h : post files J a b = .ok r) (hst : J.store = []) (hp : J.path ≠ []) (h1 : a.socket = true) (h2 : a.session = true)
    (h3 : a.handshake = true) (hw : sentOn 0 r.trace = jobText J ∨ ¬ Accepted J a) (hcl : a.closed = false)
    (hx : Cut.readReply a.reply = .ok x) :
    Tls.post L ⟨J.system, files, mem⟩ J.verify ⟨a.chain, fun _ => x⟩ J.body = r.value.map fun v => (v.1, v.2.1) := by
  unfold Tls.post Tls.newClient
  cases files with
  | false => cases h; rfl
  | true =>
    show (if Tls.connect L J.system J.verify (some []) a.chain = true then x else none) = _
    have hacc : Accepted J a ↔ Tls.connect L J.system J.verify (some []) a.chain = true := by
      rw [accepted_iff, h1, h2, h3, hst]; simp
    rcases post_all h with ⟨hn, e, s, h0, he, rfl⟩ | ⟨hc, _⟩
    · obtain ⟨hk, hl, hc⟩ := send_spec rfl rfl h0
      rcases hc with ⟨hna, rfl, _⟩ | ⟨ha, _, bs, ht, _, _, _, _, _, h6⟩
      · rw [if_neg (fun h => hna (hacc.2 h))]; rfl
      · rw [if_pos (hacc.1 ha)]
        have hb : bs.flatten = nextText J (fresh0 J) := by
          rcases hw with hw | hw
          · rw [nextText_fresh, ← hw]
            show _ = sentOn 0 s.destroy.trace
            rw [sentOn_destroy hk, ht, sentOn_append, sentOn_attempt, if_pos rfl]; rfl
          · exact absurd ha hw
        obtain ⟨y, hy, rfl⟩ := h6 hp hb hcl
        rw [hx] at hy
        cases hy
        cases x <;> rfl
    · rw [hc.2.2.1] at hcl; cases hcl

/-! ## C117 -/

/-- **C117**, exactly: the first connection gets the request or the beginning of it, the second one too if there is a body; without a
body it gets (the beginning of) the request with another field `Content-Length`. -/
theorem C117_partial {L : Tls.Lib} {files : Bool} {J : Job L} {a b : Attempt L} {r : Result L} (h : post files J a b = .ok r) :
    sentOn 0 r.trace <+: jobText J ∧ sentOn 1 r.trace <+: againText J ∧ (J.body ≠ [] → ∀ n, sentOn n r.trace <+: jobText J) := by
  have h01 : sentOn 0 r.trace <+: jobText J ∧ sentOn 1 r.trace <+: againText J := by
    cases files with
    | false => cases h; exact ⟨List.nil_prefix, List.nil_prefix⟩
    | true =>
      rcases post_all h with ⟨hn, e, s, h0, he, rfl⟩ | ⟨hcl, s, e', s', h0, h1, rfl⟩
      · obtain ⟨hk, hl, hc⟩ := send_spec rfl rfl h0
        show sentOn 0 s.destroy.trace <+: _ ∧ sentOn 1 s.destroy.trace <+: _
        rw [sentOn_destroy hk, sentOn_destroy hk]
        rcases hc with ⟨_, _, _, t, ht, htr⟩ | ⟨_, _, bs, htr, hpre, _⟩
        · rw [htr, sentOn_append, sentOn_append, sentOn_idle ht, sentOn_idle ht]
          exact ⟨List.nil_prefix, List.nil_prefix⟩
        · rw [htr, sentOn_append 0, sentOn_attempt, sentOn_append 1, sentOn_attempt, if_pos rfl, if_neg (by decide)]
          rw [nextText_fresh] at hpre
          exact ⟨hpre, List.nil_prefix⟩
      · refine ⟨hcl.2.2.2 ▸ List.prefix_refl _, ?_⟩
        obtain ⟨hk, hl, hc⟩ := send_spec rfl rfl h0
        obtain ⟨hk', _, hc'⟩ := send_spec hk hl h1
        have hf : s.fields = prepare J.host J.body (startFields J.ctype) := by
          rcases hc with ⟨h, _⟩ | ⟨_, _, _, _, _, _, hf, _⟩
          · exact absurd hcl.2.1 h
          · exact hf hcl.1
        have hs1 : sentOn 1 s.trace = [] := by
          rcases hc with ⟨_, _, _, t, ht, htr⟩ | ⟨_, _, bs, htr, _⟩
          · rw [htr, sentOn_append, sentOn_idle ht]; rfl
          · rw [htr, sentOn_append, sentOn_attempt, if_neg (by decide)]; rfl
        show sentOn 1 s'.destroy.trace <+: _
        rw [sentOn_destroy hk']
        rcases hc' with ⟨_, _, _, t, ht, htr⟩ | ⟨_, _, bs, htr, hpre, _⟩
        · rw [htr, sentOn_append, sentOn_idle ht, hs1]; exact List.nil_prefix
        · rw [htr, sentOn_append, sentOn_attempt, if_pos rfl, hs1, List.nil_append, ← nextText_again hf]
          exact hpre
  refine ⟨h01.1, h01.2, fun hb n => ?_⟩
  match n with
  | 0 => exact h01.1
  | 1 =>
    have := h01.2
    unfold againText at this
    rw [if_neg hb] at this
    exact this
  | n + 2 => rw [(C116_partial h).1 (n + 2) (by omega)]; exact List.nil_prefix

/-! ## C118 -/

theorem holds_append (t : List Ev) : ∀ (s : List Ev) (H : List Handle), holds H (s ++ t) = (holds H s).bind fun H => holds H t
  | [], _ => rfl
  | .acquire h :: s, H => by
    show (if h ∈ H then none else holds (h :: H) (s ++ t)) = (if h ∈ H then none else holds (h :: H) s).bind _
    split
    · rfl
    · exact holds_append t s _
  | .release h :: s, H => by
    show (if h ∈ H then holds (H.erase h) (s ++ t) else none) = (if h ∈ H then holds (H.erase h) s else none).bind _
    split
    · exact holds_append t s _
    · rfl
  | .wrote n _ :: s, H => by
    show (if .ssl n ∈ H then holds H (s ++ t) else none) = (if .ssl n ∈ H then holds H s else none).bind _
    split
    · exact holds_append t s _
    · rfl

theorem holds_wrote {n : Nat} {H : List Handle} (h : .ssl n ∈ H) : ∀ bs : List Bytes, holds H (bs.map (Ev.wrote n)) = some H
  | [] => rfl
  | b :: bs => by
    show (if .ssl n ∈ H then holds H (bs.map (Ev.wrote n)) else none) = _
    rw [if_pos h, holds_wrote h bs]

theorem holds_idle {n : Nat} {H : List Handle} {t : List Ev} (ht : t ∈ idle n) (h1 : .sock n ∉ H) (h2 : .ssl n ∉ H) :
    holds H t = some H := by
  simp only [idle, List.mem_cons, List.not_mem_nil, or_false] at ht
  rcases ht with rfl | rfl | rfl <;> simp [holds, h1, h2]

/-- The certificate that is got from a connection, if any. -/
def gotten {L : Tls.Lib} (J : Job L) (n : Nat) (a : Attempt L) : List Handle :=
  if J.verify = false ∧ a.chain ≠ [] then [.cert n] else []

theorem holds_attempt {L : Tls.Lib} (J : Job L) (a : Attempt L) {n : Nat} {H : List Handle} (bs : List Bytes)
    (h1 : .sock n ∉ H) (h2 : .ssl n ∉ H) (h3 : .cert n ∉ H) :
    holds H ([.acquire (.sock n)] ++ gets J n a ++ [.acquire (.ssl n)] ++ bs.map (Ev.wrote n) ++
      [.release (.ssl n), .release (.sock n)]) = some (gotten J n a ++ H) := by
  rw [holds_append, holds_append]
  unfold gets gotten
  split
  · have : holds H ([.acquire (.sock n)] ++ [.acquire (.cert n)] ++ [.acquire (.ssl n)]) =
        some (.ssl n :: .cert n :: .sock n :: H) := by simp [holds, h1, h2, h3]
    rw [this, Option.bind_some, holds_wrote (List.mem_cons_self ..), Option.bind_some]
    simp [holds]
  · have : holds H ([.acquire (.sock n)] ++ [] ++ [.acquire (.ssl n)]) = some (.ssl n :: .sock n :: H) := by simp [holds, h1, h2]
    rw [this, Option.bind_some, holds_wrote (List.mem_cons_self ..), Option.bind_some]
    simp [holds]

/-- **C118**, exactly: nothing is released twice, nothing used after its release, and all is released in the end, except the certificate
of the first connection, which is lost if the server is not verified, closes the connection without a reply, and is reached again. -/
theorem C118_partial {L : Tls.Lib} {files : Bool} {J : Job L} {a b : Attempt L} {r : Result L} (h : post files J a b = .ok r) :
    ((files = true ∧ J.verify = false ∧ a.chain ≠ [] ∧ Closed J a r ∧ Accepted J b) → holds [] r.trace = some [.cert 0]) ∧
      (¬ (files = true ∧ J.verify = false ∧ a.chain ≠ [] ∧ Closed J a r ∧ Accepted J b) → holds [] r.trace = some []) := by
  cases files with
  | false =>
    cases h
    exact ⟨fun h => by simp at h, fun _ => rfl⟩
  | true =>
    rcases post_all h with ⟨hn, e, s, h0, he, rfl⟩ | ⟨hcl, s, e', s', h0, h1, rfl⟩
    · refine ⟨fun h => absurd h.2.2.2.1 hn, fun _ => ?_⟩
      obtain ⟨hk, hl, hc⟩ := send_spec rfl rfl h0
      show holds [] s.destroy.trace = _
      rw [destroy_trace hk, holds_append]
      rcases hc with ⟨_, _, hcert, t, ht, htr⟩ | ⟨_, hcert, bs, htr, _⟩
      · rw [htr, holds_append, show holds [] (fresh0 J).trace = some [.ctx] from rfl, Option.bind_some,
          holds_idle ht (by simp) (by simp), hcert]
        rfl
      · rw [htr, holds_append, show holds [] (fresh0 J).trace = some [.ctx] from rfl, Option.bind_some,
          holds_attempt J a bs (by simp) (by simp) (by simp), hcert]
        unfold gotten keeps fresh0
        cases J.verify <;> cases a.chain <;> simp [holds]
    · obtain ⟨hk, hl, hc⟩ := send_spec rfl rfl h0
      obtain ⟨hk', _, hc'⟩ := send_spec hk hl h1
      have hs : holds [] s.trace = some (gotten J 0 a ++ [.ctx]) ∧ s.cert = keeps J 0 a none := by
        rcases hc with ⟨h, _⟩ | ⟨_, hcert, bs, htr, _⟩
        · exact absurd hcl.2.1 h
        · refine ⟨?_, hcert⟩
          rw [htr, holds_append, show holds [] (fresh0 J).trace = some [.ctx] from rfl, Option.bind_some,
            holds_attempt J a bs (by simp) (by simp) (by simp)]
      have hm : .sock 1 ∉ gotten J 0 a ++ [Handle.ctx] ∧ .ssl 1 ∉ gotten J 0 a ++ [Handle.ctx] ∧
          .cert 1 ∉ gotten J 0 a ++ [Handle.ctx] := by
        unfold gotten; split <;> simp
      have hd : holds [] (final e' s').trace = ((holds [] s'.trace).bind fun H =>
          holds H (.release .ctx :: (s'.cert.map fun c => Ev.release (.cert c.1)).toList)) := by
        show holds [] s'.destroy.trace = _
        rw [destroy_trace hk', holds_append]
      rcases hc' with ⟨hb, _, hcert, t, ht, htr⟩ | ⟨hb, hcert, bs, htr, _⟩
      · refine ⟨fun h => absurd h.2.2.2.2 hb, fun _ => ?_⟩
        rw [hd, htr, holds_append, hs.1, Option.bind_some, holds_idle ht hm.1 hm.2.1, hcert, hs.2]
        unfold gotten keeps
        cases J.verify <;> cases a.chain <;> simp [holds]
      · have : holds [] (final e' s').trace =
            if J.verify = false ∧ a.chain ≠ [] then some [.cert 0] else some [] := by
          rw [hd, htr, holds_append, hs.1, Option.bind_some, holds_attempt J b bs hm.1 hm.2.1 hm.2.2, hcert, hs.2]
          unfold gotten keeps
          cases J.verify <;> cases a.chain <;> cases b.chain <;> simp [holds]
        rw [this]
        refine ⟨fun h => if_pos ⟨h.2.1, h.2.2.1⟩, fun h => if_neg fun h' => h ⟨rfl, h'.1, h'.2, hcl, hb⟩⟩

/-! ## Cases -/

/-- Certificates are numbers, every chain verifies. -/
def toyTls : Tls.Lib := ⟨Nat, fun _ => none, fun _ _ => true⟩

/-- A server that shows the certificate `c` and closes the session when it has the request. -/
def closing (c : Nat) : Attempt toyTls := ⟨true, true, true, [c], [20, 1000, 1000], true, ⟨[], [], true⟩⟩

/-- A server that shows the certificate `c` and replies. -/
def replying (c : Nat) : Attempt toyTls :=
  ⟨true, true, true, [c], [1000, 1000], false, ⟨str "HTTP/1.1 200 OK" ++ [13, 10] ++ str "Content-Length: 1" ++ [13, 10, 13, 10] ++ str "y", [], true⟩⟩

/-- A request with the body `body`, without verification of the server. -/
def askFor (body : Bytes) : Job toyTls := ⟨false, [], [], str "h:1", str "/p", str "a/b", body⟩

/-- What is trace of a request. -/
def trace : Outcome (Result toyTls) → Option (Option (Nat × Bytes × Option Nat) × List Ev)
  | .ok r => some (r.value, r.trace)
  | .ub => none

theorem seen_some {o : Outcome (Result toyTls)} {p : Option (Nat × Bytes × Option Nat) × List Ev} (h : trace o = some p) :
    ∃ r, o = .ok r ∧ r.value = p.1 ∧ r.trace = p.2 := by
  cases o with
  | ub => cases h
  | ok r => cases h; exact ⟨r, rfl, rfl, rfl⟩

/-- A request that is sent twice, to two servers: events, status, body and certificate. -/
example : trace (post true (askFor (str "x")) (closing 7) (replying 9)) =
    some (some (200, str "y", some 9), [.acquire .ctx, .acquire (.sock 0), .acquire (.cert 0), .acquire (.ssl 0),
      .wrote 0 ((jobText (askFor (str "x"))).dropLast), .wrote 0 (str "x"), .release (.ssl 0), .release (.sock 0),
      .acquire (.sock 1), .acquire (.cert 1), .acquire (.ssl 1),
      .wrote 1 ((jobText (askFor (str "x"))).dropLast), .wrote 1 (str "x"), .release (.ssl 1), .release (.sock 1),
      .release .ctx, .release (.cert 1)]) := by decide +kernel

/-- A request that is sent once. -/
example : (trace (post true (askFor []) (replying 7) (replying 9))).map (·.1) = some (some (200, str "y", some 7)) := by decide +kernel

/-- **C116** is violated: a server that closes the session makes the client send the whole request again, to whatever server it
reaches then. -/
theorem C116_violated : ¬ C116_statement := by
  intro h
  have hs : (trace (post true (askFor (str "x")) (closing 7) (replying 9))).any (fun p =>
    sentOn 0 p.2 != [] && sentOn 1 p.2 != []) = true := by decide +kernel
  cases hp : trace (post true (askFor (str "x")) (closing 7) (replying 9)) with
  | none => rw [hp] at hs; cases hs
  | some p =>
    obtain ⟨r, hr, _, ht⟩ := seen_some hp
    rw [hp] at hs
    simp only [Option.any_some, Bool.and_eq_true, bne_iff_ne, ne_eq] at hs
    have := h toyTls true _ _ _ r hr 0 1 (by rw [ht]; exact hs.1) (by rw [ht]; exact hs.2)
    cases this

/-- **C117** is violated: a request without body is sent again with a second field `Content-Length`. -/
theorem C117_violated : ¬ C117_statement := by
  intro h
  have hs : (trace (post true (askFor []) (closing 7) (replying 9))).any (fun p =>
    !(sentOn 1 p.2).isPrefixOf (jobText (askFor []))) = true := by decide +kernel
  cases hp : trace (post true (askFor []) (closing 7) (replying 9)) with
  | none => rw [hp] at hs; cases hs
  | some p =>
    obtain ⟨r, hr, _, ht⟩ := seen_some hp
    rw [hp] at hs
    have := h toyTls true _ _ _ r hr 1
    rw [ht, ← List.isPrefixOf_iff_prefix] at this
    simp only [Option.any_some, this] at hs
    cases hs

/-- **C118** is violated: the certificate of the first server is never released. -/
theorem C118_violated : ¬ C118_statement := by
  intro h
  have hs : (trace (post true (askFor (str "x")) (closing 7) (replying 9))).map (fun p => holds [] p.2) = some (some [.cert 0]) := by
    decide +kernel
  cases hp : trace (post true (askFor (str "x")) (closing 7) (replying 9)) with
  | none => rw [hp] at hs; cases hs
  | some p =>
    obtain ⟨r, hr, _, ht⟩ := seen_some hp
    rw [hp] at hs
    have := h toyTls true _ _ _ r hr
    rw [ht] at this
    simp only [Option.map_some, this] at hs
    cases hs

end Brski.Props
