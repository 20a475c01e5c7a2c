import Verif.Throw
import Verif.PropsConn

/-!
# C111: what becomes of a handler that ends with an exception
-/

namespace Brski.Props
open Outcome Routes Wire Ranges
open Conn (Done)

/-- Status 500 is the one for a server that meets an unexpected condition (RFC 9110 section 15.6.1); a request line and a path
lead to the handler `e`, which is implemented and throws. -/
def Throws (rs : List Route) (dyn : Endpoint → Throw.Ran) (l : Line) (x : Throw.Exc) : Prop :=
  ∃ e, routing rs l = some (some e) ∧ e.stub = none ∧ dyn e = .threw x

/-- **C111** as stated: a handler that ends with an exception is answered with status 500 and a text, in plain text. -/
def C111_statement : Prop :=
  ∀ (rs : List Route) (dyn : Endpoint → Throw.Ran) (close : Bool) (bd : Bytes) (l : Line) (x : Throw.Exc), Throws rs dyn l x →
    l.method ≠ .head →
    (Throw.answer rs dyn close [] bd l).status = 500 ∧ (Throw.answer rs dyn close [] bd l).body ≠ [] ∧
      ∀ t ∈ contentTypes (Throw.answer rs dyn close [] bd l), t = str "text/plain"

/-- The text for an exception (specification): its own up to a NUL and up to 8191 characters, `Router error` if that is empty;
a fixed text for what is no `std::exception`. -/
def excSays : Throw.Exc → Bytes
  | .other => str "Unknown Exception"
  | .std what => if what.head? = none ∨ what.head? = some 0 then str "Router error" else (what.takeWhile (· ≠ 0)).take 8191

theorem setContent_nil (b : Bytes) : setContent ⟨0, [], []⟩ b (str "text/plain") = ⟨0, [(str "Content-Type", str "text/plain")], b⟩ :=
  rfl

/-- **C111**, the answer exactly: the status is 505, the body the text of the exception up to a NUL and up to 8191
characters, or `Router error` if it is empty, the content type `text/plain` (twice). -/
theorem C111_partial (rs : List Route) (dyn : Endpoint → Throw.Ran) (close : Bool) (bd : Bytes) (l : Line) (x : Throw.Exc)
    (h : Throws rs dyn l x) (hm : l.method ≠ .head) :
    (Throw.answer rs dyn close [] bd l).status = 505 ∧
    (Throw.answer rs dyn close [] bd l).body = excSays x ∧
    (Throw.answer rs dyn close [] bd l).body ≠ [] ∧
    contentTypes (Throw.answer rs dyn close [] bd l) = [str "text/plain", str "text/plain"] := by
  obtain ⟨e, h1, h2, h3⟩ := h
  have ha : Throw.answer rs dyn close [] bd l =
      writeResponse close l.method true ⟨505, [(str "Content-Type", str "text/plain")], Throw.excText x⟩ := by
    unfold Throw.answer
    rw [h1]
    simp only [h2, Option.map_none, Option.getD_none, h3, respond_none]
    rfl
  obtain ⟨w1, w2, w3⟩ := writeResponse_spec close l.method true
    (r := ⟨505, [(str "Content-Type", str "text/plain")], Throw.excText x⟩) (List.pairwise_singleton _ _)
  rw [← ha] at w1 w2 w3
  rw [if_neg hm] at w2
  have hb : (Throw.answer rs dyn close [] bd l).body = excSays x := by
    rw [w2]
    cases x with
    | other =>
      rw [if_neg (by intro h; exact absurd h.2 (by decide +kernel))]
      decide +kernel
    | std what =>
      cases what with
      | nil => rw [if_pos ⟨by decide, rfl⟩]; rfl
      | cons c r =>
        by_cases hc : c = 0
        · subst hc
          rw [if_pos ⟨show 400 ≤ 505 by decide, rfl⟩]; rfl
        · have he : Throw.excText (.std (c :: r)) = c :: ((r.takeWhile (· ≠ 0)).take 8190) := by
            simp [Throw.excText, BoolTime.cstr, hc]
          rw [if_neg (by rw [he]; simp), excSays, if_neg (by simp [hc])]
          rfl
  refine ⟨w1, hb, ?_, ?_⟩
  · rw [hb]
    cases x with
    | other => decide
    | std what =>
      cases what with
      | nil => simp [excSays]; decide
      | cons c r =>
        by_cases hc : c = 0
        · simp [excSays, hc]; decide
        · simp [excSays, hc]
  · rw [w3]; rfl

/-- The line of a voucher request (concrete case). -/
def voucherLine : Line := ⟨.post, str "/.well-known/brski/requestvoucher"⟩

/-- A registrar whose handlers run out of memory (concrete case; `std::bad_alloc`). -/
def outOfMemory : Endpoint → Throw.Ran := fun _ => .threw (.std (str "std::bad_alloc"))

theorem outOfMemory_throws : Throws registrarRoutes outOfMemory voucherLine (.std (str "std::bad_alloc")) :=
  ⟨.registrarRequestVoucher, by decide +kernel, rfl, rfl⟩

/-- The hypotheses of C111_partial can be met: memory runs out at the registrar. -/
example (close : Bool) : (Throw.answer registrarRoutes outOfMemory close [] [] voucherLine).body = str "std::bad_alloc" :=
  (C111_partial registrarRoutes outOfMemory close [] voucherLine _ outOfMemory_throws (by decide)).2.1

/-- The code violates C111: the status is the one for a version of HTTP that is not supported. -/
theorem C111_violated : ¬ C111_statement := by
  intro h
  have h1 := (h registrarRoutes outOfMemory true [] voucherLine _ outOfMemory_throws (by decide)).1
  rw [(C111_partial registrarRoutes outOfMemory true [] voucherLine _ outOfMemory_throws (by decide)).1] at h1
  cases h1

/-- What the client reads: the first line of the reply says that its version of HTTP is not supported. -/
theorem C111_violated_line (close : Bool) :
    takeLine (replyText (Throw.answer registrarRoutes outOfMemory close [] [] voucherLine)) =
      str "HTTP/1.1 505 HTTP Version Not Supported\r\n" := by
  cases close <;> decide +kernel

/-! ## The other requests of the connection -/

/-- The handlers that return, with an arbitrary reply for those that throw. -/
def returnedOr (dflt : Reply) : Throw.Ran → Reply
  | .returned r => r
  | .threw _ => dflt

/-- The same environment with handlers that never throw. -/
def calm (dflt : Reply) (E : Throw.Env) : Conn.Env :=
  ⟨E.alive, E.sent, E.bd, E.stop, fun k hs b e => returnedOr dflt (E.dyn k hs b e)⟩

/-- The implemented handler that ran for a request has returned (specification): there was no handler, or it is one of the
constant ones, or it returned. -/
def Calm (dyn : List Field → Bytes → Endpoint → Throw.Ran) (d : Done) : Prop :=
  ∀ e hs b, d.ran = some (e, hs, b) → e.stub = none → ∃ r, dyn hs b e = .returned r

/-- Two requests are handled alike (specification): the same handler runs on the same fields and content, the same bytes
are left unread, the connection goes on or not; and the reply is the same if the handler returned. -/
def Alike (dyn : List Field → Bytes → Endpoint → Throw.Ran) (d d' : Done) : Prop :=
  d.interim = d'.interim ∧ d.ran = d'.ran ∧ d.rest = d'.rest ∧ d.closed = d'.closed ∧ (Calm dyn d → d.reply = d'.reply)

/-- Lists handled alike, request by request, the first of them being the `k`th. -/
def AllAlike (E : Throw.Env) : Nat → List Done → List Done → Prop
  | _, [], [] => True
  | k, d :: ds, d' :: ds' => Alike (E.dyn k) d d' ∧ AllAlike E (k + 1) ds ds'
  | _, _, _ => False

theorem answer_calm (rs : List Route) (dyn : Endpoint → Throw.Ran) (dflt : Reply) (close : Bool) (rg : List Rng) (bd : Bytes)
    (l : Line) (h : ∀ e, routing rs l = some (some e) → e.stub = none → ∃ r, dyn e = .returned r) :
    Throw.answer rs dyn close rg bd l = answer rs (fun e => returnedOr dflt (dyn e)) close rg bd l := by
  unfold Throw.answer answer
  cases hr : routing rs l with
  | none => rfl
  | some o =>
    cases o with
    | none => rfl
    | some e =>
      simp only
      cases hs : e.stub with
      | some r => rfl
      | none =>
        obtain ⟨r, hd⟩ := h e hr hs
        simp only [Option.map_none, Option.getD_none, hd]
        rfl

theorem runs_routing {rs : List Route} {l : Line} {hs : List Field} {b : Bytes} {e : Endpoint}
    (h : routing rs l = some (some e)) : Conn.runs rs l hs b = some (e, hs, b) := by
  unfold Conn.runs; rw [h]

/-- One request. -/
theorem serveNext_alike (rs : List Route) (mp : Multipart) (bd : Bytes) (stop : Bytes → Nat)
    (dyn : List Field → Bytes → Endpoint → Throw.Ran) (dflt : Reply) (close : Bool) (s : Bytes) :
    match Throw.serveNext rs mp bd stop dyn close s,
      Conn.serveNext rs mp bd stop (fun hs b e => returnedOr dflt (dyn hs b e)) close s with
    | .ub, .ub => True
    | .ok none, .ok none => True
    | .ok (some d), .ok (some d') => Alike dyn d d'
    | _, _ => False := by
  unfold Throw.serveNext Conn.serveNext
  cases getLine s with
  | none => trivial
  | some p =>
    obtain ⟨l, r⟩ := p
    simp only
    cases hp : (if 8192 < l.length then none else parseRequestLine l) with
    | none =>
      refine ⟨rfl, rfl, rfl, rfl, fun _ => ?_⟩
      show process rs _ close l = process rs _ close l
      unfold process
      by_cases hl : 8192 < l.length
      · rw [if_pos hl, if_pos hl]
      · rw [if_neg hl] at hp
        rw [if_neg hl, if_neg hl, hp]
    | some line =>
      simp only
      cases hrl : readLines r with
      | mk ls o =>
        cases o with
        | none => exact ⟨rfl, rfl, rfl, rfl, fun _ => rfl⟩
        | some r' =>
          simp only
          by_cases hrg : (Conn.rangesOf (readHeaders ls)).2 = false
          · simp only [hrg, if_true]
            exact ⟨rfl, rfl, rfl, rfl, fun _ => rfl⟩
          · rw [if_neg hrg, if_neg hrg]
            by_cases hec : expectsContent line.method = true
            · simp only [hec, if_true]
              cases readBody mp line.method (readHeaders ls) r' with
              | ub => trivial
              | ok q =>
                cases q with
                | error st => exact ⟨rfl, rfl, rfl, rfl, fun _ => rfl⟩
                | ok bm =>
                  obtain ⟨b, more⟩ := bm
                  exact ⟨rfl, rfl, rfl, rfl, fun hc => answer_calm rs _ dflt _ _ _ _
                    fun e he hst => hc e _ _ (runs_routing he) hst⟩
            · simp only [hec]
              exact ⟨rfl, rfl, rfl, rfl, fun hc => answer_calm rs _ dflt _ _ _ _
                fun e he hst => hc e _ _ (runs_routing he) hst⟩

/-- Both undefined, or handled alike. -/
def LoopAlike (E : Throw.Env) (k : Nat) : Outcome (List Done) → Outcome (List Done) → Prop
  | .ub, .ub => True
  | .ok ds, .ok ds' => AllAlike E k ds ds'
  | _, _ => False

theorem loop_alike (rs : List Route) (mp : Multipart) (E : Throw.Env) (dflt : Reply) : ∀ (n k : Nat) (s : Bytes),
    LoopAlike E k (Throw.loop rs mp E k n s) (Conn.loop rs mp (calm dflt E) k n s)
  | 0, _, _ => trivial
  | n + 1, k, s => by
    unfold Throw.loop Conn.loop
    show LoopAlike E k (if E.alive k = true then _ else _) (if E.alive k = true then _ else _)
    by_cases ha : E.alive k = true
    · rw [if_pos ha, if_pos ha]
      have h := serveNext_alike rs mp (E.bd k) (E.stop k) (E.dyn k) dflt (n == 0) s
      show LoopAlike E k ((Throw.serveNext rs mp (E.bd k) (E.stop k) (E.dyn k) (n == 0) s).bind _)
        ((Conn.serveNext rs mp (E.bd k) (E.stop k) (fun hs b e => returnedOr dflt (E.dyn k hs b e)) (n == 0) s).bind _)
      revert h
      cases Throw.serveNext rs mp (E.bd k) (E.stop k) (E.dyn k) (n == 0) s with
      | ub =>
        cases Conn.serveNext rs mp (E.bd k) (E.stop k) (fun hs b e => returnedOr dflt (E.dyn k hs b e)) (n == 0) s with
        | ub => exact fun h => h
        | ok o => exact fun h => h.elim
      | ok o =>
        cases Conn.serveNext rs mp (E.bd k) (E.stop k) (fun hs b e => returnedOr dflt (E.dyn k hs b e)) (n == 0) s with
        | ub => intro h; cases o <;> exact h.elim
        | ok o' =>
          intro h
          cases o with
          | none =>
            cases o' with
            | none => trivial
            | some d' => exact h.elim
          | some d =>
            cases o' with
            | none => exact h.elim
            | some d' =>
              have h' : Alike (E.dyn k) d d' := h
              obtain ⟨h1, h2, h3, h4, h5⟩ := h'
              simp only [bind'_ok, ← h4, ← h3]
              show LoopAlike E k (if (!E.sent k || d.closed) = true then _ else _) (if (!E.sent k || d.closed) = true then _ else _)
              by_cases hx : (!E.sent k || d.closed) = true
              · rw [if_pos hx, if_pos hx]
                exact ⟨h, trivial⟩
              · rw [if_neg hx, if_neg hx]
                have ih := loop_alike rs mp E dflt n (k + 1) d.rest
                revert ih
                cases Throw.loop rs mp E (k + 1) n d.rest with
                | ub =>
                  cases Conn.loop rs mp (calm dflt E) (k + 1) n d.rest with
                  | ub => exact fun h => h
                  | ok _ => exact fun h => h.elim
                | ok ds =>
                  cases Conn.loop rs mp (calm dflt E) (k + 1) n d.rest with
                  | ub => exact fun h => h.elim
                  | ok ds' => exact fun ih => ⟨h, ih⟩
    · rw [if_neg ha, if_neg ha]
      trivial

/-- **C111**, the other requests: whatever handlers throw and whenever, the connection goes on as if they had returned: the
same handlers run on the same fields and content, the same bytes are left unread, the connection ends at the same place,
and the reply to every request whose handler returned is the one of `Conn.connection`. -/
theorem C111_connection_partial (rs : List Route) (mp : Multipart) (E : Throw.Env) (dflt : Reply) (s : Bytes) :
    (∃ ds ds', Throw.connection rs mp E s = .ok ds ∧ Conn.connection rs mp (calm dflt E) s = .ok ds' ∧ AllAlike E 0 ds ds') ∨
    (Throw.connection rs mp E s = .ub ∧ Conn.connection rs mp (calm dflt E) s = .ub) := by
  have h := loop_alike rs mp E dflt 5 0 s
  unfold Throw.connection Conn.connection
  revert h
  cases Throw.loop rs mp E 0 5 s with
  | ub =>
    cases Conn.loop rs mp (calm dflt E) 0 5 s with
    | ub => exact fun _ => .inr ⟨rfl, rfl⟩
    | ok _ => exact fun h => h.elim
  | ok ds =>
    cases Conn.loop rs mp (calm dflt E) 0 5 s with
    | ub => exact fun h => h.elim
    | ok ds' => exact fun h => .inl ⟨ds, ds', rfl, rfl, h⟩

/-- The first request meets an exception, the others are answered with their content (concrete case). -/
def onceThrowing : Throw.Env :=
  ⟨fun _ => true, fun _ => true, fun _ => [], fun _ _ => 0,
    fun k _ b _ => if k = 0 then .threw .other else .returned ⟨200, b⟩⟩

/-- A concrete case of C111_connection_partial: the request behind the one that met an exception is answered. -/
example : (match Throw.connection registrarRoutes noParts onceThrowing (hidden ++ hidden) with
    | .ok ds => ds.map fun d => (d.reply.status, d.reply.body)
    | .ub => []) = [(505, str "Unknown Exception"), (200, str "abc")] := by decide +kernel

end Brski.Props
