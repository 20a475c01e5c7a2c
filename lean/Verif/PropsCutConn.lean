import Verif.CutConnLemmas
import Verif.PropsConn
import Verif.PropsCut

/-!
# C109 for whole connections

The pieces in which the bytes of a connection arrive make no difference to any of its requests: which are served, by which handlers
with which content, the replies and when the connection ends.  So C91, C92 and what else is proved about `Conn` hold for every
arrival.
-/

namespace Brski.Props
open Outcome Routes Wire Ranges Conn

/-! ## Specification -/

/-- These bytes begin with a request whose content is read and is multipart. -/
def Multi (b : Bytes) : Prop :=
  ∃ l r line ls r', getLine b = some (l, r) ∧ parseRequestLine l = some line ∧ expectsContent line.method = true ∧
    readLines r = (ls, some r') ∧ str "multipart/form-data" <+: headerValue (readHeaders ls) (str "Content-Type")

/-- None of the next `n` requests of a connection has multipart content, where `k` requests were served. -/
def NoParts (rs : List Route) (mp : Multipart) (E : Env) : Nat → Nat → Bytes → Prop
  | 0, _, _ => True
  | n + 1, k, b => ¬ Multi b ∧ ∀ d, serveNext rs mp (E.bd k) (E.stop k) (E.dyn k) (n == 0) b = .ok (some d) → NoParts rs mp E n (k + 1) d.rest

/-- The connection with these bytes, in pieces of these sizes. -/
def arriving (b : Bytes) (cuts : List Nat) : Cut.Strm := ⟨b, cuts, true⟩

/-! ## Proofs -/

theorem plain_of_not_prefix {hs : List Field} (h : ¬ str "multipart/form-data" <+: headerValue hs (str "Content-Type")) : Cut.plain hs :=
  startsWith_false h

theorem cut_loop (rs : List Route) (ok : Bytes → Bool) (mp : Multipart) (E : Env) (n : Nat) : ∀ (k : Nat) (s : Cut.Strm),
    s.orderly = true → NoParts rs mp E n k s.bytes → CutConn.loop rs ok E k n s = loop rs mp E k n s.bytes := by
  induction n with
  | zero => exact fun _ _ _ _ => rfl
  | succ n ih =>
    intro k s ho hn
    unfold CutConn.loop loop
    have h := CutConn.serveNext_agree rs ok mp (E.bd k) (E.stop k) (E.dyn k) (n == 0) ho (by
      intro l r line ls r' h1 h2 h3 h4
      exact plain_of_not_prefix fun h5 => hn.1 ⟨l, r, line, ls, r', h1, h2, h3, h4, h5⟩)
    split
    · cases hc : CutConn.serveNext rs ok (E.bd k) (E.dyn k) (n == 0) s with
      | ub =>
        cases hw : serveNext rs mp (E.bd k) (E.stop k) (E.dyn k) (n == 0) s.bytes with
        | ub => rfl
        | ok o => rw [hc, hw] at h; cases o <;> exact h.elim
      | ok o =>
        cases hw : serveNext rs mp (E.bd k) (E.stop k) (E.dyn k) (n == 0) s.bytes with
        | ub => rw [hc, hw] at h; cases o <;> exact h.elim
        | ok w =>
          rw [hc, hw] at h
          cases o with
          | none => cases w with
            | none => rfl
            | some _ => exact h.elim
          | some p =>
            obtain ⟨d, t⟩ := p
            cases w with
            | none => exact h.elim
            | some e =>
              obtain ⟨rfl, h2, h3⟩ := h
              simp only [bind'_ok]
              have := ih (k + 1) t h3 (by rw [h2]; exact hn.2 _ hw)
              rw [this, h2]
    · rfl

/-- **C109**, connections: what a connection does is what `Conn` makes of its bytes, so that all that is proved about
`Conn.connection` holds whatever the pieces. -/
theorem C109_connection (rs : List Route) (ok : Bytes → Bool) (mp : Multipart) (E : Env) (b : Bytes) (cuts : List Nat)
    (h : NoParts rs mp E 5 0 b) : CutConn.connection rs ok E (arriving b cuts) = connection rs mp E b :=
  cut_loop rs ok mp E 5 0 _ rfl h

theorem not_multi {m : Msg} (hv : m.Valid) (hs : m.Simple) (b : Bytes) : ¬ Multi (m.text ++ b) := by
  rintro ⟨l, r, line, ls, r', h1, h2, h3, h4, h5⟩
  have hl' : ∀ l ∈ m.fields.map lineOf, ReadableLine l := by
    intro l hl
    obtain ⟨f, hf, rfl⟩ := List.mem_map.1 hl
    exact readable_line (hv.fields f hf)
  unfold Msg.text at h1
  rw [List.append_assoc, getLine_crlf _ fun hm => line_plain hv 10 hm (by decide)] at h1
  cases h1
  rw [parse_msg hv] at h2
  cases h2
  rw [List.append_assoc, readLines_all hl'] at h4
  cases h4
  rw [value_msg hv.fields] at h5
  have hm : m.method ∈ withContent := by
    change expectsContent m.method = true at h3
    revert h3
    cases m.method <;> decide
  cases hc : fieldsNamed (str "Content-Type") m.fields with
  | nil => rw [hc] at h5; revert h5; decide
  | cons g r => rw [hc] at h5; exact (hs.content hm).2.2 g (by rw [hc]; exact List.mem_cons_self) h5

theorem noParts_simple (rs : List Route) (mp : Multipart) (E : Env) (n : Nat) : ∀ (k : Nat) (ms : List Msg),
    (∀ m ∈ ms, m.Valid ∧ m.Simple) → NoParts rs mp E n k (ms.flatMap Msg.text) := by
  induction n with
  | zero => exact fun _ _ _ => trivial
  | succ n ih =>
    intro k ms hms
    cases ms with
    | nil =>
      refine ⟨?_, ?_⟩
      · rintro ⟨l, r, line, ls, r', h1, _⟩
        cases h1
      · intro d hd
        cases hd
    | cons m ms =>
      obtain ⟨hv, hs⟩ := hms m List.mem_cons_self
      rw [List.flatMap_cons]
      refine ⟨not_multi hv hs _, fun d hd => ?_⟩
      obtain ⟨interim, reply, ran, closed, hnext, _⟩ := next_simple rs mp (E.bd k) (E.stop k) (E.dyn k) (n == 0) hv hs
      rw [hnext] at hd
      cases hd
      exact ih (k + 1) ms fun m' h' => hms m' (List.mem_cons_of_mem _ h')

/-- **C91** and **C109**: requests whose content is read as announced, sent one after another and arriving in any pieces.  Whatever
the environment does, the `i`th reply is the one the `i`th request would get alone, the handler sees its content and nothing else. -/
theorem C109_requests (rs : List Route) (ok : Bytes → Bool) (mp : Multipart) (E : Env) (ms : List Msg) (cuts : List Nat)
    (h : ∀ m ∈ ms, m.Valid ∧ m.Simple) :
    ∃ ds, CutConn.connection rs ok E (arriving (ms.flatMap Msg.text) cuts) = .ok ds ∧
      (∀ (i : Nat) d, ds[i]? = some d → i < 5 ∧ ∃ m, ms[i]? = some m ∧
        alone rs mp E i (i == 4) m = .ok (some d.reply) ∧ (∀ e hs b, d.ran = some (e, hs, b) → b = m.content) ∧
        (i + 1 < ds.length → ¬ m.Closing)) ∧
      ((∀ j, E.alive j = true ∧ E.sent j = true) → ∀ j, j < 5 → j < ms.length →
        (∀ (i : Nat) m, i < j → ms[i]? = some m → ¬ m.Closing) → j < ds.length) := by
  rw [C109_connection rs ok mp E _ cuts (noParts_simple rs mp E 5 0 ms h)]
  exact C91_partial rs mp E ms h

/-- Non-vacuity: three requests, of which the second asks to close, arriving three bytes at a time. -/
example : (∀ m ∈ [posted, last, posted], m.Valid ∧ m.Simple) ∧ NoParts registrarRoutes noParts echoEnv 5 0 ([posted, last, posted].flatMap Msg.text) ∧
    seen (CutConn.connection registrarRoutes (fun _ => true) echoEnv (arriving ([posted, last, posted].flatMap Msg.text) (List.replicate 100 3))) =
      [(200, some (str "abc")), (404, none)] := by
  have h : ∀ m ∈ [posted, last, posted], m.Valid ∧ m.Simple := by
    intro m hm
    simp only [List.mem_cons, List.not_mem_nil, or_false] at hm
    rcases hm with rfl | rfl | rfl
    · exact ⟨posted_valid, posted_simple⟩
    · exact ⟨last_valid, last_simple⟩
    · exact ⟨posted_valid, posted_simple⟩
  exact ⟨h, noParts_simple _ _ _ _ _ _ h, by decide +kernel⟩

/-- Two requests in chunks, the second refused, and one that follows. -/
def chunked2 : Bytes :=
  str "POST /.well-known/brski/requestvoucher HTTP/1.1\r\nTransfer-Encoding: chunked\r\n\r\n2\r\nab\r\n1\r\nc\r\n0\r\n\r\nPUT / HTTP/1.1\r\nTransfer-Encoding: chunked\r\n\r\n3\r\nabcd\r\nGET / HTTP/1.1\r\n\r\n"

/-- Non-vacuity of C109 for content in chunks: what a request leaves unread is the same for two ways to arrive. -/
example : seen (CutConn.connection registrarRoutes (fun _ => true) echoEnv (arriving chunked2 [])) =
      seen (connection registrarRoutes noParts echoEnv chunked2) ∧
    seen (CutConn.connection registrarRoutes (fun _ => true) echoEnv (arriving chunked2 (List.replicate 200 1))) =
      seen (connection registrarRoutes noParts echoEnv chunked2) ∧
    seen (connection registrarRoutes noParts echoEnv chunked2) = [(200, some (str "abc")), (400, none), (404, none)] := by
  decide +kernel

end Brski.Props
