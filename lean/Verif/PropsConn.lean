import Verif.Conn
import Verif.PropsRanges

/-!
# C91, C92: several requests on one connection
-/

namespace Brski.Props
open Outcome Routes Wire Conn Ranges

/-! ## One request of a connection is a request -/

/-- The first request of a connection is answered as `Wire.serve` says if it has no `Range` field (so that C76, C77 and the
others hold for it). -/
theorem serveNext_reply (rs : List Route) (mp : Multipart) (bd : Bytes) (stop : Bytes → Nat)
    (dyn : List Field → Bytes → Endpoint → Reply) (close : Bool) (s : Bytes)
    (h : ∀ l r ls r', getLine s = some (l, r) → readLines r = (ls, some r') → fieldsNamed (str "Range") (readHeaders ls) = []) :
    (serveNext rs mp bd stop dyn close s).bind (fun d => .ok (d.map Done.reply)) = serve rs mp dyn close s := by
  unfold serveNext serve
  cases hg : getLine s with
  | none => rfl
  | some p =>
    obtain ⟨l, r⟩ := p
    simp only
    by_cases hlen : 8192 < l.length
    · simp only [hlen, if_true]; rfl
    · simp only [hlen, if_false]
      cases hp : parseRequestLine l with
      | none => rfl
      | some line =>
        simp only
        cases hl : readLines r with
        | mk ls o =>
          cases o with
          | none => simp only [respond_none]; rfl
          | some r' =>
            have hn := h l r ls r' hg hl
            have hr : rangesOf (readHeaders ls) = ([], true) := by
              unfold rangesOf
              rw [if_neg]
              rw [hasField_named, hn]
              simp
            have ha : ∀ d c, answer rs d c [] bd line = process rs d c l := fun d c => answer_none rs d c bd l line (by omega) hp
            simp only [hr, Bool.true_eq_false, if_false, respond_none, ha]
            split
            · cases readBody mp line.method (readHeaders ls) r' with
              | ub => rfl
              | ok b => cases b <;> rfl
            · rfl

/-! ## Messages -/

/-- A request as a client may send it (specification: RFC 9112 section 3). -/
structure Msg where
  method : Method
  target : Bytes
  old : Bool
  fields : List Field
  content : Bytes

/-- The request line (specification). -/
def Msg.line (m : Msg) : Bytes := methodText m.method ++ 32 :: m.target ++ 32 :: (if m.old then str "HTTP/1.0" else str "HTTP/1.1")

/-- The request on the wire (specification). -/
def Msg.text (m : Msg) : Bytes :=
  m.line ++ [13, 10] ++ ((m.fields.map lineOf).flatMap (· ++ [13, 10]) ++ [13, 10] ++ m.content)

/-- A well-formed request, whose content is as long as announced (specification: RFC 9112 section 6): with `Content-Length` that
many bytes, without none at all; no transfer encoding. -/
structure Msg.Valid (m : Msg) : Prop where
  target : m.target ≠ [] ∧ ∀ c ∈ m.target, c ∉ [0, 9, 10, 32]
  size : m.line.length + 2 ≤ 8192
  fields : ∀ f ∈ m.fields, Sendable f
  coding : fieldsNamed (str "Transfer-Encoding") m.fields = []
  framed : (∃ f, fieldsNamed (str "Content-Length") m.fields = [f] ∧ Denotes f.2 m.content.length ∧ m.content.length < 2 ^ 64) ∨
    (fieldsNamed (str "Content-Length") m.fields = [] ∧ m.content = [])

/-- The reply to a request that is alone on its connection and is the `i`th of its client. -/
def alone (rs : List Route) (mp : Multipart) (E : Env) (i : Nat) (close : Bool) (m : Msg) : Outcome (Option Res) :=
  (serveNext rs mp (E.bd i) (E.stop i) (E.dyn i) close m.text).bind fun d => .ok (d.map Done.reply)

/-- **C91** as stated: on a connection that carries well-formed requests, the `i`th reply is the one the `i`th request would get
alone, and the handler that ran saw the content of this request. -/
def C91_statement : Prop :=
  ∀ (rs : List Route) (mp : Multipart) (E : Env) (ms : List Msg), (∀ m ∈ ms, m.Valid) → ∀ ds,
    connection rs mp E (ms.flatMap Msg.text) = .ok ds → ∀ (i : Nat) d, ds[i]? = some d → ∃ m, ms[i]? = some m ∧
      alone rs mp E i (i == 4) m = .ok (some d.reply) ∧ ∀ e hs b, d.ran = some (e, hs, b) → b = m.content

/-! ## Violations -/

/-- Handlers that answer 200 with the body. -/
def echoEnv : Env := ⟨fun _ => true, fun _ => true, fun _ => [], fun _ _ => 0, fun _ _ b _ => ⟨200, b⟩⟩

/-- No multipart content is understood. -/
def noParts : Multipart := ⟨fun _ => false, fun _ _ => false⟩

/-- The request hidden in the content of another one. -/
def hidden : Bytes := str "POST /.well-known/brski/requestvoucher HTTP/1.1\r\nContent-Length: 3\r\n\r\nabc"

/-- A GET request with content. -/
def getWith : Msg := ⟨.get, str "/", false, [(str "Content-Length", BoolTime.natDec hidden.length)], hidden⟩

/-- A POST request with content in a coding the server does not know. -/
def codedWith : Msg :=
  ⟨.post, str "/", false, [(str "Content-Length", BoolTime.natDec hidden.length), (str "Content-Encoding", str "gzip")], hidden⟩

/-- Two POST requests, the first without content. -/
def bare : Msg := ⟨.post, str "/.well-known/brski/requestvoucher", false, [(str "Host", str "a")], []⟩

/-- The bodies the handlers of a connection saw, with the status of the reply. -/
def seen : Outcome (List Done) → List (Nat × Option Bytes)
  | .ok ds => ds.map fun d : Done => (d.reply.status, d.ran.map fun r => r.2.2)
  | .ub => []

instance (f : Field) : Decidable (Sendable f) :=
  decidable_of_iff (f.1 ≠ [] ∧ (∀ c ∈ f.1, c ∉ [0, 10, 13, 58]) ∧ (∀ c ∈ f.2, c ∉ [0, 10, 13, 37]) ∧
    (f.2.head?.any fun c => !isBlank c) = true ∧ (f.2.getLast?.any fun c => !isBlank c) = true ∧ f.1.length + f.2.length + 4 ≤ 8192) (by
    unfold Sendable
    simp [Option.any_eq_true])

theorem getWith_valid : getWith.Valid where
  target := by decide
  size := by decide
  fields := by decide +kernel
  coding := by decide
  framed := .inl ⟨(str "Content-Length", BoolTime.natDec hidden.length), by decide +kernel, natDec_denotes _, by decide +kernel⟩

theorem codedWith_valid : codedWith.Valid where
  target := by decide
  size := by decide
  fields := by decide +kernel
  coding := by decide
  framed := .inl ⟨(str "Content-Length", BoolTime.natDec hidden.length), by decide +kernel, natDec_denotes _, by decide +kernel⟩

theorem bare_valid : bare.Valid where
  target := by decide
  size := by decide
  fields := by decide +kernel
  coding := by decide
  framed := .inr ⟨by decide, rfl⟩

theorem getWith_seen : seen (connection registrarRoutes noParts echoEnv ([getWith].flatMap Msg.text)) = [(404, none), (200, some (str "abc"))] := by
  decide +kernel

/-- The code violates C91: the content of a GET request is taken for a request of its own. -/
theorem C91_violated : ¬ C91_statement := by
  intro h
  cases hc : connection registrarRoutes noParts echoEnv ([getWith].flatMap Msg.text) with
  | ub => have := getWith_seen; rw [hc] at this; cases this
  | ok ds =>
    have hs := getWith_seen
    rw [hc] at hs
    have hlen : ds.length = 2 := by
      have := congrArg List.length hs
      simpa [seen] using this
    obtain ⟨b, hb⟩ : ∃ b, ds[1]? = some b := ⟨ds[1]'(by omega), List.getElem?_eq_getElem (by omega)⟩
    obtain ⟨m, hm, -⟩ := h registrarRoutes noParts echoEnv [getWith] (by simp [getWith_valid]) _ hc 1 b hb
    cases hm

/-- The code violates C91 for POST requests too: content in a coding that is refused is taken for requests. -/
theorem C91_violated_coding : codedWith.Valid ∧
    seen (connection registrarRoutes noParts echoEnv codedWith.text) = [(415, none), (200, some (str "abc"))] :=
  ⟨codedWith_valid, by decide +kernel⟩

/-- The code violates C91: a POST request without content and without length swallows the requests that follow. -/
theorem C91_violated_swallowed : bare.Valid ∧
    seen (connection registrarRoutes noParts echoEnv (bare.text ++ bare.text)) = [(200, some bare.text)] :=
  ⟨bare_valid, by decide +kernel⟩

/-- A POST request with ranges the server does not understand. -/
def rangedWith : Msg :=
  ⟨.post, str "/", false, [(str "Content-Length", BoolTime.natDec hidden.length), (str "Range", str "lines=1-2")], hidden⟩

/-- The code violates C91: ranges that are refused leave the content to be taken for requests, although an unknown unit has to be
ignored (RFC 9110 section 14.2). -/
theorem C91_violated_range : rangedWith.Valid ∧
    seen (connection registrarRoutes noParts echoEnv rangedWith.text) = [(416, none), (200, some (str "abc"))] :=
  ⟨{ target := by decide
     size := by decide
     fields := by decide +kernel
     coding := by decide
     framed := .inl ⟨(str "Content-Length", BoolTime.natDec hidden.length), by decide +kernel, natDec_denotes _, by decide +kernel⟩ },
    by decide +kernel⟩

/-! ## What holds -/

/-- The methods whose content is read (specification). -/
def withContent : List Method := [.post, .put, .patch, .pri, .delete]

/-- Requests whose content is read as announced (specification): a method that is followed by content comes with a length and
without coding and parts, any other one without content; a `Range` field is understood. -/
structure Msg.Simple (m : Msg) : Prop where
  content : m.method ∈ withContent → fieldsNamed (str "Content-Length") m.fields ≠ [] ∧
    fieldsNamed (str "Content-Encoding") m.fields = [] ∧
    ∀ f ∈ fieldsNamed (str "Content-Type") m.fields, ¬ str "multipart/form-data" <+: f.2
  none : m.method ∉ withContent → m.content = []
  range : ∀ f, (fieldsNamed (str "Range") m.fields).head? = some f → (parseRanges f.2).2 = true

/-- The value of the first `Connection` field (specification). -/
def Msg.connection (m : Msg) : Bytes := ((fieldsNamed (str "Connection") m.fields).head?.map (·.2)).getD []

/-- The client wants no further exchange (specification: RFC 9112 section 9.3). -/
def Msg.Closing (m : Msg) : Prop := m.connection = str "close" ∨ (m.old = true ∧ m.connection ≠ str "Keep-Alive")

theorem version_ok (m : Msg) : (if m.old then str "HTTP/1.0" else str "HTTP/1.1") = str "HTTP/1.1" ∨
    (if m.old then str "HTTP/1.0" else str "HTTP/1.1") = str "HTTP/1.0" := by
  cases m.old <;> simp

theorem parse_msg {m : Msg} (h : m.Valid) : parseRequestLine (m.line ++ [13, 10]) = some ⟨m.method, parsePath m.target⟩ := by
  have ht : ∀ c ∈ m.target, c ∉ [0, 9, 32] := fun c hc hm => h.target.2 c hc (by
    simp only [List.mem_cons, List.not_mem_nil, or_false] at hm ⊢
    rcases hm with e | e | e <;> simp [e])
  exact C63_line m.method m.target h.target.1 ht _ (version_ok m)

theorem line_plain {m : Msg} (h : m.Valid) : ∀ c ∈ m.line, c ∉ [0, 10] := by
  have h1 : ∀ c ∈ methodText m.method, c ∉ [0, 10] := by cases m.method <;> decide
  have h2 : ∀ c ∈ (if m.old then str "HTTP/1.0" else str "HTTP/1.1"), c ∉ [0, 10] := by cases m.old <;> decide
  intro c hc
  unfold Msg.line at hc
  simp only [List.mem_append, List.mem_cons] at hc
  rcases hc with (hc | rfl | hc) | rfl | hc
  · exact h1 c hc
  · decide
  · exact fun hm => h.target.2 c hc (by
      simp only [List.mem_cons, List.not_mem_nil, or_false] at hm ⊢
      rcases hm with e | e <;> simp [e])
  · decide
  · exact h2 c hc

theorem version_msg {m : Msg} (h : m.Valid) : versionOf (m.line ++ [13, 10]) = if m.old then str "HTTP/1.0" else str "HTTP/1.1" := by
  have ht : ∀ c ∈ m.target, c ∉ [0, 9, 32] := fun c hc hm => h.target.2 c hc (by
    simp only [List.mem_cons, List.not_mem_nil, or_false] at hm ⊢
    rcases hm with e | e | e <;> simp [e])
  obtain ⟨hm1, hm2⟩ := methodText_ok m.method
  generalize hv : (if m.old then str "HTTP/1.0" else str "HTTP/1.1") = v
  have hv1 : v ≠ [] ∧ ∀ c ∈ v, c ∉ [0, 9, 32] := by subst hv; cases m.old <;> decide
  have n32 : ∀ {s : Bytes}, (∀ c ∈ s, c ∉ [0, 9, 32]) → (32 : UInt8) ∉ s := fun h hc => h 32 hc (by decide)
  have nb : ∀ {s : Bytes}, (∀ c ∈ s, c ∉ [0, 9, 32]) → trim s = s := fun h => trim_id fun c hc => by
    have := h c hc
    simp only [List.mem_cons, not_or] at this
    simp [isBlank, this.2.1, this.2.2.1]
  have hc : BoolTime.cstr (m.line ++ [13, 10]) = m.line ++ [13, 10] := cstr_id fun c hc e => by
    rcases List.mem_append.1 hc with hc | hc
    · exact line_plain h c hc (by rw [e]; decide)
    · rw [e] at hc; revert hc; decide
  unfold versionOf
  simp only [hc]
  have hl : (m.line ++ [13, 10]).length - 2 = m.line.length := by simp
  rw [hl, List.take_left]
  have hp : splitAll 32 m.line = [methodText m.method, m.target, v] := by
    unfold Msg.line
    rw [hv, splitAll, List.append_assoc, List.cons_append, pieces_cons _ (n32 hm2), pieces_cons _ (n32 ht), pieces_none (n32 hv1.2)]
    simp only [List.map_cons, List.map_nil, nb hm2, nb ht, nb hv1.2]
    simp [hm1, h.target.1, hv1.1]
  rw [hp]
  rfl

theorem named_msg {fs : List Field} (h : ∀ f ∈ fs, Sendable f) (n : Bytes) :
    fieldsNamed n (readHeaders (fs.map lineOf)) = fieldsNamed n fs := by
  have : (fs.map lineOf).filterMap parseHeader = fs := by
    induction fs with
    | nil => rfl
    | cons f fs ih =>
      rw [List.map_cons, List.filterMap_cons, parse_line (h f List.mem_cons_self), ih fun f hf => h f (List.mem_cons_of_mem _ hf)]
  rw [readHeaders, this]
  simpa [fieldsNamed] using (foldl_emplace fs [] List.Pairwise.nil).2 n

theorem value_msg {fs : List Field} (h : ∀ f ∈ fs, Sendable f) (n : Bytes) :
    headerValue (readHeaders (fs.map lineOf)) n = ((fieldsNamed n fs).head?.map (·.2)).getD [] := by
  unfold headerValue
  rw [find_named, named_msg h]
  cases hf : fieldsNamed n fs with
  | nil => rfl
  | cons f r =>
    have hm : f ∈ fs := (List.mem_filter.1 (hf ▸ List.mem_cons_self : f ∈ fieldsNamed n fs)).1
    simp only [List.head?_cons, Option.map_some, Option.getD_some]
    exact cstr_id fun c hc e => (h f hm).2.2.1 c hc (by rw [e]; decide)

theorem asksClose_msg {m : Msg} (h : m.Valid) :
    asksClose (m.line ++ [13, 10]) (readHeaders (m.fields.map lineOf)) = true ↔ m.Closing := by
  unfold asksClose Msg.Closing
  rw [value_msg h.fields, version_msg h]
  cases m.old <;> simp [Msg.connection, show (str "HTTP/1.1" == str "HTTP/1.0") = false by decide]

/-- A simple request is answered as if it were alone, and leaves exactly what follows it. -/
theorem next_simple (rs : List Route) (mp : Multipart) (bd : Bytes) (stop : Bytes → Nat) (dyn : List Field → Bytes → Endpoint → Reply)
    (close : Bool) {m : Msg} (hv : m.Valid) (hs : m.Simple) : ∃ interim reply ran closed,
      (∀ s, serveNext rs mp bd stop dyn close (m.text ++ s) = .ok (some ⟨interim, reply, ran, s, closed⟩)) ∧
      (∀ e hs b, ran = some (e, hs, b) → b = m.content) ∧ (closed = true ↔ m.Closing) ∧
      (Announces reply ↔ close = true ∨ m.connection = str "close") := by
  have hl : ∀ l ∈ m.fields.map lineOf, ReadableLine l := by
    intro l hl
    obtain ⟨f, hf, rfl⟩ := List.mem_map.1 hl
    exact readable_line (hv.fields f hf)
  have hcl : closes close (readHeaders (m.fields.map lineOf)) = true ↔ close = true ∨ m.connection = str "close" := by
    unfold closes
    rw [value_msg hv.fields]
    simp [Msg.connection]
  have hrg : (rangesOf (readHeaders (m.fields.map lineOf))).2 = true := by
    unfold rangesOf
    split
    · rw [value_msg hv.fields]
      cases hf : (fieldsNamed (str "Range") m.fields).head? with
      | none =>
        rename_i h
        rw [hasField_named, named_msg hv.fields] at h
        exact absurd (List.head?_eq_none_iff.1 hf) h
      | some f => exact hs.range f hf
    · rfl
  generalize hrgs : (rangesOf (readHeaders (m.fields.map lineOf))).1 = rg
  generalize hint : (headerValue (readHeaders (m.fields.map lineOf)) (str "Expect") == str "100-continue") = interim
  have start : ∀ s, serveNext rs mp bd stop dyn close (m.text ++ s) =
      (let hs := readHeaders (m.fields.map lineOf)
      if expectsContent m.method then
        (readBody mp m.method hs (m.content ++ s)).bind fun b =>
        match b with
        | .error st =>
          .ok (some ⟨interim, respond (closes close hs) m.method rg bd false ⟨st, [], []⟩, none, bodyRest mp stop m.method hs (m.content ++ s),
            asksClose (m.line ++ [13, 10]) hs⟩)
        | .ok (b, more) =>
          let hs' := readHeaders (m.fields.map lineOf ++ more)
          .ok (some ⟨interim, answer rs (dyn hs' b) (closes close hs') rg bd ⟨m.method, parsePath m.target⟩,
            runs rs ⟨m.method, parsePath m.target⟩ hs' b, bodyRest mp stop m.method hs (m.content ++ s), asksClose (m.line ++ [13, 10]) hs⟩)
      else .ok (some ⟨interim, answer rs (dyn hs []) (closes close hs) rg bd ⟨m.method, parsePath m.target⟩,
        runs rs ⟨m.method, parsePath m.target⟩ hs [], m.content ++ s, asksClose (m.line ++ [13, 10]) hs⟩)) := by
    intro s
    unfold serveNext Msg.text
    have hsz := hv.size
    rw [List.append_assoc, getLine_crlf _ fun hm => line_plain hv 10 hm (by decide)]
    simp only
    rw [if_neg (by simp; omega), parse_msg hv]
    simp only
    rw [List.append_assoc, readLines_all hl]
    simp only [hrg, hrgs, hint, Bool.true_eq_false, if_false]
    rfl
  have hruns : ∀ hs b e hs' b', runs rs ⟨m.method, parsePath m.target⟩ hs b = some (e, hs', b') → b' = b := by
    intro hs b e hs' b' he
    unfold runs at he
    split at he
    · cases he; rfl
    · cases he
  have herr : ∀ (c : Bool) (st : Nat), Announces (respond c m.method rg bd false ⟨st, [], []⟩) ↔ c = true := fun c st =>
    respond_announces List.Pairwise.nil rfl
  by_cases hm : m.method ∈ withContent
  · have hex : expectsContent m.method = true := by revert hm; cases m.method <;> decide
    obtain ⟨hlen, henc, hct⟩ := hs.content hm
    obtain ⟨f, hf, hd, hn⟩ : ∃ f, fieldsNamed (str "Content-Length") m.fields = [f] ∧ Denotes f.2 m.content.length ∧ m.content.length < 2 ^ 64 :=
      hv.framed.resolve_right fun h => hlen h.1
    have hN := fun n => named_msg hv.fields n
    have hmulti : startsWith (str "multipart/form-data") (headerValue (readHeaders (m.fields.map lineOf)) (str "Content-Type")) = false := by
      rw [value_msg hv.fields]
      cases hc : fieldsNamed (str "Content-Type") m.fields with
      | nil => decide
      | cons g r => exact startsWith_false (hct g (by rw [hc]; exact List.mem_cons_self))
    have hcon : ∀ s, readContent (readHeaders (m.fields.map lineOf)) (m.content ++ s) = .ok (.read m.content s []) := by
      intro s
      rw [readContent_length (by rw [hN]; exact henc) (by rw [hN]; exact hv.coding) (v := f.2) (by rw [hN, hf]; rfl) hd hn,
        if_neg (by simp), List.take_left, List.drop_left]
    have hhas : hasField (readHeaders (m.fields.map lineOf)) (str "Content-Length") = true := (hasField_named _ _).2 (by rw [hN]; exact hlen)
    have hclen : contentLength (readHeaders (m.fields.map lineOf)) = m.content.length := by
      unfold contentLength
      rw [find_named, hN, hf]
      simp only [List.head?_cons, strtoull_denotes hd hn, Option.getD_some]
    have hrest : ∀ s, bodyRest mp stop m.method (readHeaders (m.fields.map lineOf)) (m.content ++ s) = s := by
      intro s
      have hch : isChunked (readHeaders (m.fields.map lineOf)) = false := by
        unfold isChunked
        rw [headerValue_nil (by rw [hN]; exact hv.coding)]
        decide
      unfold bodyRest
      simp only [hmulti, Bool.false_and, Bool.false_eq_true, if_false, hhas]
      rw [if_neg (by simp)]
      unfold contentRest
      simp only [headerValue_nil (show fieldsNamed (str "Content-Encoding") (readHeaders (m.fields.map lineOf)) = [] by rw [hN]; exact henc),
        hch, hhas, hclen, List.drop_left]
      rw [if_neg (by decide)]
      simp
    have hbody : ∀ s, readBody mp m.method (readHeaders (m.fields.map lineOf)) (m.content ++ s) =
        if startsWith (str "application/x-www-form-urlencoded") (headerValue (readHeaders (m.fields.map lineOf)) (str "Content-Type")) = true ∧
          m.content.length > 8192 then .ok (.error 413) else .ok (.ok (m.content, [])) := by
      intro s
      unfold readBody
      simp only [hmulti, Bool.false_and, Bool.false_eq_true, if_false, hhas, hcon, bind'_ok]
      rw [if_neg (by simp)]
    by_cases hform : startsWith (str "application/x-www-form-urlencoded") (headerValue (readHeaders (m.fields.map lineOf)) (str "Content-Type")) = true ∧
          m.content.length > 8192
    · refine ⟨interim, _, none, _, fun s => ?_, by simp, asksClose_msg hv, (herr _ 413).trans hcl⟩
      rw [start s]
      simp only [hex, if_true, hbody, if_pos hform, bind'_ok, hrest]
    · refine ⟨interim, answer rs (dyn (readHeaders (m.fields.map lineOf)) m.content) (closes close (readHeaders (m.fields.map lineOf))) rg bd ⟨m.method, parsePath m.target⟩,
        runs rs ⟨m.method, parsePath m.target⟩ (readHeaders (m.fields.map lineOf)) m.content, _, fun s => ?_, hruns _ _, asksClose_msg hv, (answer_announces _ _ _ _ _ _).trans hcl⟩
      rw [start s]
      simp only [hex, if_true, hbody, if_neg hform, bind'_ok, hrest, List.append_nil]
  · have hex : expectsContent m.method = false := by revert hm; cases m.method <;> decide
    have hc := hs.none hm
    refine ⟨interim, answer rs (dyn (readHeaders (m.fields.map lineOf)) []) (closes close (readHeaders (m.fields.map lineOf))) rg bd ⟨m.method, parsePath m.target⟩,
      runs rs ⟨m.method, parsePath m.target⟩ (readHeaders (m.fields.map lineOf)) [], _, fun s => ?_, fun e hs b he => ?_, asksClose_msg hv, (answer_announces _ _ _ _ _ _).trans hcl⟩
    · rw [start s]
      simp only [hex, hc, Bool.false_eq_true, if_false, List.nil_append]
    · rw [hc]; exact hruns _ _ _ _ _ he

theorem loop_simple (rs : List Route) (mp : Multipart) (E : Env) (n : Nat) : ∀ (k : Nat) (ms : List Msg),
    (∀ m ∈ ms, m.Valid ∧ m.Simple) → ∃ ds, loop rs mp E k n (ms.flatMap Msg.text) = .ok ds ∧
      (∀ (i : Nat) d, ds[i]? = some d → i < n ∧ ∃ m, ms[i]? = some m ∧
        alone rs mp E (k + i) (i + 1 == n) m = .ok (some d.reply) ∧ (∀ e hs b, d.ran = some (e, hs, b) → b = m.content) ∧
        (d.closed = true ↔ m.Closing) ∧ (Announces d.reply ↔ i + 1 = n ∨ m.connection = str "close") ∧
        (i + 1 < ds.length → ¬ m.Closing)) ∧
      ((∀ j, E.alive j = true ∧ E.sent j = true) → ∀ j, j < n → j < ms.length →
        (∀ (i : Nat) m, i < j → ms[i]? = some m → ¬ m.Closing) → j < ds.length) := by
  induction n with
  | zero => exact fun k ms _ => ⟨[], rfl, by simp, fun _ j hj => absurd hj (by omega)⟩
  | succ n ih =>
    intro k ms hms
    cases ha : E.alive k with
    | false =>
      exact ⟨[], by simp [loop, ha], by simp, fun h => absurd (h k).1 (by simp [ha])⟩
    | true =>
      cases ms with
      | nil => exact ⟨[], by simp [loop, ha, serveNext, getLine, Outcome.bind], by simp, fun _ j _ hj => absurd hj (by simp)⟩
      | cons m ms =>
        obtain ⟨hv, hs⟩ := hms m List.mem_cons_self
        obtain ⟨interim, reply, ran, closed, hnext, hran, hclosed, hann⟩ := next_simple rs mp (E.bd k) (E.stop k) (E.dyn k) (n == 0) hv hs
        have halone : alone rs mp E k (n == 0) m = .ok (some reply) := by
          have := hnext []
          rw [List.append_nil] at this
          rw [alone, this]
          rfl
        have hann' : Announces reply ↔ 0 + 1 = n + 1 ∨ m.connection = str "close" := by
          rw [hann]
          simp
        have hn0 : ((0 + 1 : Nat) == n + 1) = (n == 0) := by
          rw [Bool.eq_iff_iff]; simp
        rw [List.flatMap_cons]
        by_cases hstop : (!E.sent k || closed) = true
        · refine ⟨[⟨interim, reply, ran, ms.flatMap Msg.text, closed⟩], by
            simp only [loop, ha, hnext, bind'_ok, if_true]; rw [if_pos hstop], ?_, ?_⟩
          · intro i d hd
            match i, hd with
            | 0, hd =>
              cases hd
              exact ⟨by omega, m, rfl, by rw [Nat.add_zero, hn0]; exact halone, hran, hclosed, hann', by simp⟩
          · intro hall j hj hjl hjc
            cases j with
            | zero => simp
            | succ j =>
              have hcl : closed = true := by simpa [(hall k).2] using hstop
              exact absurd (hclosed.1 hcl) (hjc 0 m (by omega) rfl)
        · obtain ⟨ds, hds, h1, h2⟩ := ih (k + 1) ms fun m' h' => hms m' (List.mem_cons_of_mem _ h')
          have hs2 : E.sent k = true ∧ closed = false := by simpa using hstop
          refine ⟨⟨interim, reply, ran, ms.flatMap Msg.text, closed⟩ :: ds, by simp [loop, ha, hnext, hs2, bind'_ok, hds], ?_, ?_⟩
          · intro i d hd
            cases i with
            | zero =>
              cases hd
              refine ⟨by omega, m, rfl, by rw [Nat.add_zero, hn0]; exact halone, hran, hclosed, hann', fun _ hc => ?_⟩
              have := hclosed.2 hc
              rw [hs2.2] at this
              cases this
            | succ i =>
              obtain ⟨hi, m', hm', h3, h4, h5, h6, h7⟩ := h1 i d hd
              refine ⟨by omega, m', hm', ?_, h4, h5, by rw [h6]; simp, fun hlt => h7 (by simpa using hlt)⟩
              rw [show k + (i + 1) = k + 1 + i by omega, show (i + 1 + 1 == n + 1) = (i + 1 == n) by rw [Bool.eq_iff_iff]; simp]
              exact h3
          · intro hall j hj hjl hjc
            cases j with
            | zero => simp
            | succ j =>
              have := h2 hall j (by omega) (by simpa using hjl) fun i m' hi hm' => hjc (i + 1) m' (by omega) hm'
              simpa using this

/-- **C91** for requests whose content the server reads as announced: whatever the environment does, the `i`th reply is the one the
`i`th request would get alone, the handler sees its content and nothing else, at most five requests are answered and none after
one that asks to close; and when nothing fails, every request up to the fifth and up to the first that asks to close is
answered. -/
theorem C91_partial (rs : List Route) (mp : Multipart) (E : Env) (ms : List Msg) (h : ∀ m ∈ ms, m.Valid ∧ m.Simple) :
    ∃ ds, connection rs mp E (ms.flatMap Msg.text) = .ok ds ∧
      (∀ (i : Nat) d, ds[i]? = some d → i < 5 ∧ ∃ m, ms[i]? = some m ∧
        alone rs mp E i (i == 4) m = .ok (some d.reply) ∧ (∀ e hs b, d.ran = some (e, hs, b) → b = m.content) ∧
        (i + 1 < ds.length → ¬ m.Closing)) ∧
      ((∀ j, E.alive j = true ∧ E.sent j = true) → ∀ j, j < 5 → j < ms.length →
        (∀ (i : Nat) m, i < j → ms[i]? = some m → ¬ m.Closing) → j < ds.length) := by
  obtain ⟨ds, h0, h1, h2⟩ := loop_simple rs mp E 5 0 ms h
  refine ⟨ds, h0, fun i d hd => ?_, h2⟩
  obtain ⟨hi, m, hm, h3, h4, -, -, h7⟩ := h1 i d hd
  rw [Nat.zero_add, show (i + 1 == 5) = (i == 4) by rw [Bool.eq_iff_iff]; simp] at h3
  exact ⟨hi, m, hm, h3, h4, h7⟩

/-- A POST request with content. -/
def posted : Msg := ⟨.post, str "/.well-known/brski/requestvoucher", false, [(str "Content-Length", str "3")], str "abc"⟩

theorem posted_valid : posted.Valid where
  target := by decide
  size := by decide
  fields := by decide +kernel
  coding := by decide
  framed := .inl ⟨(str "Content-Length", str "3"), by decide +kernel,
    (by decide +kernel : BoolTime.natDec 3 = str "3") ▸ natDec_denotes 3, by decide +kernel⟩

theorem posted_simple : posted.Simple where
  content _ := ⟨by decide +kernel, by decide +kernel, by decide +kernel⟩
  none h := absurd (by decide) h
  range f h := by cases h

/-- Alone a request without `Range` field gets the reply of `Wire.serve`, to which C76, C77 and the others apply. -/
theorem alone_serve (rs : List Route) (mp : Multipart) (E : Env) (i : Nat) (close : Bool) {m : Msg} (hv : m.Valid)
    (hr : fieldsNamed (str "Range") m.fields = []) : alone rs mp E i close m = serve rs mp (E.dyn i) close m.text := by
  refine serveNext_reply rs mp _ _ _ close _ fun l r ls r' hg hl => ?_
  have hl' : ∀ l ∈ m.fields.map lineOf, ReadableLine l := by
    intro l hl
    obtain ⟨f, hf, rfl⟩ := List.mem_map.1 hl
    exact readable_line (hv.fields f hf)
  unfold Msg.text at hg
  rw [getLine_crlf _ fun hm => line_plain hv 10 hm (by decide)] at hg
  cases hg
  rw [readLines_all hl'] at hl
  cases hl
  rw [named_msg hv.fields, hr]

/-- A request to close. -/
def last : Msg := ⟨.get, str "/", false, [(str "Connection", str "close")], []⟩

theorem last_valid : last.Valid where
  target := by decide
  size := by decide
  fields := by decide +kernel
  coding := by decide
  framed := .inr ⟨by decide, rfl⟩

theorem last_simple : last.Simple where
  content h := absurd h (by decide)
  none _ := rfl
  range f h := by cases h

/-- The hypotheses of C91 can be met: two requests are answered, the second with the end of the connection, the third not. -/
example : (∀ m ∈ [posted, last, posted], m.Valid ∧ m.Simple) ∧ last.Closing ∧ ¬ posted.Closing ∧
    seen (connection registrarRoutes noParts echoEnv ([posted, last, posted].flatMap Msg.text)) = [(200, some (str "abc")), (404, none)] := by
  refine ⟨?_, .inl (by decide +kernel), by unfold Msg.Closing; decide +kernel, by decide +kernel⟩
  intro m hm
  simp only [List.mem_cons, List.not_mem_nil, or_false] at hm
  rcases hm with rfl | rfl | rfl
  · exact ⟨posted_valid, posted_simple⟩
  · exact ⟨last_valid, last_simple⟩
  · exact ⟨posted_valid, posted_simple⟩

/-- A request for a part and the permission to send the content. -/
def ranged : Msg :=
  ⟨.post, str "/.well-known/brski/requestvoucher", false,
    [(str "Content-Length", str "3"), (str "Range", str "bytes=1-"), (str "Expect", str "100-continue")], str "abc"⟩

/-- The replies of a connection: whether `100 Continue` comes first, status and body. -/
def sentFirst : Outcome (List Done) → List (Bool × Nat × Bytes)
  | .ok ds => ds.map fun d : Done => (d.interim, d.reply.status, d.reply.body)
  | .ub => []

/-- Requests with `Range` and `Expect` fields are covered: the handler sees the content, the reply is a part. -/
example : ranged.Simple ∧ sentFirst (connection registrarRoutes noParts echoEnv ranged.text) = [(true, 200, str "bc")] := by
  refine ⟨⟨fun _ => ⟨by decide +kernel, by decide +kernel, by decide +kernel⟩, fun h => absurd (by decide) h, fun f h => ?_⟩, ?_⟩
  · have : f = (str "Range", str "bytes=1-") := by
      have e : (fieldsNamed (str "Range") ranged.fields).head? = some (str "Range", str "bytes=1-") := by decide +kernel
      rw [e] at h
      exact (Option.some.inj h).symm
    rw [this]
    decide +kernel
  · decide +kernel

/-! ## C92: the announced end of the connection -/

/-- **C92** as stated: a reply announces the end of the connection exactly if the server ends it after this reply (RFC 9112
section 9.6), whatever the client sends. -/
def C92_statement : Prop :=
  ∀ (rs : List Route) (mp : Multipart) (E : Env) (s : Bytes) ds, connection rs mp E s = .ok ds → ∀ (i : Nat) d, ds[i]? = some d →
    (Announces d.reply ↔ d.closed = true ∨ i = 4)

/-- A request of the old version. -/
def oldGet : Bytes := str "GET / HTTP/1.0\r\n\r\n"

/-- A request that asks to close in the trailer of its content. -/
def lateClose : Bytes :=
  str "POST /.well-known/brski/requestvoucher HTTP/1.1\r\nTransfer-Encoding: chunked\r\n\r\n0\r\nConnection: close\r\n\r\n" ++ last.text

/-- The replies of a connection: whether they announce the end and whether the server ends the connection. -/
def ends : Outcome (List Done) → List (Bool × Bool)
  | .ok ds => ds.map fun d : Done => (decide ((str "Connection", str "close") ∈ d.reply.headers), d.closed)
  | .ub => []

theorem oldGet_ends : ends (connection registrarRoutes noParts echoEnv oldGet) = [(false, true)] := by decide +kernel

/-- The code violates C92: the connection of a request of version 1.0 is ended while the reply says that it is kept. -/
theorem C92_violated : ¬ C92_statement := by
  intro h
  cases hc : connection registrarRoutes noParts echoEnv oldGet with
  | ub => have := oldGet_ends; rw [hc] at this; cases this
  | ok ds =>
    have hs := oldGet_ends
    rw [hc] at hs
    cases ds with
    | nil => cases hs
    | cons d ds =>
      have h1 := h _ _ _ _ _ hc 0 d rfl
      simp only [ends, List.map_cons, List.cons.injEq, Prod.mk.injEq, decide_eq_false_iff_not] at hs
      exact hs.1.1 (h1.2 (.inl hs.1.2))

/-- The code violates C92 in the other direction: the end is announced and further requests are answered all the same. -/
theorem C92_violated_late : ends (connection registrarRoutes noParts echoEnv lateClose) = [(true, false), (true, true)] := by
  decide +kernel

/-- **C92** for requests of version 1.1 whose content is read as announced. -/
theorem C92_partial (rs : List Route) (mp : Multipart) (E : Env) (ms : List Msg) (h : ∀ m ∈ ms, m.Valid ∧ m.Simple)
    (hn : ∀ m ∈ ms, m.old = false) {ds : List Done} (hc : connection rs mp E (ms.flatMap Msg.text) = .ok ds) {i : Nat} {d : Done}
    (hd : ds[i]? = some d) : Announces d.reply ↔ d.closed = true ∨ i = 4 := by
  obtain ⟨ds', h0, h1, -⟩ := loop_simple rs mp E 5 0 ms h
  unfold connection at hc
  rw [h0] at hc
  cases hc
  obtain ⟨hi, m, hm, -, -, h5, h6, -⟩ := h1 i d hd
  have hold := hn m (List.mem_of_getElem? hm)
  rw [h6, h5, Msg.Closing, hold]
  simp only [Bool.false_eq_true, false_and, or_false]
  rw [or_comm, show i + 1 = 5 ↔ i = 4 by omega]

/-- The hypotheses of C92 can be met: the first reply announces nothing, the second one the end. -/
example : (∀ m ∈ [posted, last], m.Valid ∧ m.Simple ∧ m.old = false) ∧
    ends (connection registrarRoutes noParts echoEnv ([posted, last].flatMap Msg.text)) = [(false, false), (true, true)] := by
  refine ⟨?_, by decide +kernel⟩
  intro m hm
  simp only [List.mem_cons, List.not_mem_nil, or_false] at hm
  rcases hm with rfl | rfl
  · exact ⟨posted_valid, posted_simple, rfl⟩
  · exact ⟨last_valid, last_simple, rfl⟩

end Brski.Props
