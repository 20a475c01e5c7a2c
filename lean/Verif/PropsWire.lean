import Verif.WireLemmas

/-!
# C76, C77: messages arrive unchanged or not at all
-/

namespace Brski.Props
open Outcome Routes Wire

/-! ## The fields of a reply -/

theorem writeResponse_all (P : Field → Prop) (close : Bool) (m : Method) (rg : Bool) {r : Res}
    (h0 : ∀ f ∈ r.headers, P f) (h1 : P (str "Content-Type", str "text/plain"))
    (h2 : ∀ b, b = r.body ∨ b = str "Router error" → P (str "Content-Length", BoolTime.natDec b.length))
    (h3 : P (str "Content-Length", str "0")) (h4 : P (keepField close)) (h5 : P (str "Accept-Ranges", str "bytes")) :
    ∀ f ∈ (writeResponse close m rg r).headers, P f := by
  have hset : ∀ {q : Res} {k v : Bytes}, (∀ f ∈ q.headers, P f) → P (k, v) → ∀ f ∈ (setHeader q k v).headers, P f := by
    intro q k v hq hp f hf
    rcases mem_setHeader hf with hf | ⟨rfl, -⟩
    · exact hq f hf
    · exact hp
  have hif : ∀ {p : Prop} [Decidable p] {a b : Res}, (∀ f ∈ a.headers, P f) → (∀ f ∈ b.headers, P f) →
      ∀ f ∈ (if p then a else b).headers, P f := by
    intro p _ a b ha hb
    split
    · exact ha
    · exact hb
  unfold writeResponse
  have g1 : (∀ f ∈ (if 400 ≤ r.status then errorHandler r else r).headers, P f) ∧
      ((if 400 ≤ r.status then errorHandler r else r).body = r.body ∨
        (if 400 ≤ r.status then errorHandler r else r).body = str "Router error") := by
    by_cases hs : 400 ≤ r.status
    · simp only [hs, if_true]
      unfold errorHandler
      refine ⟨hset ?_ h1, ?_⟩
      · split
        · exact h0
        · exact h0
      · rw [(setHeader_rest _ _ _).2]
        split
        · exact .inr rfl
        · exact .inl rfl
    · simp only [hs, if_false]
      exact ⟨h0, .inl trivial⟩
  generalize (if 400 ≤ r.status then errorHandler r else r) = r1 at g1 ⊢
  obtain ⟨g1, gb⟩ := g1
  simp only
  refine hif (hset ?_ h5) ?_ <;> refine hif (hset ?_ h3) ?_ <;> refine hif (hset ?_ h1) ?_ <;> refine hset ?_ h4 <;>
    exact hif (hset g1 (h2 _ gb)) g1

theorem writeResponse_sorted (close : Bool) (m : Method) (rg : Bool) {r : Res} (h : Sorted r.headers) :
    Sorted (writeResponse close m rg r).headers := by
  have hif : ∀ {p : Prop} [Decidable p] {a b : Res}, Sorted a.headers → Sorted b.headers →
      Sorted (if p then a else b).headers := by
    intro p _ a b ha hb
    split
    · exact ha
    · exact hb
  unfold writeResponse
  have g1 : Sorted (if 400 ≤ r.status then errorHandler r else r).headers := hif (errorHandler_spec h).1 h
  generalize (if 400 ≤ r.status then errorHandler r else r) = r1 at g1 ⊢
  simp only
  refine hif (setHeader_sorted ?_ _ _) ?_ <;> refine hif (setHeader_sorted ?_ _ _) ?_ <;>
    refine hif (setHeader_sorted ?_ _ _) ?_ <;> refine setHeader_sorted ?_ _ _ <;>
    exact hif (setHeader_sorted g1 _ _) g1

/-- The names of the fields of a reply. -/
def replyNames : List Bytes :=
  [str "Content-Type", str "Content-Length", str "Connection", str "Keep-Alive", str "Accept-Ranges"]

/-- A field of a reply of the servers. -/
def ReplyField (f : Field) : Prop := f.1 ∈ replyNames ∧ Sendable f

instance (f : Field) : Decidable (Sendable f) :=
  have : Decidable (∃ c, f.2.head? = some c ∧ isBlank c = false) :=
    match h : f.2.head? with
    | none => isFalse (by rintro ⟨c, hc, -⟩; cases hc)
    | some c => if hb : isBlank c = false then isTrue ⟨c, rfl, hb⟩ else isFalse (by rintro ⟨d, hd, h'⟩; cases hd; exact hb h')
  have : Decidable (∃ c, f.2.getLast? = some c ∧ isBlank c = false) :=
    match h : f.2.getLast? with
    | none => isFalse (by rintro ⟨c, hc, -⟩; cases hc)
    | some c => if hb : isBlank c = false then isTrue ⟨c, rfl, hb⟩ else isFalse (by rintro ⟨d, hd, h'⟩; cases hd; exact hb h')
  inferInstanceAs (Decidable (_ ∧ _ ∧ _ ∧ _ ∧ _ ∧ _))

instance (f : Field) : Decidable (ReplyField f) := inferInstanceAs (Decidable (_ ∧ _))

theorem length_replyField {b : Bytes} (h : b.length < 2 ^ 64) :
    ReplyField (str "Content-Length", BoolTime.natDec b.length) := by
  refine ⟨show str "Content-Length" ∈ replyNames by decide, denotes_sendable (by decide) (natDec_denotes _) ?_⟩
  have := natDec_len 19 b.length (by omega)
  have e : (str "Content-Length").length = 14 := by decide
  omega

/-- Body that is sent unless the request is HEAD. -/
theorem process_fields (rs : List Route) (dyn : Endpoint → Reply) (close : Bool) (line : Bytes)
    (hb : ∀ e, ((Endpoint.stub e).getD (dyn e)).body.length < 2 ^ 64) :
    (∀ f ∈ (process rs dyn close line).headers, ReplyField f) ∧ Sorted (process rs dyn close line).headers := by
  have hr : (str "Router error").length < 2 ^ 64 := by decide
  have hk : ∀ c, ReplyField (keepField c) := by intro c; cases c <;> decide
  have herr : ∀ (m : Method) (st : Nat), (∀ f ∈ (writeResponse close m false ⟨st, [], []⟩).headers, ReplyField f) ∧
      Sorted (writeResponse close m false ⟨st, [], []⟩).headers := by
    intro m st
    refine ⟨writeResponse_all _ close m false (fun f hf => absurd hf (by simp)) (by decide) ?_ (by decide) (hk _) (by decide),
      writeResponse_sorted _ _ _ List.Pairwise.nil⟩
    rintro b (rfl | rfl)
    · exact length_replyField (by simp)
    · exact length_replyField hr
  unfold process
  split
  · exact herr _ _
  · split
    · exact herr _ _
    · split
      · exact herr _ _
      · exact herr _ _
      · rename_i e _
        simp only [setResponse_spec]
        refine ⟨writeResponse_all _ close _ true ?_ (by decide) ?_ (by decide) (hk _) (by decide),
          writeResponse_sorted _ _ _ (List.pairwise_singleton _ _)⟩
        · intro f hf
          rw [List.mem_singleton] at hf
          rw [hf]
          cases e <;> decide
        · rintro b (rfl | rfl)
          · exact length_replyField (hb e)
          · exact length_replyField hr

theorem fieldsNamed_nil {k : Bytes} {hs : List Field} (h : ∀ f ∈ hs, ReplyField f) (hk : ∀ n ∈ replyNames, ¬ SameName n k) :
    fieldsNamed k hs = [] := by
  unfold fieldsNamed
  rw [List.filter_eq_nil_iff]
  intro f hf hn
  exact hk _ (h f hf).1 (by simpa using hn)

/-! ## Content of known length -/

theorem readContent_length {hs : List Field} {v s : Bytes} {n : Nat} (he : fieldsNamed (str "Content-Encoding") hs = [])
    (ht : fieldsNamed (str "Transfer-Encoding") hs = []) (hl : (fieldsNamed (str "Content-Length") hs).map Prod.snd = [v])
    (hv : Denotes v n) (hn : n < 2 ^ 64) :
    readContent hs s = if s.length < n then .ok (.failed 400) else .ok (.read (s.take n) (s.drop n) []) := by
  have hc : contentLength hs = n := by
    unfold contentLength
    rw [find_named]
    cases hf : fieldsNamed (str "Content-Length") hs with
    | nil => rw [hf] at hl; cases hl
    | cons f fs =>
      rw [hf] at hl
      simp only [List.map_cons, List.cons.injEq] at hl
      simp only [List.head?_cons, hl.1, strtoull_denotes hv hn, Option.getD_some]
  have hh : hasField hs (str "Content-Length") = true :=
    (hasField_named _ _).2 fun e => by rw [e] at hl; cases hl
  unfold readContent
  have hch : isChunked hs = false := by
    unfold isChunked
    rw [headerValue_nil ht]
    decide
  simp only [headerValue_nil he, hch, hh, hc]
  rw [if_neg (by decide)]
  simp

/-! ## C76: replies -/

theorem replyText_split (w : Res) : replyText w = statusText w.status ++ [13, 10] ++ (fieldsText w.headers ++ w.body) := by
  simp [replyText, statusText]

/-- What the client can make of a reply: everything the proofs need to know of it. -/
structure Deliverable (w : Res) : Prop where
  status : 100 < w.status ∧ w.status < 1000 ∧ w.status ≠ 204
  fields : ∀ f ∈ w.headers, ReplyField f
  sorted : Sorted w.headers
  len : ∃ v, lengthFields w = [v] ∧ Denotes v w.body.length
  size : w.body.length < 2 ^ 64

theorem read_deliverable {w : Res} (h : Deliverable w) (rest : Bytes) :
    readReply (replyText w ++ rest) = .ok (some (w.status, w.body)) := by
  obtain ⟨⟨h1, h2, h3⟩, h4, h5, ⟨v, h6, h7⟩, h8⟩ := h
  have hs : ∀ f ∈ w.headers, Sendable f := fun f hf => (h4 f hf).2
  rw [replyText_split, List.append_assoc]
  unfold readReply
  rw [readStatus_line h1 h2]
  simp only
  rw [fieldsText_lines hs, List.append_assoc, readLines_all (by
    intro l hl
    obtain ⟨f, hf, rfl⟩ := List.mem_map.1 hl
    exact readable_line (hs f hf))]
  simp only
  rw [if_neg h3, readHeaders_sent hs h5, readContent_length (fieldsNamed_nil h4 (by decide)) (fieldsNamed_nil h4 (by decide))
    h6 h7 h8, if_neg (by simp)]
  simp

theorem cut_deliverable {w : Res} (h : Deliverable w) {p : Bytes} (hp : p <+: replyText w) (hne : p ≠ replyText w) :
    readReply p = .ok none := by
  obtain ⟨⟨h1, h2, h3⟩, h4, h5, ⟨v, h6, h7⟩, h8⟩ := h
  have hs : ∀ f ∈ w.headers, Sendable f := fun f hf => (h4 f hf).2
  have hl : ∀ l ∈ w.headers.map lineOf, ReadableLine l := by
    intro l hl
    obtain ⟨f, hf, rfl⟩ := List.mem_map.1 hl
    exact readable_line (hs f hf)
  have hlf : (10 : UInt8) ∉ statusText w.status := fun hm => statusText_plain _ _ hm (by decide)
  rw [replyText_split] at hp hne
  unfold readReply
  rcases prefix_split hp with ⟨hp, hn⟩ | ⟨q, rfl, hq⟩
  · rw [readStatus_cut (cut_line hlf hp hn)]
  · rw [readStatus_line h1 h2]
    simp only
    rw [fieldsText_lines hs] at hq hne
    rcases prefix_split hq with ⟨hq, hn⟩ | ⟨b, rfl, hb⟩
    · have := readLines_prefix hl hq hn
      generalize readLines q = x at this
      obtain ⟨a, b⟩ := x
      cases this
      rfl
    · rw [readLines_all hl]
      simp only
      rw [if_neg h3, readHeaders_sent hs h5,
        readContent_length (fieldsNamed_nil h4 (by decide)) (fieldsNamed_nil h4 (by decide)) h6 h7 h8, if_pos]
      · rfl
      · refine Nat.lt_of_le_of_ne hb.length_le fun e => hne ?_
        rw [hb.eq_of_length e]

/-- The replies of the servers can be delivered. -/
theorem process_deliverable (rs : List Route) (dyn : Endpoint → Reply) (close : Bool) (line : Bytes)
    (hb : ∀ e, ((Endpoint.stub e).getD (dyn e)).body.length < 2 ^ 64) (hh : ¬ IsHead line)
    (hst : 100 < (process rs dyn close line).status ∧ (process rs dyn close line).status < 1000 ∧
      (process rs dyn close line).status ≠ 204) : Deliverable (process rs dyn close line) := by
  obtain ⟨h1, h2⟩ := process_fields rs dyn close line hb
  obtain ⟨v, full, g1, g2, -, g4⟩ := C64_length rs dyn close line
  refine ⟨hst, h1, h2, ⟨v, g1, by rw [g4 hh]; exact g2⟩, ?_⟩
  rcases C62_partial_answer rs dyn close line with ⟨-, -, -, g⟩ | ⟨e, rep, -, rfl, -, g, -⟩
  · rw [g, unlessHead]
    split
    · simp
    · decide
  · rw [g, unlessHead]
    split
    · simp
    · split
      · decide
      · exact hb e

/-- **C76** for replies: the client gets status and body of what the server sent, whatever bytes follow.  (A reply with
status 204 has no content for the client; the handlers use 200, 400, 404, 406, 500, 503.) -/
theorem C76_reply (rs : List Route) (dyn : Endpoint → Reply) (close : Bool) (line rest : Bytes)
    (hb : ∀ e, ((Endpoint.stub e).getD (dyn e)).body.length < 2 ^ 64) (hh : ¬ IsHead line)
    (hst : 100 < (process rs dyn close line).status ∧ (process rs dyn close line).status < 1000 ∧
      (process rs dyn close line).status ≠ 204) :
    readReply (replyText (process rs dyn close line) ++ rest) =
      .ok (some ((process rs dyn close line).status, (process rs dyn close line).body)) :=
  read_deliverable (process_deliverable rs dyn close line hb hh hst) rest

/-- **C77** for replies: when the connection ends before the reply is complete the client reports an error. -/
theorem C77_reply (rs : List Route) (dyn : Endpoint → Reply) (close : Bool) (line : Bytes)
    (hb : ∀ e, ((Endpoint.stub e).getD (dyn e)).body.length < 2 ^ 64) (hh : ¬ IsHead line)
    (hst : 100 < (process rs dyn close line).status ∧ (process rs dyn close line).status < 1000 ∧
      (process rs dyn close line).status ≠ 204) (p : Bytes) (hp : p <+: replyText (process rs dyn close line))
    (hne : p ≠ replyText (process rs dyn close line)) : readReply p = .ok none :=
  cut_deliverable (process_deliverable rs dyn close line hb hh hst) hp hne

/-- Non-vacuity: a reply as it is on the wire, and what the client makes of it and of a part of it. -/
example :
    let t := str "HTTP/1.1 200 OK\r\nConnection: close\r\nContent-Length: 8\r\nContent-Type: text/plain\r\n\r\n=voucher"
    replyText (process masaRoutes (fun _ => ⟨200, str "=voucher"⟩) true demoLine) = t ∧
    readReply t = .ok (some (200, str "=voucher")) ∧ readReply (t.take 84) = .ok none := by decide +kernel

/-! ## C76: requests -/

/-- A text of visible characters without percent sign, as host names and content types are (specification). -/
def Visible (v : Bytes) : Prop := v ≠ [] ∧ v.length ≤ 8000 ∧ ∀ c ∈ v, 33 ≤ c.toNat ∧ c.toNat ≤ 126 ∧ c.toNat ≠ 37

instance (v : Bytes) : Decidable (Visible v) := inferInstanceAs (Decidable (_ ∧ _ ∧ _))

theorem visible_plain {v : Bytes} (h : Visible v) : (∀ c ∈ v, c ∉ [0, 10, 13, 37]) ∧ ∀ c ∈ v, isBlank c = false := by
  refine ⟨fun c hc hm => ?_, fun c hc => ?_⟩
  · have := h.2.2 c hc
    simp only [List.mem_cons, List.not_mem_nil, or_false] at hm
    rcases hm with rfl | rfl | rfl | rfl <;> revert this <;> decide
  · have := h.2.2 c hc
    unfold isBlank
    simp only [Bool.or_eq_false_iff, beq_eq_false_iff_ne]
    constructor <;> rintro rfl <;> revert this <;> decide

theorem visible_sendable {k v : Bytes} (hk : k ≠ [] ∧ ∀ c ∈ k, c ∉ [0, 10, 13, 58]) (hl : k.length ≤ 100) (h : Visible v) :
    Sendable (k, v) := by
  obtain ⟨h1, h2⟩ := visible_plain h
  refine ⟨hk.1, hk.2, h1, ?_, ?_, by have := h.2.1; simp only; omega⟩
  · cases v with
    | nil => exact absurd rfl h.1
    | cons c v => exact ⟨c, rfl, h2 c List.mem_cons_self⟩
  · exact ⟨v.getLast h.1, List.getLast?_eq_some_getLast h.1, h2 _ (List.getLast_mem h.1)⟩

theorem visible_crlf {v : Bytes} (h : Visible v) : hasCrlf v = false := by
  rw [hasCrlf_false]
  intro c hc
  have := (visible_plain h).1 c ((List.takeWhile_sublist _).mem hc)
  simp only [List.mem_cons, List.not_mem_nil, or_false, not_or] at this
  exact ⟨this.2.2.1, this.2.1⟩

/-- The fields a client sends with a POST (specification). -/
def clientFields (host ctype body : Bytes) : List Field :=
  [(str "Accept", str "*/*"), (str "Connection", str "close"), (str "Content-Length", BoolTime.natDec body.length),
    (str "Content-Type", ctype), (str "Host", host), (str "User-Agent", str "cpp-httplib/0.14.3")]

theorem requestFields_eq {host ctype : Bytes} (body : Bytes) (hh : Visible host) (hc : Visible ctype) :
    requestFields host ctype body = clientFields host ctype body := by
  have e1 : ∀ hs : List Field, ∀ k : Bytes, hasCrlf k = false → ∀ v : Bytes, hasCrlf v = false →
      addField hs k v = emplace hs (k, v) := by
    intro hs k hk v hv
    unfold addField
    rw [if_pos (by simp [hk, hv])]
  unfold requestFields
  simp only [if_neg hc.1]
  rw [e1 _ (str "Content-Type") (by decide) _ (visible_crlf hc), e1 _ (str "Connection") (by decide) _ (by decide),
    e1 _ (str "Host") (by decide) _ (visible_crlf hh), e1 _ (str "Accept") (by decide) _ (by decide),
    e1 _ (str "User-Agent") (by decide) _ (by decide)]
  have e2 : emplace (emplace (emplace (emplace (emplace [] (str "Content-Type", ctype)) (str "Connection", str "close"))
      (str "Host", host)) (str "Accept", str "*/*")) (str "User-Agent", str "cpp-httplib/0.14.3") =
      [(str "Accept", str "*/*"), (str "Connection", str "close"),
    (str "Content-Type", ctype), (str "Host", host), (str "User-Agent", str "cpp-httplib/0.14.3")] := rfl
  rw [e2]
  have e3 : hasField [(str "Accept", str "*/*"), (str "Connection", str "close"),
    (str "Content-Type", ctype), (str "Host", host), (str "User-Agent", str "cpp-httplib/0.14.3")] (str "Content-Type") =
      true := rfl
  rw [e3, if_neg (by simp), e1 _ (str "Content-Length") (by decide) _ (natDec_no_crlf _)]
  rfl

theorem clientFields_spec {host ctype body : Bytes} (hh : Visible host) (hc : Visible ctype) (hb : body.length < 2 ^ 64) :
    (∀ f ∈ clientFields host ctype body, Sendable f) ∧ Sorted (clientFields host ctype body) := by
  constructor
  · intro f hf
    unfold clientFields at hf
    simp only [List.mem_cons, List.not_mem_nil, or_false] at hf
    rcases hf with rfl | rfl | rfl | rfl | rfl | rfl
    · decide
    · decide
    · exact (length_replyField hb).2
    · exact visible_sendable (by decide) (by decide) hc
    · exact visible_sendable (by decide) (by decide) hh
    · decide
  · unfold Sorted clientFields
    simp only [List.pairwise_cons, List.mem_cons, List.not_mem_nil, or_false, forall_eq_or_imp, forall_eq,
      false_implies, implies_true, List.Pairwise.nil, and_true]
    decide

/-- A path that arrives as it is sent: no NUL, tab, percent sign, question mark or number sign (specification). -/
def PathOk (p : Bytes) : Prop := p ≠ [] ∧ 3 * p.length + 16 ≤ 8192 ∧ ∀ c ∈ p, c ∉ [0, 9, 35, 37, 63]

instance (p : Bytes) : Decidable (PathOk p) := inferInstanceAs (Decidable (_ ∧ _ ∧ _))

/-- How `encode_url` writes a character. -/
def writtenAs (c : UInt8) : Written :=
  if c ∈ [32, 43, 13, 10, 39, 44, 59] ∨ 128 ≤ c.toNat then
    .pct ⟨c.toNat / 16, by have := c.toNat_lt; omega⟩ ⟨c.toNat % 16, by omega⟩ true true
  else .raw c

theorem written_char (c : UInt8) (h : c ∉ [0, 9, 35, 37, 63]) :
    encodeUrl [c] = (writtenAs c).text ∧ (writtenAs c).value = [c] ∧ (writtenAs c).Ok ∧
      (writtenAs c).text.length ≤ 3 := by
  have hall : ∀ n : Fin 256, UInt8.ofNat n ∉ [0, 9, 35, 37, 63] →
      encodeUrl [UInt8.ofNat n] = (writtenAs (UInt8.ofNat n)).text ∧
      (writtenAs (UInt8.ofNat n)).value = [UInt8.ofNat n] ∧
      (match writtenAs (UInt8.ofNat n) with
        | .raw c => decide (c ∉ [0, 9, 10, 13, 32, 35, 37, 63])
        | _ => true) = true ∧
      (writtenAs (UInt8.ofNat n)).text.length ≤ 3 := by decide +kernel
  have e : UInt8.ofNat c.toNat = c := by simp
  have := hall ⟨c.toNat, c.toNat_lt⟩
  simp only [e] at this
  obtain ⟨h1, h2, h3, h4⟩ := this h
  refine ⟨h1, h2, ?_, h4⟩
  cases hw : writtenAs c with
  | raw d => rw [hw] at h3; exact (of_decide_eq_true h3 : d ∉ [0, 9, 10, 13, 32, 35, 37, 63])
  | pct => trivial
  | uni => trivial

theorem encodeUrl_append (a b : Bytes) (h : ∀ c ∈ a, c ≠ 0) : encodeUrl (a ++ b) = encodeUrl a ++ encodeUrl b := by
  unfold encodeUrl
  have : BoolTime.cstr (a ++ b) = a ++ BoolTime.cstr b := by
    unfold BoolTime.cstr
    rw [List.takeWhile_append_of_pos]
    intro c hc
    exact decide_eq_true (h c hc)
  rw [this, cstr_id h, List.flatMap_append]

theorem encodeUrl_written {p : Bytes} (h : ∀ c ∈ p, c ∉ [0, 9, 35, 37, 63]) :
    encodeUrl p = pathText (p.map writtenAs) ∧ (p.map writtenAs).flatMap Written.value = p ∧
      (∀ w ∈ p.map writtenAs, w.Ok) ∧ (encodeUrl p).length ≤ 3 * p.length := by
  induction p with
  | nil => exact ⟨rfl, rfl, by simp, by decide⟩
  | cons c p ih =>
    obtain ⟨h1, h2, h3, h4⟩ := ih fun d hd => h d (List.mem_cons_of_mem _ hd)
    obtain ⟨g1, g2, g3, g4⟩ := written_char c (h c List.mem_cons_self)
    have e : encodeUrl (c :: p) = encodeUrl [c] ++ encodeUrl p :=
      encodeUrl_append [c] p fun d hd e => h c List.mem_cons_self (by rw [← List.mem_singleton.1 hd, e]; decide)
    refine ⟨?_, ?_, ?_, ?_⟩
    · rw [e, h1, g1]
      simp [pathText]
    · rw [List.map_cons, List.flatMap_cons, g2, h2]
      rfl
    · intro w hw
      rw [List.map_cons, List.mem_cons] at hw
      rcases hw with rfl | hw
      · exact g3
      · exact h3 w hw
    · rw [e, List.length_append, g1, List.length_cons]
      omega

/-- The request line of a POST without its end. -/
def postLine (path : Bytes) : Bytes := str "POST " ++ encodeUrl path ++ str " HTTP/1.1"

theorem postLine_spec {path : Bytes} (h : PathOk path) :
    parseRequestLine (postLine path ++ [13, 10]) = some ⟨.post, path⟩ ∧ (10 : UInt8) ∉ postLine path ∧
      (postLine path ++ [13, 10]).length ≤ 8192 := by
  obtain ⟨h1, h2, h3⟩ := h
  obtain ⟨g1, g2, g3, g4⟩ := encodeUrl_written h3
  have hpl := text_plain g3
  have hne : path.map writtenAs ≠ [] := by simpa using h1
  have hne' : pathText (path.map writtenAs) ≠ [] := by
    cases path with
    | nil => exact absurd rfl h1
    | cons c p =>
      simp only [List.map_cons, pathText, List.flatMap_cons]
      cases writtenAs c <;> simp [Written.text]
  refine ⟨?_, ?_, ?_⟩
  · have := C63_line .post (pathText (path.map writtenAs)) hne' (fun c hc hm => hpl c hc (by
      simp only [List.mem_cons, List.not_mem_nil, or_false] at hm
      rcases hm with rfl | rfl | rfl <;> decide)) (str "HTTP/1.1") (.inl rfl)
    have hp := C63_path (path.map writtenAs) hne g3 [] (.inl rfl)
    rw [List.append_nil] at hp
    rw [hp, g2] at this
    rw [← this]
    unfold postLine
    rw [g1]
    have e1 : str "POST " = methodText .post ++ [32] := by decide
    have e2 : str " HTTP/1.1" = 32 :: str "HTTP/1.1" := by decide
    rw [e1, e2]
    simp
  · unfold postLine
    rw [g1]
    simp only [List.mem_append, not_or]
    exact ⟨⟨by decide, fun hm => hpl _ hm (by decide)⟩, by decide⟩
  · unfold postLine
    simp only [List.length_append]
    have e1 : (str "POST ").length = 5 := by decide
    have e2 : (str " HTTP/1.1").length = 9 := by decide
    simp only [List.length_cons, List.length_nil]
    omega

theorem requestText_split {host path ctype body : Bytes} (hh : Visible host) (hc : Visible ctype) :
    requestText host path ctype body =
      postLine path ++ [13, 10] ++ (fieldsText (clientFields host ctype body) ++ body) := by
  unfold requestText postLine
  rw [requestFields_eq body hh hc]
  simp

/-- A request with ordinary content type can be posted (specification): the texts are visible, the path is ordinary, and
the content type is none of those that the server takes apart itself. -/
structure Postable (host path ctype body : Bytes) : Prop where
  hostOk : Visible host
  ctypeOk : Visible ctype
  pathOk : PathOk path
  multi : ¬ str "multipart/form-data" <+: ctype
  form : ¬ str "application/x-www-form-urlencoded" <+: ctype
  size : body.length < 2 ^ 64

theorem startsWith_false {p s : Bytes} (h : ¬ p <+: s) : startsWith p s = false := by
  unfold startsWith
  refine Classical.byContradiction fun hx => h ?_
  have hx : s.take p.length = p := by simpa using hx
  rw [← hx]
  exact List.take_prefix _ _

theorem client_named (host ctype body : Bytes) :
    fieldsNamed (str "Content-Encoding") (clientFields host ctype body) = [] ∧
    fieldsNamed (str "Transfer-Encoding") (clientFields host ctype body) = [] ∧
    fieldsNamed (str "Content-Length") (clientFields host ctype body) =
      [(str "Content-Length", BoolTime.natDec body.length)] ∧
    fieldsNamed (str "Content-Type") (clientFields host ctype body) = [(str "Content-Type", ctype)] ∧
    fieldsNamed (str "Connection") (clientFields host ctype body) = [(str "Connection", str "close")] :=
  ⟨rfl, rfl, rfl, rfl, rfl⟩

theorem readBody_client (mp : Multipart) {host path ctype body : Bytes} (h : Postable host path ctype body) (s : Bytes) :
    readBody mp .post (clientFields host ctype body) s =
      if s.length < body.length then .ok (.error 400) else .ok (.ok (s.take body.length, [])) := by
  obtain ⟨n1, n2, n3, n4, -⟩ := client_named host ctype body
  have hct : headerValue (clientFields host ctype body) (str "Content-Type") = ctype :=
    headerValue_one n4 rfl fun c hc e => (visible_plain h.ctypeOk).1 c hc (by rw [e]; decide)
  unfold readBody
  simp only [hct, startsWith_false h.multi, startsWith_false h.form, Bool.false_and, Bool.false_eq_true, if_false, false_and]
  rw [if_neg (by simp), readContent_length n1 n2 (by rw [n3]; rfl) (natDec_denotes _) h.size]
  split <;> rfl

/-- **C76** for requests: the server hands the posted body and the fields to the handler that belongs to the path,
unchanged and whatever bytes follow, and sends what it answers. -/
theorem C76_request (rs : List Route) (mp : Multipart) (dyn : List Field → Bytes → Endpoint → Reply) (close : Bool)
    (host path ctype body rest : Bytes) (h : Postable host path ctype body) :
    ∃ line, line.length ≤ 8192 ∧ parseRequestLine line = some ⟨.post, path⟩ ∧
      serve rs mp dyn close (requestText host path ctype body ++ rest) =
        .ok (some (process rs (dyn (clientFields host ctype body) body) true line)) := by
  obtain ⟨h1, h2, h3⟩ := postLine_spec h.pathOk
  obtain ⟨hs, hso⟩ := clientFields_spec h.hostOk h.ctypeOk h.size
  refine ⟨_, h3, h1, ?_⟩
  rw [requestText_split h.hostOk h.ctypeOk, List.append_assoc]
  unfold serve
  rw [getLine_crlf _ h2]
  simp only
  rw [if_neg (by omega), h1]
  simp only
  rw [fieldsText_lines hs, List.append_assoc, readLines_all (by
    intro l hl
    obtain ⟨f, hf, rfl⟩ := List.mem_map.1 hl
    exact readable_line (hs f hf))]
  simp only [expectsContent, if_true]
  rw [readHeaders_sent hs hso, readBody_client mp h, if_neg (by simp)]
  have hcl : closes close (clientFields host ctype body) = true := by
    unfold closes
    rw [headerValue_one (client_named host ctype body).2.2.2.2 rfl (by decide)]
    simp
  simp only [bind'_ok, List.append_nil, readHeaders_sent hs hso, hcl, List.take_left]

/-- A POST to a server and back: request, answer of the server, what the client makes of it. -/
def exchange (rs : List Route) (mp : Multipart) (dyn : List Field → Bytes → Endpoint → Reply) (close : Bool)
    (host path ctype body : Bytes) : Outcome (Option (Nat × Bytes)) :=
  (serve rs mp dyn close (requestText host path ctype body)).bind fun r =>
  match r with
  | none => .ok none
  | some w => readReply (replyText w)

/-- **C76**: a POST to a path with a handler runs this handler with exactly the body posted, and the client gets exactly
its status and its body; an error without text gets one. -/
theorem C76_exchange (rs : List Route) (mp : Multipart) (dyn : List Field → Bytes → Endpoint → Reply) (close : Bool)
    (host path ctype body : Bytes) (h : Postable host path ctype body) (e : Endpoint)
    (he : routing rs ⟨.post, path⟩ = some (some e)) (rep : Reply)
    (hrep : rep = e.stub.getD (dyn (clientFields host ctype body) body e))
    (hst : 100 < rep.status ∧ rep.status < 1000 ∧ rep.status ≠ 204)
    (hb : ∀ e, (dyn (clientFields host ctype body) body e).body.length < 2 ^ 64) :
    exchange rs mp dyn close host path ctype body =
      .ok (some (rep.status, if 400 ≤ rep.status ∧ rep.body = [] then str "Router error" else rep.body)) := by
  obtain ⟨line, h1, h2, h3⟩ := C76_request rs mp dyn close host path ctype body [] h
  rw [List.append_nil] at h3
  unfold exchange
  rw [h3]
  simp only [bind'_ok]
  have hh : ¬ IsHead line := fun hh => by
    have := (firstWord_method h2).1 hh.2
    cases this
  have hho : handlerOf rs line = some e := by
    unfold handlerOf
    rw [if_neg (by omega), h2]
    simp only [Option.bind_some, he, id]
  rcases C62_partial_answer rs (dyn (clientFields host ctype body) body) true line with ⟨g1, -⟩ | ⟨e', rep', g1, g2, g3, g4, -⟩
  · rw [hho] at g1
    cases g1
  · rw [hho] at g1
    cases g1
    have hr : rep' = rep := g2.trans hrep.symm
    subst hr
    have hbody : (process rs (dyn (clientFields host ctype body) body) true line).body =
        if 400 ≤ rep'.status ∧ rep'.body = [] then str "Router error" else rep'.body := by
      rw [g4, unlessHead]
      exact if_neg hh
    have hall : ∀ e, ((Endpoint.stub e).getD (dyn (clientFields host ctype body) body e)).body.length < 2 ^ 64 := by
      intro e
      cases hs : e.stub with
      | none => exact hb e
      | some r =>
        have : r.body.length < 2 ^ 64 := by cases e <;> cases hs <;> decide
        exact this
    have := C76_reply rs (dyn (clientFields host ctype body) body) true line [] hall hh (by rw [g3]; exact hst)
    rw [List.append_nil, hbody, g3] at this
    exact this

/-- Non-vacuity: a voucher request at the registrar. -/
def demoPost : Postable (str "registrar.example:12345") (str "/.well-known/brski/requestvoucher")
    (str "application/voucher-cms+json") (str "MII=") where
  hostOk := by decide
  ctypeOk := by decide
  pathOk := by decide
  multi := by decide
  form := by decide
  size := by decide

example : exchange registrarRoutes ⟨fun _ => true, fun _ _ => true⟩ (fun _ b _ => ⟨200, str "got " ++ b⟩) false
    (str "registrar.example:12345") (str "/.well-known/brski/requestvoucher") (str "application/voucher-cms+json")
    (str "MII=") = .ok (some (200, str "got MII=")) := by decide +kernel

/-- **C77** for requests: when the connection ends before the request is complete no handler runs: the answer, if there is
one, is 400 and does not depend on the handlers. -/
theorem C77_request (rs : List Route) (mp : Multipart) (close : Bool) (host path ctype body p : Bytes)
    (h : Postable host path ctype body) (hp : p <+: requestText host path ctype body)
    (hne : p ≠ requestText host path ctype body) :
    ∃ res, (∀ dyn, serve rs mp dyn close p = .ok res) ∧ (res = none ∨ ∃ w, res = some w ∧ w.status = 400) := by
  obtain ⟨h1, h2, h3⟩ := postLine_spec h.pathOk
  obtain ⟨hs, hso⟩ := clientFields_spec h.hostOk h.ctypeOk h.size
  have hl : ∀ l ∈ (clientFields host ctype body).map lineOf, ReadableLine l := by
    intro l hl
    obtain ⟨f, hf, rfl⟩ := List.mem_map.1 hl
    exact readable_line (hs f hf)
  have hbad : ∀ c m st, 400 ≤ st → (writeResponse c m false ⟨st, [], []⟩).status = st := by
    intro c m st _
    exact (writeResponse_spec c m false (r := ⟨st, [], []⟩) List.Pairwise.nil).1
  rw [requestText_split h.hostOk h.ctypeOk] at hp hne
  rcases prefix_split hp with ⟨hp, hn⟩ | ⟨q, rfl, hq⟩
  · have hcut := cut_line h2 hp hn
    by_cases he : p = []
    · subst he
      exact ⟨none, fun dyn => rfl, .inl rfl⟩
    · have hlen : p.length ≤ 8192 := Nat.le_trans hp.length_le h3
      have hnone : parseRequestLine p = none := by
        unfold parseRequestLine
        simp only
        rw [if_pos]
        refine Classical.byContradiction fun hx => hcut ?_
        simp only [not_or, Decidable.not_not] at hx
        have : (10 : UInt8) ∈ (BoolTime.cstr p).drop ((BoolTime.cstr p).length - 2) := by rw [hx.2]; decide
        exact (List.takeWhile_sublist _).mem (List.mem_of_mem_drop this)
      refine ⟨some (writeResponse close (refusedMethod p) false ⟨400, [], []⟩), fun dyn => ?_,
        .inr ⟨_, rfl, hbad _ _ _ (by decide)⟩⟩
      unfold serve
      rw [getLine_none hcut he]
      simp only
      rw [if_neg (by omega), hnone]
      simp only
      unfold process
      rw [if_neg (by omega), hnone]
  · have hserve : ∀ dyn, serve rs mp dyn close (postLine path ++ [13, 10] ++ q) =
        match readLines q with
        | (ls, none) => .ok (some (writeResponse (closes close (readHeaders ls)) .post false ⟨400, [], []⟩))
        | (ls, some r) =>
          (readBody mp .post (readHeaders ls) r).bind fun b =>
          match b with
          | .error st => .ok (some (writeResponse (closes close (readHeaders ls)) .post false ⟨st, [], []⟩))
          | .ok (b, more) =>
            .ok (some (process rs (dyn (readHeaders (ls ++ more)) b) (closes close (readHeaders (ls ++ more)))
              (postLine path ++ [13, 10]))) := by
      intro dyn
      unfold serve
      rw [getLine_crlf _ h2]
      simp only
      rw [if_neg (by omega), h1]
      rfl
    simp only [hserve]
    rw [fieldsText_lines hs] at hq hne
    rcases prefix_split hq with ⟨hq, hn⟩ | ⟨b, rfl, hb⟩
    · have := readLines_prefix hl hq hn
      generalize readLines q = x at this
      obtain ⟨ls, y⟩ := x
      cases this
      exact ⟨_, fun _ => rfl, .inr ⟨_, rfl, hbad _ _ _ (by decide)⟩⟩
    · rw [readLines_all hl]
      simp only
      rw [readHeaders_sent hs hso, readBody_client mp h, if_pos]
      · exact ⟨_, fun _ => rfl, .inr ⟨_, rfl, hbad _ _ _ (by decide)⟩⟩
      · refine Nat.lt_of_le_of_ne hb.length_le fun e => hne ?_
        rw [hb.eq_of_length e]

/-- Non-vacuity: the request without its last byte is refused. -/
example : ∃ w, serve registrarRoutes ⟨fun _ => true, fun _ _ => true⟩ (fun _ _ _ => ⟨200, []⟩) false
    ((requestText (str "registrar.example:12345") (str "/.well-known/brski/requestvoucher")
      (str "application/voucher-cms+json") (str "MII=")).dropLast) = .ok (some w) ∧ w.status = 400 :=
  ⟨writeResponse true .post false ⟨400, [], []⟩, by decide +kernel, by decide +kernel⟩

end Brski.Props
