import Verif.PropsFraming
import Verif.Wire

/-!
# C74, C75: endpoints that do nothing, and fields that cannot break a reply
-/

namespace Brski.Props
open Routes Wire

/-! ## C74 -/

/-- The endpoints for which the program has no implementation, the status and the text they answer with
(specification; paths of RFC 8995 section 5 and RFC 7030 section 3.2.2). -/
def unimplemented : List (List Route × Method × Bytes × Nat × Bytes) :=
  [(registrarRoutes, .post, str "/.well-known/brski/voucher_status", 200, str "registrar_voucher_status"),
    (registrarRoutes, .post, str "/.well-known/brski/requestauditlog", 200, str "registrar_requestauditlog"),
    (registrarRoutes, .post, str "/.well-known/brski/enrollstatus", 200, str "registrar_enrollstatus"),
    (masaRoutes, .post, str "/.well-known/brski/voucher_status", 200, str "masa_voucher_status"),
    (masaRoutes, .post, str "/.well-known/brski/requestauditlog", 200, str "masa_requestauditlog"),
    (masaRoutes, .post, str "/.well-known/brski/enrollstatus", 200, str "masa_enrollstatus"),
    (masaRoutes, .get, str "/.well-known/est/cacerts", 503, str "get_est_cacerts"),
    (masaRoutes, .post, str "/.well-known/est/simpleenroll", 503, str "post_est_simpleenroll"),
    (masaRoutes, .post, str "/.well-known/est/simplereenroll", 503, str "post_est_simplereenroll"),
    (masaRoutes, .post, str "/.well-known/est/fullcmc", 503, str "post_est_fullcmc"),
    (masaRoutes, .post, str "/.well-known/est/serverkeygen", 503, str "post_est_serverkeygen"),
    (masaRoutes, .get, str "/.well-known/est/csrattrs", 503, str "get_est_csrattrs")]

/-- The line asks for this method and path. -/
def Asks (line : Bytes) (m : Method) (p : Bytes) : Prop := line.length ≤ 8192 ∧ parseRequestLine line = some ⟨m, p⟩

/-- **C74** as stated: an endpoint without implementation never answers that it succeeded. -/
def C74_statement : Prop :=
  ∀ u ∈ unimplemented, ∀ (dyn : Endpoint → Reply) (close : Bool) (line : Bytes), Asks line u.2.1 u.2.2.1 →
    400 ≤ (process u.1 dyn close line).status

/-- **C74**, exactly what the endpoints without implementation answer, whatever the request contains. -/
theorem C74_exact : ∀ u ∈ unimplemented, ∀ (dyn : Endpoint → Reply) (close : Bool) (line : Bytes),
    Asks line u.2.1 u.2.2.1 →
    (process u.1 dyn close line).status = u.2.2.2.1 ∧ (process u.1 dyn close line).body = u.2.2.2.2 := by
  intro u hu dyn close line ⟨hl, hp⟩
  have key : ∃ e rep, handlerOf u.1 line = some e ∧ e.stub = some rep ∧ rep.status = u.2.2.2.1 ∧ rep.body = u.2.2.2.2 ∧
      u.2.2.2.2 ≠ [] ∧ u.2.1 ≠ .head := by
    unfold handlerOf
    rw [if_neg (by omega), hp]
    have : ∀ u ∈ unimplemented, ∃ e rep, (routing u.1 ⟨u.2.1, u.2.2.1⟩).bind id = some e ∧ e.stub = some rep ∧
        rep.status = u.2.2.2.1 ∧ rep.body = u.2.2.2.2 ∧ u.2.2.2.2 ≠ [] ∧ u.2.1 ≠ .head := by
      have hd : ∀ u ∈ unimplemented, (match (routing u.1 ⟨u.2.1, u.2.2.1⟩).bind id with
          | none => false
          | some e => e.stub = some ⟨u.2.2.2.1, u.2.2.2.2⟩ ∧ u.2.2.2.2 ≠ [] ∧ u.2.1 ≠ .head) = true := by
        decide +kernel
      intro u hu
      have h := hd u hu
      split at h
      · cases h
      · rename_i e he
        have h := of_decide_eq_true h
        exact ⟨e, _, he, h.1, rfl, rfl, h.2.1, h.2.2⟩
    exact this u hu
  obtain ⟨e, rep, h1, h2, h3, h4, h5, h6⟩ := key
  rcases C62_partial_answer u.1 dyn close line with ⟨g1, -⟩ | ⟨e', rep', g1, g2, g3, g4, -⟩
  · rw [h1] at g1
    cases g1
  · rw [h1] at g1
    cases g1
    rw [h2] at g2
    have g2 : rep' = rep := g2
    subst g2
    refine ⟨g3.trans h3, ?_⟩
    rw [g4]
    unfold unlessHead
    rw [if_neg fun h => h6 ((firstWord_method hp).1 h.2)]
    rw [h4, if_neg fun h => h5 h.2]

/-- **C74**, what holds: the six endpoints of enrolment at the MASA say that they are unavailable. -/
theorem C74_partial (dyn : Endpoint → Reply) (close : Bool) (line m p)
    (hp : (m, p) ∈ [(Method.get, str "/.well-known/est/cacerts"), (.post, str "/.well-known/est/simpleenroll"),
      (.post, str "/.well-known/est/simplereenroll"), (.post, str "/.well-known/est/fullcmc"),
      (.post, str "/.well-known/est/serverkeygen"), (.get, str "/.well-known/est/csrattrs")])
    (h : Asks line m p) : (process masaRoutes dyn close line).status = 503 := by
  have : ∀ q ∈ [(Method.get, str "/.well-known/est/cacerts"), (.post, str "/.well-known/est/simpleenroll"),
      (.post, str "/.well-known/est/simplereenroll"), (.post, str "/.well-known/est/fullcmc"),
      (.post, str "/.well-known/est/serverkeygen"), (.get, str "/.well-known/est/csrattrs")],
      ∃ t, (masaRoutes, q.1, q.2, 503, t) ∈ unimplemented := by
    intro q hq
    have hd : ∀ q ∈ [(Method.get, str "/.well-known/est/cacerts"), (.post, str "/.well-known/est/simpleenroll"),
        (.post, str "/.well-known/est/simplereenroll"), (.post, str "/.well-known/est/fullcmc"),
        (.post, str "/.well-known/est/serverkeygen"), (.get, str "/.well-known/est/csrattrs")],
        ∃ u ∈ unimplemented, u.1 = masaRoutes ∧ u.2.1 = q.1 ∧ u.2.2.1 = q.2 ∧ u.2.2.2.1 = 503 := by decide +kernel
    obtain ⟨⟨a, b, c, d, e⟩, hu, h1, h2, h3, h4⟩ := hd q hq
    cases h1
    cases h2
    cases h3
    cases h4
    exact ⟨_, hu⟩
  obtain ⟨t, ht⟩ := this _ hp
  exact (C74_exact _ ht dyn close line h).1

/-- Lines of this kind exist. -/
example : Asks (str "POST /.well-known/brski/enrollstatus HTTP/1.1" ++ [13, 10]) .post
    (str "/.well-known/brski/enrollstatus") := by
  constructor <;> decide +kernel

/-- The code violates C74: a pledge that reports that it does not accept its voucher is told that all is well, and
nothing is recorded. -/
theorem C74_violated : ¬ C74_statement := by
  intro h
  have hm : (registrarRoutes, Method.post, str "/.well-known/brski/voucher_status", 200,
      str "registrar_voucher_status") ∈ unimplemented := List.mem_cons_self
  have ha : Asks (str "POST /.well-known/brski/voucher_status HTTP/1.1" ++ [13, 10]) .post
      (str "/.well-known/brski/voucher_status") := by
    constructor <;> decide +kernel
  have := h _ hm (fun _ => ⟨200, []⟩) true _ ha
  rw [(C74_exact _ hm (fun _ => ⟨200, []⟩) true _ ha).1] at this
  revert this
  decide

/-! ## C75 -/

/-- Name and value as they are written have no line end. -/
def Plain (f : Field) : Prop :=
  (∀ c ∈ BoolTime.cstr f.1, c ≠ 13 ∧ c ≠ 10) ∧ ∀ c ∈ BoolTime.cstr f.2, c ≠ 13 ∧ c ≠ 10

theorem hasCrlf_false {s : Bytes} : hasCrlf s = false ↔ ∀ c ∈ BoolTime.cstr s, c ≠ 13 ∧ c ≠ 10 := by
  unfold hasCrlf
  rw [List.any_eq_false]
  simp

theorem mem_emplace {hs : List Field} {f g : Field} : g ∈ emplace hs f ↔ g ∈ hs ∨ g = f := by
  unfold emplace
  have := List.takeWhile_append_dropWhile (p := fun g : Field => !ciLt f.1 g.1) (l := hs)
  rw [List.mem_append, List.mem_cons]
  conv => rhs; rw [← this, List.mem_append]
  constructor
  · rintro (h | rfl | h)
    · exact .inl (.inl h)
    · exact .inr rfl
    · exact .inl (.inr h)
  · rintro ((h | h) | rfl)
    · exact .inl h
    · exact .inr (.inr h)
    · exact .inr (.inl rfl)

theorem mem_setHeader {r : Res} {k v : Bytes} {g : Field} (h : g ∈ (setHeader r k v).headers) :
    g ∈ r.headers ∨ (g = (k, v) ∧ Plain g) := by
  unfold setHeader at h
  split at h
  · rename_i hc
    simp only [Bool.and_eq_true, Bool.not_eq_true'] at hc
    rcases mem_emplace.1 h with h | h
    · exact .inl h
    · exact .inr ⟨h, by rw [h]; exact ⟨hasCrlf_false.1 hc.1, hasCrlf_false.1 hc.2⟩⟩
  · exact .inl h

theorem setHeader_plain {r : Res} {k v : Bytes} (h : ∀ f ∈ r.headers, Plain f) : ∀ f ∈ (setHeader r k v).headers, Plain f := by
  intro f hf
  rcases mem_setHeader hf with hf | hf
  · exact h f hf
  · exact hf.2

theorem if_plain {p : Prop} [Decidable p] {a b : Res} (ha : ∀ f ∈ a.headers, Plain f) (hb : ∀ f ∈ b.headers, Plain f) :
    ∀ f ∈ (if p then a else b).headers, Plain f := by
  split
  · exact ha
  · exact hb

theorem errorHandler_plain {r : Res} (h : ∀ f ∈ r.headers, Plain f) : ∀ f ∈ (errorHandler r).headers, Plain f := by
  unfold errorHandler
  refine setHeader_plain ?_
  split
  · exact h
  · exact h

theorem writeResponse_plain (close : Bool) (m : Method) (rg : Bool) {r : Res} (h : ∀ f ∈ r.headers, Plain f) :
    ∀ f ∈ (writeResponse close m rg r).headers, Plain f := by
  unfold writeResponse
  have h1 : ∀ f ∈ (if 400 ≤ r.status then errorHandler r else r).headers, Plain f := if_plain (errorHandler_plain h) h
  generalize (if 400 ≤ r.status then errorHandler r else r) = r1 at h1 ⊢
  simp only
  refine if_plain (setHeader_plain ?_) ?_ <;> refine if_plain (setHeader_plain ?_) ?_ <;>
    refine if_plain (setHeader_plain ?_) ?_ <;> refine setHeader_plain ?_ <;> exact if_plain (setHeader_plain h1) h1

theorem setContent_plain {r : Res} {s ct : Bytes} (h : ∀ f ∈ r.headers, Plain f) :
    ∀ f ∈ (setContent r s ct).headers, Plain f := by
  unfold setContent
  exact setHeader_plain fun f hf => h f (List.mem_filter.1 hf).1

theorem setResponse_plain {r : Res} {b : Bytes} {hdr : List Field} {st : Nat} (h : ∀ f ∈ r.headers, Plain f) :
    ∀ f ∈ (setResponse r b hdr st).headers, Plain f := by
  unfold setResponse
  refine setContent_plain ?_
  clear b st
  induction hdr generalizing r with
  | nil => exact h
  | cons g hdr ih => exact ih (setHeader_plain h)

theorem count_flatMap {fs : List Field} (h : ∀ f ∈ fs, Plain f) :
    (fs.flatMap fieldText).count 13 = fs.length ∧ (fs.flatMap fieldText).count 10 = fs.length := by
  induction fs with
  | nil => exact ⟨rfl, rfl⟩
  | cons f fs ih =>
    obtain ⟨i1, i2⟩ := ih fun g hg => h g (List.mem_cons_of_mem _ hg)
    obtain ⟨h1, h2⟩ := h f List.mem_cons_self
    have z : ∀ (c : UInt8) (s : Bytes), (∀ x ∈ s, x ≠ c) → s.count c = 0 := fun c s hs =>
      List.count_eq_zero.2 fun hm => hs c hm rfl
    have e1 : (str ": ").count 13 = 0 := by decide
    have e2 : (str ": ").count 10 = 0 := by decide
    have c1 := z 13 _ fun x hx => (h1 x hx).1
    have c2 := z 13 _ fun x hx => (h2 x hx).1
    have c3 := z 10 _ fun x hx => (h1 x hx).2
    have c4 := z 10 _ fun x hx => (h2 x hx).2
    constructor
    · simp only [List.flatMap_cons, fieldText, List.count_append, i1, e1, c1, c2, List.length_cons]
      have : ([13, 10] : Bytes).count 13 = 1 := by decide
      omega
    · simp only [List.flatMap_cons, fieldText, List.count_append, i2, e2, c3, c4, List.length_cons]
      have : ([13, 10] : Bytes).count 10 = 1 := by decide
      omega

/-- **C75** A field cannot end early: whatever header fields a handler provides, the header section of the reply has
exactly one line end for every field, and one for the empty line. -/
theorem C75_no_splitting (hdr : List Field) (response : Bytes) (status : Nat) (close : Bool) (m : Method) (rg : Bool) :
    let w := writeResponse close m rg (setResponse ⟨0, [], []⟩ response hdr status)
    (fieldsText w.headers).count 13 = w.headers.length + 1 ∧ (fieldsText w.headers).count 10 = w.headers.length + 1 := by
  simp only
  obtain ⟨h1, h2⟩ := count_flatMap (writeResponse_plain close m rg
    (setResponse_plain (r := ⟨0, [], []⟩) (b := response) (hdr := hdr) (st := status) fun f hf => absurd hf (by simp)))
  unfold fieldsText
  rw [List.count_append, List.count_append, h1, h2]
  exact ⟨rfl, rfl⟩

theorem mem_setHeader_of {r : Res} {k v : Bytes} {g : Field} (h : g ∈ r.headers) : g ∈ (setHeader r k v).headers := by
  unfold setHeader
  split
  · exact mem_emplace.2 (.inl h)
  · exact h

theorem mem_foldl_setHeader (hdr : List Field) (r : Res) (f : Field)
    (h : f ∈ r.headers ∨ (f ∈ hdr ∧ Plain f)) : f ∈ (hdr.foldl (fun r f => setHeader r f.1 f.2) r).headers := by
  induction hdr generalizing r with
  | nil => exact h.resolve_right fun h => absurd h.1 (by simp)
  | cons g hdr ih =>
    refine ih _ ?_
    rcases h with h | ⟨h, hp⟩
    · exact .inl (mem_setHeader_of h)
    · rcases List.mem_cons.1 h with rfl | h
      · left
        unfold setHeader
        simp only
        rw [if_pos (by simp [hasCrlf_false.2 hp.1, hasCrlf_false.2 hp.2])]
        exact mem_emplace.2 (.inr rfl)
      · exact .inr ⟨h, hp⟩

/-- **C75** The protection costs nothing else: every field without line end is sent, unless it is a content type. -/
theorem C75_kept (hdr : List Field) (response : Bytes) (status : Nat) (close : Bool) (m : Method) (rg : Bool) (f : Field)
    (hf : f ∈ hdr) (hp : Plain f) (hn : ¬ SameName f.1 (str "Content-Type")) :
    f ∈ (writeResponse close m rg (setResponse ⟨0, [], []⟩ response hdr status)).headers := by
  have h0 : f ∈ (setResponse ⟨0, [], []⟩ response hdr status).headers := by
    unfold setResponse setContent
    refine mem_setHeader_of ?_
    refine List.mem_filter.2 ⟨mem_foldl_setHeader hdr _ f (.inr ⟨hf, hp⟩), ?_⟩
    simp only [Bool.or_eq_true]
    refine Classical.byContradiction fun hx => hn ?_
    simp only [not_or, Bool.not_eq_true] at hx
    exact ciLt_tri hx.1 hx.2
  generalize setResponse ⟨0, [], []⟩ response hdr status = r at h0
  have hi : ∀ {p : Prop} [Decidable p] {a b : Res}, f ∈ a.headers → f ∈ b.headers →
      f ∈ (if p then a else b).headers := by
    intro p _ a b ha hb
    split
    · exact ha
    · exact hb
  unfold writeResponse
  have h1 : f ∈ (if 400 ≤ r.status then errorHandler r else r).headers := by
    refine hi ?_ h0
    unfold errorHandler
    refine mem_setHeader_of ?_
    split
    · exact h0
    · exact h0
  generalize (if 400 ≤ r.status then errorHandler r else r) = r1 at h1 ⊢
  simp only
  refine hi (mem_setHeader_of ?_) ?_ <;> refine hi (mem_setHeader_of ?_) ?_ <;>
    refine hi (mem_setHeader_of ?_) ?_ <;> refine mem_setHeader_of ?_ <;> exact hi (mem_setHeader_of h1) h1

/-- Non-vacuity: of three fields one would split the reply; it is left out. -/
example : (writeResponse true .post true (setResponse ⟨0, [], []⟩ (str "x")
    [(str "A", str "1"), (str "B", str "2" ++ [13, 10] ++ str "C: 3"), (str "D", str "4")] 200)).headers =
    [(str "A", str "1"), (str "Connection", str "close"), (str "Content-Length", str "1"), (str "Content-Type", []),
      (str "D", str "4")] := by decide +kernel

end Brski.Props
