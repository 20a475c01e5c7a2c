import Verif.Deploy
import Verif.PropsWire
import Verif.PropsEnd
import Verif.PropsFlow
import Verif.PledgeFull

/-!
# Lemmas about connected servers
-/

namespace Brski.Props
open Outcome Brski.Voucher VoucherJson Crypto BoolTime Request Base64 Brski.Spec Server Pledge Routes Wire Tls Deploy

/-! ## A server whose handlers may crash -/

/-- With handlers that never crash the server is the one of `Wire`. -/
theorem serveO_total (rs : List Route) (mp : Multipart) (dyn : List Field → Bytes → Endpoint → Routes.Reply) (close : Bool)
    (s : Bytes) : serveO rs mp (fun hs b e => .ok (dyn hs b e)) close s = serve rs mp dyn close s := by
  have hfin : ∀ hs b c l, finish rs (fun e => .ok (dyn hs b e)) c l = .ok (some (process rs (dyn hs b) c l)) := by
    intro hs b c l
    unfold finish runHandler process
    split
    · rfl
    · cases parseRequestLine l with
      | none => rfl
      | some l =>
        simp only
        cases routing rs l with
        | none => rfl
        | some x => cases x with
          | none => rfl
          | some e => cases hs : e.stub <;> simp [hs]
  unfold serveO serve
  cases getLine s with
  | none => rfl
  | some x =>
    simp only [hfin]
    cases (if 8192 < x.1.length then none else parseRequestLine x.1) with
    | none => rfl
    | some line =>
      simp only
      cases readLines x.2 with
      | mk ls r => cases r <;> rfl

theorem serveO_request (rs : List Route) (mp : Multipart) (run : List Field → Bytes → Endpoint → Outcome Routes.Reply)
    (close : Bool) (host path ctype body rest : Bytes) (h : Postable host path ctype body) :
    ∃ line, line.length ≤ 8192 ∧ parseRequestLine line = some ⟨.post, path⟩ ∧
      serveO rs mp run close (Wire.requestText host path ctype body ++ rest) =
        finish rs (run (clientFields host ctype body) body) true line := by
  obtain ⟨h1, h2, h3⟩ := postLine_spec h.pathOk
  obtain ⟨hs, hso⟩ := clientFields_spec h.hostOk h.ctypeOk h.size
  refine ⟨_, h3, h1, ?_⟩
  rw [requestText_split h.hostOk h.ctypeOk, List.append_assoc]
  unfold serveO
  rw [getLine_crlf _ h2]
  simp only
  rw [if_neg (by omega), h1]
  simp only
  rw [fieldsText_lines hs, List.append_assoc, readLines_all (by
    intro l hl
    obtain ⟨f, hf, rfl⟩ := List.mem_map.1 hl
    exact readable_line (hs f hf))]
  simp only [expectsContent, if_true]
  rw [readHeaders_sent hs hso, readBody_client mp h, if_neg (by simp)]
  have hcl : closes close (clientFields host ctype body) = true := by
    unfold closes
    rw [headerValue_one (client_named host ctype body).2.2.2.2 rfl (by decide)]
    simp
  simp only [bind'_ok, List.append_nil, readHeaders_sent hs hso, hcl, List.take_left]

/-- What a client gets for a POST to an implemented handler. -/
theorem postTo_full {rs : List Route} (mp : Multipart) {run : List Field → Bytes → Endpoint → Outcome Routes.Reply} (close : Bool)
    {host path ctype body : Bytes} (h : Postable host path ctype body) {e : Endpoint}
    (he : routing rs ⟨.post, path⟩ = some (some e)) (hs : e.stub = none) {rep : Routes.Reply}
    (hr : run (clientFields host ctype body) body e = .ok rep)
    (hst : 100 < rep.status ∧ rep.status < 1000 ∧ rep.status ≠ 204) (hb : rep.body.length < 2 ^ 64) :
    postTo rs mp run close host path ctype body =
      some (rep.status, if 400 ≤ rep.status ∧ rep.body = [] then str "Router error" else rep.body) := by
  obtain ⟨line, h1, h2, h3⟩ := serveO_request rs mp run close host path ctype body [] h
  rw [List.append_nil] at h3
  have hrun : runHandler rs (run (clientFields host ctype body) body) line = .ok rep := by
    unfold runHandler
    rw [if_neg (by omega), h2]
    simp only [he, hs, hr]
  have hh : ¬ IsHead line := fun hh => by
    have := (firstWord_method h2).1 hh.2
    cases this
  have hho : handlerOf rs line = some e := by
    unfold handlerOf
    rw [if_neg (by omega), h2]
    simp only [Option.bind_some, he, id]
  unfold postTo
  rw [h3, finish, hrun]
  simp only [bind'_ok]
  rcases C62_partial_answer rs (fun _ => rep) true line with ⟨g1, -⟩ | ⟨e', rep', g1, g2, g3, g4, -⟩
  · rw [hho] at g1
    cases g1
  · rw [hho] at g1
    cases g1
    rw [hs] at g2
    have g2 : rep' = rep := g2
    subst g2
    have hbody : (process rs (fun _ => rep') true line).body =
        if 400 ≤ rep'.status ∧ rep'.body = [] then str "Router error" else rep'.body := by
      rw [g4, unlessHead]
      exact if_neg hh
    have hall : ∀ e, ((Endpoint.stub e).getD ((fun _ => rep') e)).body.length < 2 ^ 64 := by
      intro e
      cases hs : e.stub with
      | none => exact hb
      | some r =>
        have : r.body.length < 2 ^ 64 := by cases e <;> cases hs <;> decide
        exact this
    have := C76_reply rs (fun _ => rep') true line [] hall hh (by rw [g3]; exact hst)
    rw [List.append_nil, hbody, g3] at this
    rw [this]

theorem postable_type {host path body : Bytes} (hh : Visible host) (hp : PathOk path) (hb : body.length < 2 ^ 64) :
    Postable host path voucherType body :=
  ⟨hh, by decide, hp, by decide, by decide, hb⟩

/-! ## The handlers over the network -/

/-- A link over which client and server talk. -/
structure LinkUp {L : Lib} (k : Link L) : Prop where
  files : k.env.filesOk = true
  admitted : admits L k.ctx k.client = true
  host : Visible k.host

theorem post_up {L : Lib} {k : Link L} (h : LinkUp k) (answer : Bytes → Option (Nat × Bytes)) (body : Bytes) :
    Tls.post L k.env false (peerOf k answer) body = answer body := by
  simp [Tls.post, connect, newClient, h.files, peerOf, h.admitted]

theorem postCa_up {L : Lib} {k : Link L} (h : LinkUp k) {ca : Bytes} {cs : List L.Cert} (hm : k.env.mem = true)
    (hp : L.pem ca = some cs) (hne : k.server ≠ []) (hc : L.chainOk (cs ++ k.env.system) k.server = true)
    (answer : Bytes → Option (Nat × Bytes)) (body : Bytes) :
    Tls.postCa L k.env (peerOf k answer) ca body = answer body := by
  have : k.server.isEmpty = false := by cases hs : k.server with | nil => exact absurd hs hne | cons => rfl
  simp [Tls.postCa, connect, newClient, caStore, setStore, loadCerts, h.files, hm, hp, peerOf, h.admitted, hc, this]

theorem masaOf_full {O : Ossl} {L : Lib} {D : Site O L} (hu : LinkUp D.toMasa) {text : Bytes} (ht : text.length < 2 ^ 64)
    {r : Server.Reply} (hr : masaRequestVoucher O D.masa text D.masaHeap D.masaCtx = .ok r) (h2 : r.status = 200)
    (hb : r.body.length < 2 ^ 64) : masaOf D text = some (200, r.body) := by
  unfold masaOf
  rw [post_up hu]
  rw [postTo_full (rep := ⟨r.status, r.body⟩) D.mp D.close (postable_type hu.host (by decide) ht) (e := .masaRequestVoucher)
    (by decide) rfl (by simp only [masaRun, hr, bind'_ok]) (by simp [h2]) hb]
  rw [h2]
  simp

theorem regAnswer_full {O : Ossl} {L : Lib} {D : Site O L} (hu : LinkUp D.toReg) (k : Nat) {text : Bytes} (ht : text.length < 2 ^ 64)
    {r : Server.Reply} (hr : registrarRequestVoucher O { D.reg with masa := masaOf D } text (D.regHeap k) = .ok r)
    (hs : 100 < r.status ∧ r.status < 1000 ∧ r.status ≠ 204) (hb : r.body.length < 2 ^ 64) :
    regAnswer D k text =
      some ⟨r.status, some D.tls, if 400 ≤ r.status ∧ r.body = [] then str "Router error" else r.body⟩ := by
  unfold regAnswer
  rw [post_up hu]
  rw [postTo_full (rep := ⟨r.status, r.body⟩) D.mp D.close (postable_type hu.host (by decide) ht) (e := .registrarRequestVoucher)
    (by decide) rfl (by simp only [regRun, hr, bind'_ok]) hs hb]
  rfl

theorem enrol_full {O : Ossl} {L : Lib} {D : Site O L} (hu : LinkUp D.toReg) {ca text : Bytes} (ht : text.length < 2 ^ 64)
    {cs : List L.Cert} (hm : D.toReg.env.mem = true) (hp : L.pem ca = some cs) (hne : D.toReg.server ≠ [])
    (hc : L.chainOk (cs ++ D.toReg.env.system) D.toReg.server = true)
    {r : EnrollReply} (hr : simpleEnroll O D.enr D.client text (D.regHeap 2) = .ok r) (h2 : r.status = 200)
    (hb : r.body.length < 2 ^ 64) : (netOf D).enrol ca text = some (200, r.body) := by
  unfold netOf
  simp only
  rw [postCa_up hu hm hp hne hc]
  rw [postTo_full (rep := ⟨r.status, r.body⟩) D.mp D.close (postable_type hu.host (by decide) ht) (e := .registrarSimpleEnroll)
    (by decide) rfl (by simp only [regRun, hr, bind'_ok]) (by simp [h2]) hb]
  rw [h2]
  simp

/-- An empty text decodes to nothing. -/
theorem empty_decodes (al : Allocator) (blk : Bytes) : base64str2array al blk (cstr []) ≠ .ok (none, .dangling) ∧
    ∀ c, ¬ BodyDecodes al blk [] c := by
  have h : ∃ p, base64str2array al blk [] = .ok (none, p) ∧ p ≠ .dangling := by
    refine ⟨.null, ?_, by simp⟩
    have : countLoop [] 0 0 = .ok 0 := by rw [countLoop]; rfl
    simp [base64str2array, genDecode, this]
  obtain ⟨p, h1, h2⟩ := h
  constructor
  · rw [show cstr [] = ([] : Bytes) from rfl, h1]
    intro h
    cases h
    exact h2 rfl
  · intro c hc
    unfold BodyDecodes at hc
    rw [show cstr [] = ([] : Bytes) from rfl, h1] at hc
    cases hc

end Brski.Props
