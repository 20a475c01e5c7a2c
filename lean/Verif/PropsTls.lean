import Verif.Tls
import Verif.PropsNetwork
import Verif.PropsRegistrar

/-!
# C70 – C73: whom the programs talk to over TLS, and how the servers start
-/

namespace Brski.Props
open Outcome Brski.Voucher VoucherJson Crypto BoolTime Request Base64 Server Brski.Spec Pledge Tls

/-! ## C70 -/

/-- Documented behaviour of OpenSSL: without trust anchors no chain verifies. -/
def NeedsAnchor (L : Lib) : Prop := ∀ chain, L.chainOk [] chain = false

/-- **C70** as stated: when an enrolment is answered, the server's chain verifies against the certificate pinned by the
accepted voucher alone. -/
def C70_statement : Prop :=
  ∀ (L : Lib) (O : Ossl) (e : PledgeEnv) (g : Gen) (net : Net) (env : ClientEnv L) (peer : Peer L) (h : Heap)
    (r : Enrolled) (c k : Nat), NeedsAnchor L → Small O → RunSized e net → NetSized e g net →
    net.enrol = postCa L env peer → postSignCert O e g net h = .ok r → r.out = some (c, k) →
    ∃ ask a r2 pin, net.second ask = some a ∧ Checked O e a r2 pin ∧
      L.chainOk ((L.pem (pemText pin)).getD []) peer.chain = true

/-- **C70**, exactly: the enrolment is delivered iff the key and certificate can be read and the server's chain verifies
against the certificates in the PEM text *together with all certificates the system trusts*. -/
theorem C70_exact (L : Lib) (env : ClientEnv L) (peer : Peer L) (ca body : Bytes) (x : Nat × Bytes) :
    postCa L env peer ca body = some x ↔ env.filesOk = true ∧ peer.chain ≠ [] ∧
      L.chainOk ((if env.mem then (L.pem ca).getD [] else []) ++ env.system) peer.chain = true ∧
      peer.answer body = some x := by
  unfold postCa connect newClient caStore setStore loadCerts
  cases hf : env.filesOk <;> cases hm : env.mem <;> cases hp : L.pem ca <;> cases hc : peer.chain <;> simp [and_assoc]

/-- **C70**: any server whose chain verifies thanks to the system's certificates can take the place of the registrar at
the enrolment, whatever certificate the voucher pins; host names are not looked at. -/
theorem C70_public_authority (L : Lib) (env : ClientEnv L) (peer : Peer L) (hf : env.filesOk = true) (hne : peer.chain ≠ [])
    (hsys : ∀ st, L.chainOk (st ++ env.system) peer.chain = true) (ca body : Bytes) :
    postCa L env peer ca body = peer.answer body := by
  cases ha : peer.answer body with
  | some x => exact (C70_exact L env peer ca body x).2 ⟨hf, hne, hsys _, ha⟩
  | none =>
    cases hp : postCa L env peer ca body with
    | none => rfl
    | some x => have := ((C70_exact L env peer ca body x).1 hp).2.2.2; rw [ha] at this; cases this

/-- **C70**, the part that holds: on a system that trusts no certificate of its own, an answered enrolment went to
a server whose chain verifies against the pinned certificate.  Missing: `load_certs` adds the system's certificates to
the store that was just set. -/
theorem C70_partial (L : Lib) (hna : NeedsAnchor L) (O : Ossl) (hsm : Small O) (e : PledgeEnv) (g : Gen) (net : Net)
    (env : ClientEnv L) (hsys : env.system = []) (peer : Peer L) (hsz : RunSized e net) (hen : NetSized e g net)
    (hnet : net.enrol = postCa L env peer) (h : Heap) (r : Enrolled) (hr : postSignCert O e g net h = .ok r) (c k : Nat)
    (hout : r.out = some (c, k)) :
    ∃ ask a r2 pin, net.second ask = some a ∧ Checked O e a r2 pin ∧
      L.chainOk ((L.pem (pemText pin)).getD []) peer.chain = true := by
  obtain ⟨ca, body, s, resp, crt, key, hm, h1, -⟩ := C67_returned O hsm e g net hsz hen h r hr c k hout
  obtain ⟨ask, a, r2, pin, key', own, g1, g2, rfl, -⟩ := C67_enrolment O hsm e g net hsz hen h r hr ca body hm
  rw [hnet] at h1
  obtain ⟨-, -, h2, -⟩ := (C70_exact L env peer _ body (s, resp)).1 h1
  refine ⟨ask, a, r2, pin, g1, g2, ?_⟩
  rw [hsys, List.append_nil] at h2
  split at h2
  · exact h2
  · rw [hna] at h2; cases h2

/-- A library for instances: certificates are numbers, every PEM text holds certificate 8, a chain verifies if it
contains an anchor. -/
abbrev toyLib : Lib where
  Cert := UInt8
  pem := fun _ => some [8]
  chainOk := fun st ch => ch.any fun x => decide (x ∈ st)

theorem toyLib_needs : NeedsAnchor toyLib := fun chain => by
  show (chain.any fun x => decide (x ∈ ([] : List UInt8))) = false
  simp

/-- A server with certificate `x` that answers every enrolment with `CQ==`. -/
def toyPeer (x : UInt8) : Peer toyLib := ⟨[x], fun _ => some (200, str "CQ==")⟩

theorem toyPeer_answers (sys : List UInt8) (x : UInt8) (hx : x = 8 ∨ x ∈ sys) :
    postCa toyLib ⟨sys, true, true⟩ (toyPeer x) = (demoNet [7] [7] demoVoucherText (str "CQ==")).enrol := by
  funext ca body
  refine (C70_exact toyLib ⟨sys, true, true⟩ (toyPeer x) ca body (200, str "CQ==")).2
    ⟨rfl, List.cons_ne_nil _ _, ?_, rfl⟩
  show ([x].any fun x => decide (x ∈ [(8 : UInt8)] ++ sys)) = true
  rcases hx with rfl | hx <;> simp [*]

/-- **C70** is violated: the voucher pins certificate 8, the server shows certificate 66 (0x42), which the system trusts;
the onboarding succeeds. -/
theorem C70_violated : ¬ C70_statement := by
  intro hst
  obtain ⟨r, c, k, hr, ho, -, -⟩ := enrolView_some demo_onboarding
  have hch : ∀ der, toyLib.chainOk ((toyLib.pem der).getD []) (toyPeer 66).chain = false := fun _ => rfl
  obtain ⟨-, -, -, pin, -, -, h⟩ := hst toyLib toy demoPledge demoGen _ ⟨[66], true, true⟩ (toyPeer 66) Heap.empty r c k
    toyLib_needs toy_small (demoNet_sized _ _ _ _ demoVoucher_length)
    (demoGen_sized demoVoucher_length (by decide +kernel)) (toyPeer_answers [66] 66 (.inr (by simp))).symm hr ho
  rw [hch] at h
  cases h

/-- non-vacuity of C70_partial: without system certificates, certificate 8 is the one to show. -/
example : ∃ r c k, postSignCert toy demoPledge demoGen (demoNet [7] [7] demoVoucherText (str "CQ==")) Heap.empty = .ok r ∧
    r.out = some (c, k) ∧ (demoNet [7] [7] demoVoucherText (str "CQ==")).enrol = postCa toyLib ⟨[], true, true⟩ (toyPeer 8) := by
  obtain ⟨r, c, k, hr, ho, -, -⟩ := enrolView_some demo_onboarding
  exact ⟨r, c, k, hr, ho, (toyPeer_answers [] 8 (.inl rfl)).symm⟩

/-- … and certificate 9 is refused. -/
example (ca body : Bytes) : postCa toyLib ⟨[], true, true⟩ (toyPeer 9) ca body = none := by
  cases h : postCa toyLib ⟨[], true, true⟩ (toyPeer 9) ca body with
  | none => rfl
  | some x => exact absurd ((C70_exact toyLib _ (toyPeer 9) ca body x).1 h).2.2.1 (by
      show ¬ ([(9 : UInt8)].any fun x => decide (x ∈ [(8 : UInt8)] ++ [])) = true
      decide)

/-- non-vacuity of C70_public_authority. -/
example (ca body : Bytes) : postCa toyLib ⟨[66], true, true⟩ (toyPeer 66) ca body = some (200, str "CQ==") :=
  C70_public_authority toyLib ⟨[66], true, true⟩ (toyPeer 66) rfl (List.cons_ne_nil _ _) (fun st => by
    show ([(66 : UInt8)].any fun x => decide (x ∈ st ++ [66])) = true
    simp) ca body

/-! ## C71 -/

theorem served_ctx {L : Lib} {e : StartEnv L} {c : HttpConfig} {h : Heap} {r : Running L} {ctx : ServerCtx L}
    (hr : startWith L e c h = .ok r) (hs : r.served = some ctx) :
    newServer L e c.clientCaPath = .ok (some ctx) ∧ e.sockOk = true := by
  unfold startWith at hr
  split at hr
  · unfold httplibStart at hr
    split at hr
    · cases hr; cases hs
    · split at hr
      · cases hn : newServer L e c.clientCaPath with
        | ub => rw [hn] at hr; cases hr
        | ok x =>
          rw [hn] at hr
          simp only [bind'_ok] at hr
          split at hr
          · cases hr
          · split at hr
            · cases hr
            · simp only [bind'_ok] at hr
              cases hr
              simp only at hs
              split at hs
              · rename_i hk; exact ⟨by rw [hs], hk⟩
              · cases hs
      · cases hr
  · cases hr; cases hs

/-- **C71** as stated: every client a server talks to presents a chain that verifies against the configured
certificates. -/
def C71_statement : Prop :=
  ∀ (L : Lib) (e : StartEnv L) (address cert key ca : Option Bytes) (h : Heap) (r : Running L) (ctx : ServerCtx L)
    (chain : List L.Cert), NeedsAnchor L → masaStart L e address cert key ca h = .ok r → r.served = some ctx →
    admits L ctx chain = true → ∃ path anchors, ca = some path ∧ e.clientCa path = some anchors ∧
      L.chainOk anchors chain = true

/-- **C71** Every client of both servers presents a certificate. -/
theorem C71_certificate (L : Lib) (e : StartEnv L) (c : HttpConfig) (h : Heap) (r : Running L) (ctx : ServerCtx L)
    (chain : List L.Cert) (_hr : startWith L e c h = .ok r) (_hs : r.served = some ctx) (ha : admits L ctx chain = true) :
    chain ≠ [] := by
  rintro rfl
  cases ha

/-- **C71** The registrar talks to every client that presents any certificate. -/
theorem C71_registrar (L : Lib) (e : StartEnv L) (address cert key : Option Bytes) (h : Heap) (r : Running L)
    (ctx : ServerCtx L) (hr : registrarStart L e address cert key h = .ok r) (hs : r.served = some ctx)
    (chain : List L.Cert) : admits L ctx chain = true ↔ chain ≠ [] := by
  have := (served_ctx hr hs).1
  unfold newServer at this
  split at this
  · simp only at this
    split at this
    · cases this
      cases chain <;> simp [admits]
    · cases this
  · cases this

/-- **C71**, the part that holds: a MASA with a configured client CA talks exactly to the clients with a chain that
verifies against it; if the file cannot be read, to nobody.  Missing: without a configured file (and at the
registrar always) every certificate will do. -/
theorem C71_partial (L : Lib) (hna : NeedsAnchor L) (e : StartEnv L) (address cert key : Option Bytes) (path : Bytes)
    (h : Heap) (r : Running L) (ctx : ServerCtx L) (hr : masaStart L e address cert key (some path) h = .ok r)
    (hs : r.served = some ctx) (chain : List L.Cert) :
    admits L ctx chain = true ↔ chain ≠ [] ∧ ∃ anchors, e.clientCa path = some anchors ∧ L.chainOk anchors chain = true := by
  have := (served_ctx hr hs).1
  unfold newServer at this
  split at this
  · simp only at this
    split at this
    · cases this
      cases hp : e.clientCa path with
      | none => simp only [admits, Option.getD_none, hna chain]; simp
      | some a => cases chain <;> simp [admits]
    · cases this
  · cases this

/-- A start for instances. -/
def toyStart : StartEnv toyLib := ⟨true, true, fun _ => some [8], true, true, false, true, true⟩

/-- **C71** is violated: a MASA without a configured client CA talks to a client with certificate 99. -/
theorem C71_violated : ¬ C71_statement := by
  intro h
  obtain ⟨_, _, h1, -⟩ := h toyLib toyStart (some []) (some []) (some []) none Heap.empty _ ⟨[], true⟩ [(99 : UInt8)] toyLib_needs rfl rfl rfl
  cases h1

/-- non-vacuity of C71_partial and C71_registrar: servers that run. -/
example : (∃ r ctx, masaStart toyLib toyStart (some []) (some []) (some []) (some []) Heap.empty = .ok r ∧ r.served = some ctx ∧
      admits toyLib ctx [(8 : UInt8)] = true ∧ admits toyLib ctx [(9 : UInt8)] = false) ∧
    ∃ r ctx, registrarStart toyLib toyStart (some []) (some []) (some []) Heap.empty = .ok r ∧ r.served = some ctx ∧
      admits toyLib ctx [(9 : UInt8)] = true ∧ admits toyLib ctx [] = false :=
  ⟨⟨_, _, rfl, rfl, rfl, rfl⟩, ⟨_, _, rfl, rfl, rfl, rfl⟩⟩

/-! ## C72 -/

/-- **C72** as stated: starting a server is defined, and reports success exactly if the server came up. -/
def C72_statement : Prop :=
  ∀ (L : Lib) (e : StartEnv L) (c : HttpConfig) (h : Heap), ∃ r, startWith L e c h = .ok r ∧
    (r.ret = 0 ↔ r.served.isSome = true)

/-- **C72** Exactly when a start is undefined: the certificate or key cannot be read and no client CA is configured
(always so at the registrar), or anything throws, such as a missing address. -/
theorem C72_undefined (L : Lib) (e : StartEnv L) (c : HttpConfig) (h : Heap) :
    startWith L e c h = .ub ↔ e.contextOk = true ∧ c.certPath ≠ none ∧ c.keyPath ≠ none ∧
      (e.newOk = false ∨ (e.ctxOk = true ∧ e.filesOk = false ∧ c.clientCaPath = none) ∨ e.routesThrow = true ∨
        c.address = none) := by
  unfold startWith httplibStart newServer
  cases e.contextOk <;> cases e.newOk <;> cases e.ctxOk <;> cases e.filesOk <;> cases e.routesThrow <;>
    rcases c with ⟨_ | a, _ | b, _ | k, _ | p⟩ <;> simp

/-- **C72** Exactly when success is reported: whenever nothing above happened and there is memory, also if the
server could not be bound or has no usable certificate. -/
theorem C72_reports (L : Lib) (e : StartEnv L) (c : HttpConfig) (h : Heap) (r : Running L) (hr : startWith L e c h = .ok r) :
    (r.ret = 0 ∨ r.ret = -1) ∧ (r.ret = 0 ↔ e.contextOk = true ∧ c.certPath ≠ none ∧ c.keyPath ≠ none) ∧
      (r.served.isSome = true ↔ r.ret = 0 ∧ e.ctxOk = true ∧ e.filesOk = true ∧ e.sockOk = true) := by
  unfold startWith httplibStart newServer at hr
  revert hr
  cases e.contextOk <;> cases e.newOk <;> cases e.ctxOk <;> cases e.filesOk <;> cases e.routesThrow <;>
    cases e.sockOk <;> rcases c with ⟨_ | a, _ | b, _ | k, _ | p⟩ <;> simp <;> rintro rfl <;> simp

/-- **C72**, the part that holds: a failure is reported as such only for a reason, and if the environment is in order
(readable certificate and key, an address that can be bound, memory) the server comes up and success is reported.
Missing: `C72_undefined`, and the ignored result of `listen` (`C72_silent`). -/
theorem C72_partial (L : Lib) (e : StartEnv L) (c : HttpConfig) (h : Heap) (hc : e.contextOk = true) (hn : e.newOk = true)
    (hx : e.ctxOk = true) (hf : e.filesOk = true) (ht : e.routesThrow = false) (hs : e.sockOk = true)
    (h1 : c.certPath ≠ none) (h2 : c.keyPath ≠ none) (h3 : c.address ≠ none) :
    ∃ r, startWith L e c h = .ok r ∧ r.ret = 0 ∧ r.served.isSome = true := by
  cases hr : startWith L e c h with
  | ub =>
    obtain ⟨-, -, -, h | h | h | h⟩ := (C72_undefined L e c h).1 hr
    · rw [hn] at h; cases h
    · rw [hf] at h; cases h.2.1
    · rw [ht] at h; cases h
    · exact absurd h h3
  | ok r =>
    obtain ⟨-, q1, q2⟩ := C72_reports L e c h r hr
    have h0 := q1.2 ⟨hc, h1, h2⟩
    exact ⟨r, rfl, h0, q2.2 ⟨h0, hx, hf, hs⟩⟩

/-- **C72** An address that cannot be bound is reported as success. -/
theorem C72_silent (L : Lib) (e : StartEnv L) (c : HttpConfig) (h : Heap) (r : Running L) (hr : startWith L e c h = .ok r)
    (hc : e.contextOk = true) (h1 : c.certPath ≠ none) (h2 : c.keyPath ≠ none) (hs : e.sockOk = false) :
    r.ret = 0 ∧ r.served = none := by
  obtain ⟨-, q1, q2⟩ := C72_reports L e c h r hr
  refine ⟨q1.2 ⟨hc, h1, h2⟩, ?_⟩
  cases hv : r.served with
  | none => rfl
  | some x => rw [hv] at q2; have := (q2.1 rfl).2.2.2; rw [hs] at this; cases this

/-- **C72** is violated: by an occupied port. -/
theorem C72_violated : ¬ C72_statement := by
  intro h
  obtain ⟨r, hr, hi⟩ := h toyLib { toyStart with sockOk := false } ⟨some [], some [], some [], none⟩ Heap.empty
  obtain ⟨h0, h1⟩ := C72_silent _ _ _ _ r hr rfl (by simp) (by simp) rfl
  have := hi.1 h0
  rw [h1] at this
  cases this

/-- **C72** is violated in another way: a registrar whose certificate cannot be read. -/
theorem C72_violated_crash : registrarStart toyLib { toyStart with filesOk := false } (some []) (some []) (some []) Heap.empty =
    .ub := rfl

/-- **C72** Stopping after a defined start, successful or not, is defined and releases context and server. -/
theorem C72_release (L : Lib) (e : StartEnv L) (c : HttpConfig) (h : Heap) (hw : h.Wf) (r : Running L)
    (hr : startWith L e c h = .ok r) : ∃ h', stopServer r = .ok h' ∧ h'.blk = h.blk := by
  have h0 := owns_nil hw
  have key : ∀ (rr : Running L), Owns h rr.heap [rr.srv, rr.context] → (rr.context = none → rr.srv = none) →
      ∃ h', stopServer rr = .ok h' ∧ h'.blk = h.blk := by
    intro rr ho hc
    obtain ⟨h1, e1, o1⟩ := owns_free hw ho
    unfold stopServer
    cases hx : rr.context with
    | none =>
      rw [hc hx, hx] at ho
      exact ⟨_, rfl, owns_blk (owns_none.1 (owns_none.1 ho))⟩
    | some q =>
      rw [hx] at o1
      obtain ⟨h2, e2, o2⟩ := owns_free hw o1
      exact ⟨h2, by simp only [httplibStop, e1, bind'_ok]; exact e2, owns_blk o2⟩
  unfold startWith at hr
  split at hr
  · have o1 := owns_alloc h0 []
    generalize h.alloc [] = P at hr o1
    unfold httplibStart at hr
    split at hr
    · cases hr
      exact key _ (owns_none.2 o1) (fun h => by cases h)
    · split at hr
      · cases hn : newServer L e c.clientCaPath with
        | ub => rw [hn] at hr; cases hr
        | ok x =>
          rw [hn] at hr
          simp only [bind'_ok] at hr
          split at hr
          · cases hr
          · split at hr
            · cases hr
            · simp only [bind'_ok] at hr
              cases hr
              exact key _ (owns_alloc o1 []) (fun h => by cases h)
      · cases hr
  · cases hr
    exact key _ (owns_none.2 (owns_none.2 h0)) (fun _ => rfl)

/-- non-vacuity of C72_release and C72_partial: a start and a stop. -/
example : (∃ r, startWith toyLib toyStart ⟨some [], some [], some [], none⟩ Heap.empty = .ok r ∧ r.ret = 0) ∧
    ∃ r, startWith toyLib toyStart ⟨some [], none, some [], none⟩ Heap.empty = .ok r ∧ r.ret = -1 :=
  ⟨⟨_, rfl, rfl⟩, ⟨_, rfl, rfl⟩⟩

/-! ## C73 -/

/-- **C73** as stated: a voucher the registrar passes on comes from a server whose chain verifies against the
certificates the registrar's system trusts (it has no others configured for this connection). -/
def C73_statement : Prop :=
  ∀ (L : Lib) (O : Ossl) (e : RegEnv) (env : ClientEnv L) (peer : Peer L) (body : Bytes) (h : Heap) (r : Reply),
    e.masa = post L env false peer → registrarRequestVoucher O e body h = .ok r → r.status = 200 → r.body ≠ [] →
    L.chainOk env.system peer.chain = true

/-- **C73** The certificates the MASA presents make no difference at all. -/
theorem C73_blind (L : Lib) (O : Ossl) (e : RegEnv) (env : ClientEnv L) (ans : Bytes → Option (Nat × Bytes))
    (c1 c2 : List L.Cert) (body : Bytes) (h : Heap) :
    registrarRequestVoucher O { e with masa := post L env false ⟨c1, ans⟩ } body h =
      registrarRequestVoucher O { e with masa := post L env false ⟨c2, ans⟩ } body h := by
  have : post L env false ⟨c1, ans⟩ = post L env false ⟨c2, ans⟩ := by
    funext t
    unfold post connect newClient
    cases env.filesOk <;> rfl
  rw [this]

/-- **C73**, the part that holds: what is passed on is what the server behind the connection answered to the request
the registrar signed, and the registrar's own certificate and key could be read.  Missing: the registrar asks for
no verification of that server. -/
theorem C73_partial (L : Lib) (O : Ossl) (hsm : Small O) (e : RegEnv) (env : ClientEnv L) (peer : Peer L)
    (hconn : e.masa = post L env false peer) (hblk : e.blk.length = 4) (hser : strOk e.serial) (body : Bytes)
    (hsz : (cstr body).length < 2 ^ 63) (h : Heap) (r : Reply) (hr : registrarRequestVoucher O e body h = .ok r)
    (h200 : r.status = 200) (hne : r.body ≠ []) :
    env.filesOk = true ∧ ∃ sent s, Forwarded O e body sent ∧ peer.answer (rfc4648 sent) = some (s, r.body) ∧ s < 400 := by
  obtain ⟨sent, s, answer, hf, ha, h1, h2⟩ := C39_partial O hsm e hblk hser body hsz h r hr h200
  rw [hconn] at ha
  unfold post connect newClient at ha
  by_cases hs : s < 400
  · cases hfi : env.filesOk with
    | false => rw [hfi] at ha; cases ha
    | true => rw [hfi] at ha; exact ⟨rfl, sent, s, hf, (h1 hs) ▸ ha, hs⟩
  · exact absurd (h2 (by omega)) hne

/-- **C73** The parameter that would do: with verification asked for, the same connection reaches only servers whose
chain verifies against the system's certificates. -/
theorem C73_verified (L : Lib) (env : ClientEnv L) (peer : Peer L) (body : Bytes) (x : Nat × Bytes)
    (hx : post L env true peer body = some x) : L.chainOk env.system peer.chain = true ∧ peer.chain ≠ [] := by
  unfold post connect newClient loadCerts at hx
  revert hx
  cases env.filesOk <;> cases hc : peer.chain <;> simp
  intro h _
  exact h

/-- **C73** is violated: certificate 66 is trusted by nobody. -/
theorem C73_violated : ¬ C73_statement := by
  intro hst
  obtain ⟨r, hr, h1, h2⟩ := demoReg_runs 200 (str "CQ==")
  have := hst toyLib toy (demoReg fun _ => some (200, str "CQ==")) ⟨[], true, true⟩ (toyPeer 66) _ _ r rfl hr h1
    (by rw [h2]; decide)
  rw [toyLib_needs] at this
  cases this

/-- non-vacuity of C73_partial and C73_verified. -/
example : (demoReg fun _ => some (200, str "CQ==")).masa = post toyLib ⟨[], true, true⟩ false (toyPeer 66) ∧
    post toyLib ⟨[66], true, true⟩ true (toyPeer 66) [] = some (200, str "CQ==") ∧
    post toyLib ⟨[66], true, true⟩ true (toyPeer 9) [] = none := ⟨rfl, rfl, rfl⟩

end Brski.Props
