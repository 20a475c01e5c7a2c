import Verif.PropsAddr
import Verif.PropsBound
import Verif.Deploy

/-!
# C146: connections whose addresses are not known; C149: what a pledge makes of a voucher for another domain
-/

namespace Brski.Props
open Routes Wire Addr

/-- What can be told about one end of a connection (specification): name and port of an address of the internet, the port alone if the
address has no name, the process at the other end of a socket of the file system, or nothing, which is no name and port -1. -/
inductive Told (other : Bool) : Option Address → Bytes → Int → Prop where
  | named {a : Address} {name : Bytes} {port : Nat} : a.family = .inet port ∨ a.family = .inet6 port → a.name = some name →
      Told other (some a) name port
  | unnamed {a : Address} {port : Nat} : a.family = .inet port ∨ a.family = .inet6 port → a.name = none → Told other (some a) [] port
  | process {a : Address} {pid : Int} : other = true → a.family = .unix (some pid) → Told other (some a) [] pid
  | hidden {a : Address} : a.family = .unix none ∨ a.family = .other ∨ (other = false ∧ ∃ p, a.family = .unix p) → Told other (some a) [] (-1)
  | none : Told other none [] (-1)

theorem remoteOf_told {a : Option Address} {name : Bytes} {port : Int} (h : Told true a name port) : remoteOf a unknown = (name, port) := by
  cases h with
  | named h1 h2 => unfold remoteOf ipAndPort; rcases h1 with h1 | h1 <;> simp only [h1, h2]
  | unnamed h1 h2 => unfold remoteOf ipAndPort; rcases h1 with h1 | h1 <;> simp only [h1, h2, unknown]
  | process _ h2 => unfold remoteOf; simp only [h2, unknown]
  | hidden h1 =>
    unfold remoteOf ipAndPort
    rcases h1 with h1 | h1 | ⟨h1, -⟩
    · simp only [h1, unknown]
    · simp only [h1, unknown]
    · cases h1
  | none => rfl

theorem localOf_told {a : Option Address} {name : Bytes} {port : Int} (h : Told false a name port) : localOf a unknown = (name, port) := by
  cases h with
  | named h1 h2 => unfold localOf ipAndPort; rcases h1 with h1 | h1 <;> simp only [h1, h2]
  | unnamed h1 h2 => unfold localOf ipAndPort; rcases h1 with h1 | h1 <;> simp only [h1, h2, unknown]
  | process h1 _ => cases h1
  | hidden h1 =>
    unfold localOf ipAndPort
    rcases h1 with h1 | h1 | ⟨-, p, h1⟩ <;> simp only [h1, unknown]
  | none => rfl

/-- **C146** (whatever is known): what a handler is told about either end, for every kind of connection and also if the addresses
cannot be found out. -/
theorem C146_told {remote here : Option Address} {r l : Bytes} {rp lp : Int} (fs ts : List SentField) (hr : Told true remote r rp)
    (hl : Told false here l lp) (hr' : hasCrlf r = false) (hl' : hasCrlf l = false) :
    let m := given remote here (fs.map SentField.line) (ts.map SentField.line)
    ∀ p ∈ [(str "REMOTE_ADDR", r), (str "REMOTE_PORT", Ports.intDec rp), (str "LOCAL_ADDR", l), (str "LOCAL_PORT", Ports.intDec lp)],
      m.lookup p.1 = some (joined (valuesOf p.1 fs ++ p.2 :: valuesOf p.1 ts)) := by
  intro m p hp
  have er := remoteOf_told hr
  have el := localOf_told hl
  have := given_lookup remote here fs ts p.1 (by rw [er]; exact hr') (by rw [el]; exact hl')
  show (given _ _ _ _).lookup p.1 = _
  rw [this, er, el]
  dsimp only
  have e : spelled p.1 [(str "REMOTE_ADDR", r), (str "REMOTE_PORT", Ports.intDec rp), (str "LOCAL_ADDR", l),
      (str "LOCAL_PORT", Ports.intDec lp)] = [p.2] := by
    simp only [List.mem_cons, List.not_mem_nil, or_false] at hp
    have d12 : str "REMOTE_ADDR" ≠ str "REMOTE_PORT" := by decide
    have d13 : str "REMOTE_ADDR" ≠ str "LOCAL_ADDR" := by decide
    have d14 : str "REMOTE_ADDR" ≠ str "LOCAL_PORT" := by decide
    have d23 : str "REMOTE_PORT" ≠ str "LOCAL_ADDR" := by decide
    have d24 : str "REMOTE_PORT" ≠ str "LOCAL_PORT" := by decide
    have d34 : str "LOCAL_ADDR" ≠ str "LOCAL_PORT" := by decide
    generalize str "REMOTE_ADDR" = a at *
    generalize str "REMOTE_PORT" = b at *
    generalize str "LOCAL_ADDR" = c at *
    generalize str "LOCAL_PORT" = d at *
    rcases hp with rfl | rfl | rfl | rfl <;>
      simp [spelled, d12, d13, d14, d23, d24, d34, d12.symm, d13.symm, d14.symm, d23.symm, d24.symm, d34.symm]
  rw [e, entryOf, if_neg (by simp)]
  simp only [List.append_assoc, List.cons_append, List.nil_append]

/-- Something can be told about every end of every connection. -/
theorem C146_told_all (other : Bool) (a : Option Address) : ∃ name port, Told other a name port := by
  cases a with
  | none => exact ⟨_, _, .none⟩
  | some a =>
    obtain ⟨f, n⟩ := a
    cases f with
    | inet p =>
      cases n with
      | none => exact ⟨_, _, .unnamed (.inl rfl) rfl⟩
      | some n => exact ⟨_, _, .named (.inl rfl) rfl⟩
    | inet6 p =>
      cases n with
      | none => exact ⟨_, _, .unnamed (.inr rfl) rfl⟩
      | some n => exact ⟨_, _, .named (.inr rfl) rfl⟩
    | unix p =>
      cases p with
      | none => exact ⟨_, _, .hidden (.inl rfl)⟩
      | some p =>
        cases other with
        | true => exact ⟨_, _, .process rfl rfl⟩
        | false => exact ⟨_, _, .hidden (.inr (.inr ⟨rfl, _, rfl⟩))⟩
    | other => exact ⟨_, _, .hidden (.inr (.inl rfl))⟩

/-- Non-vacuity: a process at the other end, and a connection of which nothing is known. -/
example : Told true (some ⟨.unix (some 77), none⟩) [] 77 ∧ Told false (some ⟨.unix (some 77), none⟩) [] (-1) ∧
    (given (some ⟨.unix (some 77), none⟩) none [] []).lookup (str "REMOTE_PORT") = some (str "77") ∧
    (given (some ⟨.unix (some 77), none⟩) none [] []).lookup (str "LOCAL_PORT") = some (str "-1") ∧
    (given (some ⟨.inet6 80, none⟩) none [] []).lookup (str "REMOTE_ADDR") = some [] ∧
    (given (some ⟨.inet6 80, none⟩) none [] []).lookup (str "REMOTE_PORT") = some (str "80") :=
  ⟨.process rfl rfl, .hidden (.inr (.inr ⟨rfl, _, rfl⟩)), by decide +kernel, by decide +kernel, by decide +kernel, by decide +kernel⟩

/-! ## C149 -/

section
open Crypto Request Voucher Spec Server

/-- **C149** (unnoticed): whatever certificate of the configuration is pinned, a pledge accepts the voucher in an answer to the
registrar it talks to, whoever this is, if it is acceptable at all: the pledge gives no domain store
(/repo/src/brski/pledge/pledge_request.cpp:67-69).  With `C149_exact` the voucher need not have anything to do with the registrar. -/
theorem C149_unnoticed (O : Ossl) (hsm : Small O) (hdoc : DocumentedChain O) (rt : Rt) (hf : NoFail rt) (c serial pin : Bytes)
    (nonce : Option BinArr) (certs store : Option CertList) (hn : ArgWf nonce) (v : Voucher)
    (hacc : Acceptable O rt c certs store serial nonce v pin) (p : O.Cert) (hp : O.d2iX509 pin = some p)
    (r₁ r₂ : Bytes) (x₁ x₂ : O.Cert) (h₁ : O.d2iX509 r₁ = some x₁) (h₂ : O.d2iX509 r₂ = some x₂) :
    verifyMasaPledgeVoucher O rt (some (.of c)) (some serial) nonce (some (.of r₁)) none certs store false =
      verifyMasaPledgeVoucher O rt (some (.of c)) (some serial) nonce (some (.of r₂)) none certs store false :=
  (C33_any_registrar O hsm hdoc rt hf c r₁ serial pin nonce certs store hn v hacc x₁ p h₁ hp).trans
    (C33_any_registrar O hsm hdoc rt hf c r₂ serial pin nonce certs store hn v hacc x₂ p h₂ hp).symm

/-- The code violates C149 from end to end: registrar 7 asks, the voucher pins certificate 8, which does not vouch for 7, and the pledge
that talks to registrar 7 accepts it. -/
theorem C149_violated_accepted : ∃ r, masaRequestVoucher toy demoMasa (rfc4648 demoRequest) Heap.empty none = .ok r ∧ r.status = 200 ∧
    ∃ cms, r.body = rfc4648 cms ∧
      verifyMasaPledgeVoucher toy Rt.plain (some (.of cms)) (some (str "S1")) (some (.of [1])) (some (.of [7])) none none
        (some [([1], 0)]) false = .ok (some (.of [8])) ∧ ¬ Vouches toy (8 : UInt8) (7 : UInt8) := by
  obtain ⟨r, h1, h2, h3⟩ := demoMasa_runs none
  refine ⟨r, h1, h2, _, h3, C33_any_registrar toy toy_small toy_documented Rt.plain noFail_plain (1 :: demoIssuedText) [7] (str "S1") [8]
    (some (.of [1])) none (some [([1], 0)]) (fun n h => by cases h; exact wf_of [1]) demoIssued demo_acceptable (7 : UInt8) (8 : UInt8)
    rfl rfl, ?_⟩
  rintro (h | h)
  · have h : (8 : UInt8) = 7 := h
    revert h
    decide
  · exact h rfl

/-- Non-vacuity of `C149_unnoticed`: registrars 7 and 66. -/
example := C149_unnoticed toy toy_small toy_documented Rt.plain noFail_plain (1 :: demoIssuedText) (str "S1") [8]
    (some (.of [1])) none (some [([1], 0)]) (fun n h => by cases h; exact wf_of [1]) demoIssued demo_acceptable (8 : UInt8) rfl [7] [66]
    (7 : UInt8) (66 : UInt8) rfl rfl

end

/-! ## C74 -/

section
open Deploy

theorem runHandler_stub {rs : List Route} {run₁ run₂ : Endpoint → Outcome Routes.Reply} (h : ∀ e, e.stub = none → run₁ e = run₂ e) (line : Bytes) :
    runHandler rs run₁ line = runHandler rs run₂ line := by
  unfold runHandler
  split
  · rfl
  · split
    · rfl
    · split
      · split
        · rfl
        · rename_i he
          exact h _ he
      · rfl

/-- **C74** (nothing is run): what a server answers, and whether this is defined, depends on the handlers of the implemented endpoints
only, for all requests; at the others it runs nothing but the fixed reply. -/
theorem C74_run (rs : List Route) (mp : Multipart) (run₁ run₂ : List Field → Bytes → Endpoint → Outcome Routes.Reply) (close : Bool)
    (h : ∀ fs b e, Endpoint.stub e = none → run₁ fs b e = run₂ fs b e) (s : Bytes) :
    serveO rs mp run₁ close s = serveO rs mp run₂ close s := by
  have key : ∀ fs b c line, finish rs (run₁ fs b) c line = finish rs (run₂ fs b) c line := by
    intro fs b c line
    unfold finish
    rw [runHandler_stub (h fs b)]
  unfold serveO
  simp only [key]

/-- Non-vacuity: at the endpoint for the status of vouchers of the registrar not even a handler that does something undefined is run. -/
example : (serveO registrarRoutes ⟨fun _ => true, fun _ _ => true⟩ (fun _ _ e => if e.stub = none then .ok ⟨200, []⟩ else .ub) false
    (str "POST /.well-known/brski/voucher_status HTTP/1.1\r\nContent-Length: 0\r\n\r\n")).bind
      (fun r => .ok (r.map (·.status))) = .ok (some 200) ∧
    serveO registrarRoutes ⟨fun _ => true, fun _ _ => true⟩ (fun _ _ e => if e.stub = none then .ok ⟨200, []⟩ else .ub) false
      (str "POST /.well-known/brski/voucher_status HTTP/1.1\r\nContent-Length: 0\r\n\r\n") =
    serveO registrarRoutes ⟨fun _ => true, fun _ _ => true⟩ (fun _ _ _ => .ok ⟨200, []⟩) false
      (str "POST /.well-known/brski/voucher_status HTTP/1.1\r\nContent-Length: 0\r\n\r\n") :=
  ⟨by decide +kernel, C74_run _ _ _ _ _ (fun _ _ e he => by rw [if_pos he]) _⟩

end

end Brski.Props
