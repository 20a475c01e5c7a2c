import Verif.PropsMain3
import Verif.PropsDeploy2
import Verif.PropsX509d
import Verif.PropsEnd
import Verif.PropsWire
import Verif.PropsTarget

/-!
# Concrete cases of theorems whose instances need models of later files
-/

namespace Brski.Props
open Outcome Wire Brski.Voucher VoucherJson Crypto BoolTime Request Base64 Server Brski.Spec Pledge Routes

/-- Non-vacuity of C20_serialisation_succeeds. -/
example : ∃ t, serialize Env.plain demoVoucher = .ok (some t) :=
  C20_serialisation_succeeds Env.plain plain_noOom demoVoucher demoVoucher_built
    (by intro a t h
        cases a <;> simp only [getTime, reduceCtorEq, Option.some.injEq] at h <;> subst h
        · exact .inr ⟨⟨2020, 6, 4, 3, 2, 1⟩, ⟨rfl, rfl, rfl, rfl, rfl, rfl⟩, by unfold DateTime.Valid; decide⟩
        · exact .inl (by decide)
        · exact .inl (by decide))
    (by intro a x h
        cases a <;> simp only [getArray, reduceCtorEq, Option.some.injEq] at h <;> subst h <;> decide)

/-- Non-vacuity of C26_request_is_made: the certificate and key 3 sign a request for the serial number "S1" with the nonce 1. -/
example : ∃ text part, Encoded (pledgeVoucher demoTime (str "S1") (some (.of [1])) [7]) text ∧ Handed text part ∧
    signPledgeVoucherRequest toy Rt.plain (some demoTime) (some (str "S1")) (some (.of [1])) (some (.of [7])) (some (.of [3]))
      (some (.of [3])) none = .ok (toy.cmsSign (3 : UInt8) (3 : UInt8) [] part) :=
  C26_request_is_made toy Rt.plain noFail_plain demoTime (str "S1") [7] [3] [3] (some (.of [1])) none (by decide) (by decide)
    (fun n h => by cases h; exact ⟨[1], rfl⟩) (times4_ok (pledgeVoucher_times demoTime_ok))
    (pledgeVoucher_full (n := some [1]) ⟨by decide, by decide⟩ (fun b h => by cases h; exact ⟨by decide, by decide⟩))
    (3 : UInt8) (3 : UInt8) [] rfl rfl rfl

/-- Non-vacuity of C29_consistent: the MASA of the instance issues a voucher for the request of the instance. -/
example : ∃ x vr pv serial signers pin, some (BinArr.of demoRequest) = some x ∧
    Consistent toy Rt.plain (Props.content x) none (some [([7], 0)]) none (some [([3], 0)]) vr pv serial ∧
    SignersOf toy (Props.content x) signers ∧ demoCb serial signers = .ok (some (.of pin)) ∧
    SignedVoucher toy (some (.of [1])) (some (.of [1])) none (issuedVoucher serial vr.nonce pin ⟨0, 0, 0, 1, 0, 130, 0, 0, 0⟩)
      (1 :: demoIssuedText) :=
  C29_consistent toy toy_small Rt.plain _ _ demoCb demoCb_ok _ _ _ _ _ _ _ (fun n h => by cases h; exact wf_of _)
    (fun n h => by cases h; exact wf_of _) (fun n h => by cases h; exact wf_of _) _ demoIssue_eq

/-- Non-vacuity of C29_defined, with every argument there. -/
example : demoIssue.Defined :=
  C29_defined toy toy_small Rt.plain nofun nofun _ _ _ (fun f h => by cases h; exact demoCb_ok) _ _ _ _ _ _ _
    (fun n h => by cases h; exact wf_of _) (fun n h => by cases h; exact wf_of _) (fun n h => by cases h; exact wf_of _)

/-- Non-vacuity of C34_expiry_ignored and C34_partial: ten years after its expiry the voucher of the instance is accepted, and the
voucher the signer wrote is the one found. -/
example : earlier demoIssued.expiresOn ⟨0, 0, 0, 1, 0, 140, 0, 0, 0⟩ ∧
    ∃ x m v, some (BinArr.of (1 :: demoIssuedText)) = some x ∧ toy.d2iCms (Props.content x) = some m ∧
      Passes toy m none (some [([1], 0)]) ∧ Brski.Request.Reads (Rt.plain.json 0) (toy.content m) v ∧ v.pinned = .of [8] := by
  have he : earlier demoIssued.expiresOn ⟨0, 0, 0, 1, 0, 140, 0, 0, 0⟩ := .inl (by decide)
  refine ⟨he, ?_⟩
  exact C34_partial toy toy_small Rt.plain _ _ _ _ _ _ _ _ (fun n h => by cases h; exact wf_of _) (fun n h => by cases h; exact wf_of [1])
    (wf_of [7]) _ (C34_expiry_ignored toy toy_small Rt.plain noFail_plain _ [7] _ [8] _ none _ _
      (fun n h => by cases h; exact wf_of [1]) demoIssued demo_acceptable ⟨(7 : UInt8), (8 : UInt8), rfl, rfl, by simp [toy]⟩ _ he)

/-- Non-vacuity of C40_issued (by `demoMasa_runs`) and C40_answer: both answers occur. -/
example : (∃ r, masaRequestVoucher toy demoMasa (rfc4648 demoRequest) Heap.empty none = .ok r ∧ r.status = 200 ∧
      ∃ c cms, BodyDecodes demoMasa.al demoMasa.blk (rfc4648 demoRequest) c ∧ Issued toy demoMasa c cms ∧ r.body = rfc4648 cms) ∧
    ∃ r, masaRequestVoucher toy demoMasa (str "QQ==") Heap.empty none = .ok r ∧ r.status = 400 ∧ r.body = [] := by
  have hlen : demoRequest.length < 1000 := by decide +kernel
  have hsz := rfc_length demoRequest
  obtain ⟨r, h1, h2, -⟩ := demoMasa_runs none
  refine ⟨⟨r, h1, h2, ?_⟩, ?_⟩
  · rcases C40_answer toy toy_small demoMasa rfl _ (by omega) _ _ r h1 with ⟨-, h⟩ | ⟨h, -⟩
    · exact h
    · rw [h2] at h; cases h
  · have : (match masaRequestVoucher toy demoMasa (str "QQ==") Heap.empty none with
        | .ok r => decide (r.status = 400 ∧ r.body = [])
        | .ub => false) = true := by decide +kernel
    generalize masaRequestVoucher toy demoMasa (str "QQ==") Heap.empty none = o at this
    cases o with
    | ub => cases this
    | ok r => exact ⟨r, rfl, of_decide_eq_true this⟩

/-- Non-vacuity of C40_reply: the MASA of the instance and the request its registrar sends. -/
example : ∃ sent r, masaRequestVoucher toy demoMasa (rfc4648 sent) Heap.empty none = .ok r ∧ r.status = 200 ∧
    r.body = rfc4648 (1 :: demoConnectedText) := by
  obtain ⟨sent, -, h2, h3, h4⟩ := demo_both
  obtain ⟨r, r1, r2, r3, -⟩ := C40_reply toy demoMasa (rfc4648 sent) Heap.empty Heap.wf_empty none sent (str "2030-01-01T00:00:00Z") [8]
    ⟨0, 0, 0, 1, 0, 130, 2, 0, 0⟩ (1 :: demoConnectedText) noOom_zero noOom_zero
    (by intro l hl
        simp only [demoMasa, List.mem_cons, List.not_mem_nil, or_false] at hl
        rcases hl with rfl | rfl | rfl | rfl | rfl <;> exact ⟨(fun h => by cases h), (fun h => by cases h)⟩)
    rfl (by decide +kernel) (decodes_rfc _ noOom_zero _ _ rfl h2 (by unfold sizeMax; omega)) rfl
    ⟨(fun h => by cases h), (fun h => by cases h)⟩ ⟨(fun h => by cases h), (fun h => by cases h)⟩ h4 (by decide +kernel)
  exact ⟨sent, r, r1, r2, r3⟩

theorem padding_QQ : ¬ BadPadding (padded (cstr (str "QQ=="))) := by
  rw [← decBlocks_none_iff]
  decide +kernel

/-- Non-vacuity of C41_masa_partial: the MASA of the instance; the body `QQ==` is served and the body `A` is not. -/
example : (∃ r, masaRequestVoucher toy demoMasa (str "QQ==") Heap.empty none = .ok r ∧ r.heap.blk = Heap.empty.blk) ∧
    ¬ ∃ r, masaRequestVoucher toy demoMasa (str "A") Heap.empty none = .ok r ∧ r.heap.blk = Heap.empty.blk := by
  have key := fun body hsz => C41_masa_partial toy toy_small demoMasa rfl demoMasa_complete nofun
    nofun noOom_zero body hsz Heap.empty Heap.wf_empty none (by decide +kernel)
  refine ⟨(key _ (by decide)).2 (.inr padding_QQ), ?_⟩
  rw [C41_violated_masa]
  rintro ⟨r, h, -⟩
  cases h

/-- Non-vacuity of C41_registrar_partial: the registrar of the instance and the body `QQ==`. -/
example : ∃ r, registrarRequestVoucher toy (demoReg fun _ => none) (str "QQ==") Heap.empty = .ok r ∧ r.heap.blk = Heap.empty.blk := by
  refine (C41_registrar_partial toy toy_small (demoReg fun _ => none) rfl rfl rfl nofun nofun noOom_zero
    (by intro s h; cases h; decide) nofun nofun nofun ⟨nofun, nofun⟩ nofun _ (by decide) ?_ _ Heap.wf_empty).2 (.inr padding_QQ)
  rintro c text pv hb ⟨m, h1, h2, -⟩ hr
  unfold BodyDecodes at hb
  rw [show base64str2array (demoReg fun _ => none).al (demoReg fun _ => none).blk (cstr (str "QQ==")) = .ok (some 1, .owned [65]) from
    by decide +kernel] at hb
  simp only [Outcome.ok.injEq, Prod.mk.injEq, OutPtr.owned.injEq] at hb
  obtain ⟨-, rfl⟩ := hb
  cases h1
  subst h2
  exact absurd rfl hr.1

/-- Non-vacuity of C50_overrides: no configuration is loaded yet, or none has an address. -/
example : ∃ m' c' port', ∃ g' : Config.Slot → Option Config.Obj, Cli.applyOverrides true { Cli.noOpts with address := str "::1", port := 99 } .signCert mem0 (fun _ => none) 443 =
      .ok (m', c', port', true) ∧ Config.Own mem0 m' g' ∧ port' = 99 ∧
      g' (.str .registrar .bindAddress) = some (Config.Obj.str mem0.fresh (str "::1" ++ [0])) := by
  obtain ⟨m', c', p', ok, g', h1, h2, -, -, -, h3⟩ := C50_overrides (c := fun _ => none) wf_mem0 (Config.own_nil mem0) ⟨fun _ => rfl, nofun, nofun⟩ true
    { Cli.noOpts with address := str "::1", port := 99 } .signCert 443
  obtain ⟨e1, e2, -, e4⟩ := h3 (.inr (.inl rfl))
  have : ok = true := by
    cases ok with
    | true => rfl
    | false => have := (e2.1 rfl).1; cases this
  subst this
  exact ⟨m', c', p', g', h1, h2, e1, e4 (by decide)⟩

/-- C50_port, C46_partial and C60_any_client_partial have no hypotheses to meet beyond the type of their arguments; a port, the two sides
of C46_partial and two clients with the same answer. -/
example : Cli.portOf (str "65535") = 65535 ∧
    routing registrarRoutes ⟨.post, str "/.well-known/brski/requestvoucher"⟩ = some (some .registrarRequestVoucher) ∧
    routing masaRoutes ⟨.get, str "/.well-known/brski/requestvoucher"⟩ = some none ∧
    (∃ r, simpleEnroll toy (demoEnroll fun _ => none) none (rfc4648 [5]) Heap.empty = .ok r ∧ r.status = 200) := by
  refine ⟨by decide +kernel, by decide +kernel, by decide +kernel, ?_⟩
  obtain ⟨r, h1, h2, -⟩ := demo_enrolled (fun _ => none) none
  exact ⟨r, h1, h2⟩

/-- Non-vacuity of C63_line and C63_dispatch. -/
example : parseRequestLine (str "GET /a?b HTTP/1.0" ++ [13, 10]) = some ⟨.get, str "/a"⟩ ∧
    ∃ l, parseRequestLine (str "POST /.well-known/est/simpleenroll?x HTTP/1.1" ++ [13, 10]) = some l ∧
      (routing registrarRoutes l = some (some .registrarSimpleEnroll) ↔
        Listed registrarEndpoints (str "POST") (str "/.well-known/est/simpleenroll") .registrarSimpleEnroll) := by
  refine ⟨?_, ?_⟩
  · have := C63_line .get (str "/a?b") (by decide) (by decide) (str "HTTP/1.0") (.inr rfl)
    exact this.trans (by decide +kernel)
  · obtain ⟨l, h1, h2, -⟩ := C63_dispatch .post nofun ((str "/.well-known/est/simpleenroll").map .raw)
      (by intro w hw
          obtain ⟨c, hc, rfl⟩ := List.mem_map.1 hw
          have : ∀ c, c ∈ str "/.well-known/est/simpleenroll" → c ∉ ([0, 9, 10, 13, 32, 35, 37, 63] : Bytes) := by decide
          exact this c hc) (str "?x") (.inr ⟨_, .inl rfl⟩) (by decide) .registrarSimpleEnroll
      (str "well-known/est/simpleenroll") (by decide)
    exact ⟨l, h1, h2⟩

/-- Non-vacuity of C76_reply: the answer to a voucher request, as the client reads it. -/
example : readReply (replyText (process registrarRoutes (fun _ => ⟨200, str "MII="⟩) false demoLine) ++ str "rest") =
    .ok (some (200, str "MII=")) := by
  have := C76_reply registrarRoutes (fun _ => ⟨200, str "MII="⟩) false demoLine (str "rest")
    (by intro e; cases e <;> decide) (by unfold IsHead; decide +kernel) (by decide +kernel)
  exact this.trans (by decide +kernel)

/-- Non-vacuity of C83_preq_memory and C83_epvr_memory: the pledge of the instance with the network of the instance. -/
example (W : Main.Sys toy) :
    (∃ r, Main.preq W demoPledge (demoNet [7] [7] demoVoucherText []) zeroAllocator (str "out") emptyIo Heap.empty = .ok r ∧
      (r.ok = true → Owns Heap.empty r.heap []) ∧ (r.ok = false → ∃ p, Owns Heap.empty r.heap [p])) ∧
    ∃ r, Main.exportPvr W demoPledge (.der [7]) [] emptyIo Heap.empty = .ok r ∧ Owns Heap.empty r.heap [] := by
  refine ⟨C83_preq_memory toy_small W demo_ready _ (fun t a h => ?_) _ _ _ Heap.wf_empty, ?_⟩
  · rw [demoNet_second h]
    exact ⟨⟨rfl, by decide +kernel⟩, demo_padding⟩
  · obtain ⟨r, h1, h2, -⟩ := C83_epvr_memory W demo_ready (.der [7]) nofun [] emptyIo Heap.wf_empty
    exact ⟨r, h1, h2 (.inr rfl)⟩

/-- Non-vacuity of C85_unique: contents that carry the metadata of the instance exist, and are no others than those of its certificate. -/
example : ∃ t, Carries (certPair accentedCert accentedCert) accented (fun _ => 5) (9 : Nat) t ∧
    ∀ t', Carries (certPair accentedCert accentedCert) accented (fun _ => 5) (9 : Nat) t' → t' = t := by
  obtain ⟨k, t, s, h1, h2, -⟩ := C85_contents _ _ _ _ _ _ _ accented_made
  cases h1
  exact ⟨t, h2, fun t' h' => C85_unique _ _ _ _ _ _ h' h2⟩

end Brski.Props
