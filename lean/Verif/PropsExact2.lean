import Verif.PropsFlow
import Verif.PropsSign
import Verif.PropsClient
import Verif.PropsConnect

/-!
# C30, C31, C33, C37, C54, C101 and C123, exactly

What the MASA and the pledge decide on, where these properties are violated; when the signing functions differ; how long connecting takes.
-/

namespace Brski.Props
open Outcome Brski.Voucher VoucherJson Crypto BoolTime Request Base64 Server Brski.Spec Pledge Sign

/-! ## C30 -/

/-- What is read from a message is determined by it. -/
theorem consistent_unique {O : Ossl} {rt : Rt} {c : Bytes} {rc rs pc ps : Option CertList} {vr pv vr' pv' : Voucher}
    {serial serial' : Bytes} (h : Consistent O rt c rc rs pc ps vr pv serial) (h' : Consistent O rt c rc rs pc ps vr' pv' serial') :
    vr = vr' ∧ pv = pv' ∧ serial = serial' := by
  obtain ⟨⟨t, ⟨m, hm, rfl, -⟩, hR⟩, hn, ⟨p, u, hp, ⟨m2, hm2, rfl, -⟩, hR2⟩, -⟩ := h
  obtain ⟨⟨t', ⟨m', hm', rfl, -⟩, hR'⟩, hn', ⟨p', u', hp', ⟨m2', hm2', rfl, -⟩, hR2'⟩, -⟩ := h'
  rw [hm] at hm'
  cases hm'
  have e := hR.2
  rw [hR'.2] at e
  cases e
  rw [hp] at hp'
  have : p = p' := of_inj hp'
  subst this
  rw [hm2] at hm2'
  cases hm2'
  have e := hR2.2
  rw [hR2'.2] at e
  cases e
  rw [hn] at hn'
  cases hn'
  exact ⟨rfl, rfl, rfl⟩

/-- **C30** (exact): whoever reads an issued voucher finds the nonce the registrar wrote into its part of the request, so that it is
the nonce of the pledge if and only if the registrar wrote that one. -/
theorem C30_exact (O : Ossl) (hsm : Small O) (hfa : Faithful O) (rt : Rt) (c : Bytes) (expires : Tm) (hex : FourDigits expires)
    (cb : Callback) (hcb : CallbackOk cb) (hcp : CallbackProper cb) (cert key : Option BinArr) (hc : ArgWf cert) (hk : ArgWf key)
    (rc rs pc ps add : Option CertList) (vr pv : Voucher) (serial : Bytes) (hs : StringText serial)
    (hcon : Consistent O rt c rc rs pc ps vr pv serial) (cms : Bytes)
    (h : signMasaPledgeVoucher O rt (some (.of c)) (some expires) (some cb) cert key rc rs pc ps add = .ok (some cms))
    (certs store : Option CertList) (text : Bytes) (env : Env) (w : Voucher) (hA : Authentic O certs store cms text)
    (hR : Reads env text w) : w.nonce = vr.nonce ∧ (w.nonce = pv.nonce ↔ vr.nonce = pv.nonce) := by
  obtain ⟨x, vr', pv', serial', signers, pin, ex, hcon', -, hpin, hsig⟩ := C29_consistent O hsm rt _ expires cb hcb cert key
    rc rs pc ps add (fun y hy => by cases hy; exact wf_of c) hc hk cms h
  cases ex
  obtain ⟨rfl, rfl, rfl⟩ := consistent_unique hcon hcon'
  obtain ⟨⟨rtext, hrA, hrR⟩, hnm, -, -⟩ := hcon
  have hvrok : VoucherOk vr := deserialize_voucherOk _ _ (by have := authentic_small hsm hrA; omega) _ hrR.2
  have hser := serial_ok hvrok hnm
  have hw := signed_read hsm hfa hsig hA hR (issuedVoucher_ok hvrok.2.2.2.1 hser.1 hser.2) (issuedVoucher_times hex)
    (issuedVoucher_full (hcp _ _ _ hpin) (reads_full (authentic_small hsm hrA) hrR)) (issuedVoucher_plain hs)
  have hn : w.nonce = vr.nonce := hw.nonce.symm
  exact ⟨hn, by rw [hn]⟩

/-! ## C31 -/

/-- **C31** (exact): among the requests whose signatures are in order and which name one serial number, the answer of the MASA depends
on the serial number, the nonce of the registrar and the signers of the request and on nothing else, neither on the assertion nor on
the certificate the pledge names, nor on its nonce. -/
theorem C31_blind (O : Ossl) (hsm : Small O) (rt : Rt) (hf : NoFail rt) (c₁ c₂ : Bytes) (expires : Tm) (cb : Callback)
    (cert key : Option BinArr) (rc rs pc ps add : Option CertList) (vr₁ pv₁ vr₂ pv₂ : Voucher) (serial : Bytes)
    (signers : Option CertList) (h₁ : Consistent O rt c₁ rc rs pc ps vr₁ pv₁ serial)
    (h₂ : Consistent O rt c₂ rc rs pc ps vr₂ pv₂ serial) (hn : vr₁.nonce = vr₂.nonce) (s₁ : SignersOf O c₁ signers)
    (s₂ : SignersOf O c₂ signers) :
    signMasaPledgeVoucher O rt (some (.of c₁)) (some expires) (some cb) cert key rc rs pc ps add =
      signMasaPledgeVoucher O rt (some (.of c₂)) (some expires) (some cb) cert key rc rs pc ps add := by
  have key : ∀ (c : Bytes) (vr pv : Voucher), Consistent O rt c rc rs pc ps vr pv serial → SignersOf O c signers →
      signMasaPledgeVoucher O rt (some (.of c)) (some expires) (some cb) cert key rc rs pc ps add =
        masaVoucher O rt serial (wantArray vr .nonce) signers expires cb cert key add ∧ VoucherOk vr := by
    intro c vr pv hcon hsg
    obtain ⟨⟨text, hA, hne, hd⟩, hs, ⟨prior, text2, hpr, hA2, hne2, hd2⟩, hs2⟩ := hcon
    have hok := deserialize_voucherOk _ _ (by have := authentic_small hsm hA; omega) _ hd
    have hwp : wantArray vr .priorSigned = some (.of prior) := by
      rcases want_prior hok with ⟨h, -⟩ | ⟨b, h, h'⟩
      · rw [hpr] at h; simp [BinArr.of, BinArr.empty] at h
      · rw [h', ← h, hpr]
    refine ⟨?_, hok⟩
    unfold signMasaPledgeVoucher
    simp only [verifyCmsVoucher_full_out O (rt.json 0) (rt.ok 0) (hf.ok 0) c text rc rs signers vr hA hne hd hsg,
      bind'_ok, needSerial_eq, hs, hwp,
      verifyCmsVoucher_full O (rt.json 1) (rt.ok 1) (hf.ok 1) prior text2 pc ps pv hA2 hne2 hd2, hs2, ne_eq,
      not_true, if_false]
  obtain ⟨e₁, o₁⟩ := key c₁ vr₁ pv₁ h₁ s₁
  obtain ⟨e₂, o₂⟩ := key c₂ vr₂ pv₂ h₂ s₂
  have hw : wantArray vr₁ .nonce = wantArray vr₂ .nonce := by
    rcases want_nonce o₁ with ⟨a₁, b₁⟩ | ⟨x, a₁, b₁⟩ <;> rcases want_nonce o₂ with ⟨a₂, b₂⟩ | ⟨y, a₂, b₂⟩ <;>
      rw [b₁, b₂] <;> rw [a₁, a₂] at hn <;> simp_all [BinArr.of, BinArr.empty]
  rw [e₁, e₂, hw]

/-! ## C33 -/

/-- **C33** (exact): without a domain store, and with memory, a pledge accepts a voucher with the result `pin` if and only if it is
acceptable and both certificates can be decoded; what the one of the registrar is plays no role. -/
theorem C33_exact (O : Ossl) (hsm : Small O) (hdoc : DocumentedChain O) (rt : Rt) (hf : NoFail rt) (c r serial pin : Bytes)
    (nonce : Option BinArr) (certs store : Option CertList) (hn : ArgWf nonce) :
    verifyMasaPledgeVoucher O rt (some (.of c)) (some serial) nonce (some (.of r)) none certs store false = .ok (some (.of pin)) ↔
      (∃ v, Acceptable O rt c certs store serial nonce v pin) ∧ (O.d2iX509 r).isSome = true ∧ (O.d2iX509 pin).isSome = true := by
  constructor
  · intro h
    obtain ⟨x, s, v, pin', r', e1, e2, e3, hacc, ⟨y, p, hy, hp, -⟩, e4⟩ := C32_acceptance O hsm rt _ _ nonce (.of r) none certs store
      false (fun y hy => by cases hy; exact wf_of c) hn (wf_of r) _ h
    cases e1
    cases e2
    have := of_inj e3
    subst this
    have := of_inj e4
    subst this
    exact ⟨⟨v, hacc⟩, by rw [hy]; rfl, by rw [hp]; rfl⟩
  · rintro ⟨⟨v, hacc⟩, hr, hp⟩
    obtain ⟨x, hx⟩ := Option.isSome_iff_exists.1 hr
    obtain ⟨p, hp⟩ := Option.isSome_iff_exists.1 hp
    exact C33_any_registrar O hsm hdoc rt hf c r serial pin nonce certs store hn v hacc x p hx hp

/-! ## C37 -/

/-- **C37** (exact): with memory a message is accepted if and only if its signature is valid and, if a trust list is given, its
signer chains to it. -/
theorem C37_exact (O : Ossl) (ok : Nat → Bool) (hok : ∀ k, ok k = true) (c text : Bytes) (certs store : Option CertList) :
    verifyCms O ok (some (.of c)) certs store false = .ok (some ⟨text, none⟩) ↔
      ∃ m cs, O.d2iCms c = some m ∧ O.content m = text ∧ Extra O certs cs ∧ O.sigOk m cs = true ∧
        ∀ l, store = some l → ∃ xs rs, TrustList O l xs rs ∧ O.trustOk m cs (xs, rs) = true := by
  constructor
  · intro h
    obtain ⟨q, e, hq⟩ := verifyCms_sound O ok (.of c) (wf_of c) certs store false
    rw [e] at h
    cases h
    obtain ⟨⟨m, hm, ht, cs, hcs, hsig, htr⟩, -⟩ := hq _ rfl
    exact ⟨m, cs, hm, ht, hcs, hsig, htr⟩
  · rintro ⟨m, cs, hm, ht, hcs, hsig, htr⟩
    exact verifyCms_complete O ok hok c text certs store ⟨m, hm, ht, cs, hcs, hsig, htr⟩

/-! ## C54 -/

/-- **C54** (exact): when the pledge accepts, the certificate in the request it sent is the one presented together with the accepted
voucher if and only if both connections presented the same certificate. -/
theorem C54_exact (O : Ossl) (hsm : Small O) (hfa : Faithful O) (e : PledgeEnv) (net : Net) (hsz : RunSized e net)
    (h : Heap) (r : Ran) (p : Nat) (cms : Bytes) (a1 a : Answer) (hr : postVoucher O e net h = .ok r)
    (hp : r.pinned = some p) (hsent : r.sent = [.voucher [], .voucher (rfc4648 cms)])
    (hfirst : net.first = some a1) (_hsecond : net.second (rfc4648 cms) = some a)
    (hreg : ∀ x, a1.cert = some x → Proper x) (hnon : NonceProper e)
    (htime : ∀ t, requestTime e = some t → FourDigits t)
    (hser : ∀ s, e.serial = some s → StringText s ∧ s.length ≤ 127)
    (certs store : Option CertList) (text : Bytes) (env : Env) (w : Voucher) (hA : Authentic O certs store cms text)
    (hR : Reads env text w) : a.cert = some (content w.proximity) ↔ a1.cert = a.cert := by
  have h0 : strOk e.serial := fun s hs => not_nul_of_text (hser s hs).1
  obtain ⟨a1', a2, r1, r2, t, s, n, cms', pin, g1, g2, g3, g4, g5, g6, g7, -⟩ :=
    C54_two_certificates O hsm e h0 net hsz h r p hr hp
  rw [hfirst] at g1
  cases g1
  rw [hsent] at g7
  simp only [List.cons.injEq, Msg.voucher.injEq, and_true, true_and] at g7
  have := rfc_injective g7
  subst this
  obtain ⟨hpl, hl⟩ := hser s g3
  have hn : ∃ n' : Option Bytes, n = n'.map .of ∧ ∀ b, n' = some b → Proper b := by
    rcases g5 with ⟨-, rfl⟩ | ⟨x, b, hx, rfl, hb⟩
    · exact ⟨none, rfl, fun b hb => by cases hb⟩
    · exact ⟨some b, rfl, fun b' hb' => by cases hb'; exact hnon x b hx hb⟩
  obtain ⟨n', rfl, hn'⟩ := hn
  have hsv := signed_read hsm hfa g6 hA hR (pledgeVoucher_ok g5.wf (h0 s g3) hl) (pledgeVoucher_times (htime t g4))
    (pledgeVoucher_full (hreg r1 g2) hn') (pledgeVoucher_plain hpl)
  have hx : content w.proximity = r1 := by
    rw [← hsv.proximity]
    rfl
  rw [hx, g2]
  exact eq_comm

/-! ## C101 -/

/-- **C101** (exact): the function for keys of elliptic curves differs from the general one if and only if certificate and key are given,
trace messages are put out and the voucher cannot be serialised; then it is undefined, and the general one fails. -/
theorem C101_exact (O : Ossl) (readKey : Bytes → Option O.Key) (L : Log.Settings) (env : Env) (v : Voucher)
    (cert key : Option BinArr) (certs : Option CertList) (hv : VoucherOk v)
    (h : ∀ k, key = some (.of k) → readKey k = O.d2iKey k) (hk : ArgWf key) :
    (signEccmsVoucher O readKey L env v cert key certs ≠ signCmsVoucher O env v cert key certs ↔
      (cert ≠ none ∧ key ≠ none ∧ L.level = 0 ∧ L.quiet = false ∧ serialize env v = .ok none)) ∧
    (signEccmsVoucher O readKey L env v cert key certs ≠ signCmsVoucher O env v cert key certs →
      signEccmsVoucher O readKey L env v cert key certs = .ub ∧ signCmsVoucher O env v cert key certs = .ok none) := by
  have bad : cert ≠ none → key ≠ none → L.level = 0 → L.quiet = false → serialize env v = .ok none →
      signEccmsVoucher O readKey L env v cert key certs = .ub ∧ signCmsVoucher O env v cert key certs = .ok none := by
    intro h1 h2 h3 h4 h5
    obtain ⟨c, rfl⟩ := Option.ne_none_iff_exists'.1 h1
    obtain ⟨k, rfl⟩ := Option.ne_none_iff_exists'.1 h2
    have h6 : Log.checkLevel L 0 false = false := by simp [Log.checkLevel, h3, h4]
    constructor
    · simp [signEccmsVoucher, h5, bind'_ok, logTrace, h6, Outcome.bind]
    · simp [signCmsVoucher, h5, bind'_ok]
  have only : signEccmsVoucher O readKey L env v cert key certs ≠ signCmsVoucher O env v cert key certs →
      cert ≠ none ∧ key ≠ none ∧ L.level = 0 ∧ L.quiet = false ∧ serialize env v = .ok none := by
    intro hne
    refine ⟨?_, ?_, ?_, ?_, ?_⟩
    · rintro rfl; exact hne rfl
    · rintro rfl; cases cert <;> exact hne rfl
    · refine Classical.byContradiction fun hl => hne (C101_partial O readKey L env v cert key certs hv h hk (.inl ?_))
      exact UInt8.pos_iff_ne_zero.2 hl
    · cases hq : L.quiet with
      | false => rfl
      | true => exact absurd (C101_partial O readKey L env v cert key certs hv h hk (.inr (.inl hq))) hne
    · exact Classical.byContradiction fun hl => hne (C101_partial O readKey L env v cert key certs hv h hk (.inr (.inr hl)))
  refine ⟨⟨only, fun ⟨h1, h2, h3, h4, h5⟩ => ?_⟩, fun hne => ?_⟩
  · rw [(bad h1 h2 h3 h4 h5).1, (bad h1 h2 h3 h4 h5).2]
    exact fun e => nomatch e
  · obtain ⟨h1, h2, h3, h4, h5⟩ := only hne
    exact bad h1 h2 h3 h4 h5

/-! ## C123 -/

section
open Connect

/-- When something happens on a socket whose connection is being made, from the beginning of the waiting on; `none`: never. -/
def happens (w : Wait) : Option Nat :=
  if w.fails then some w.interrupted.sum else w.ready.map (w.interrupted.sum + ·)

/-- How long a client waits at an address: not at all where no attempt is made, where the attempt is decided at once, or where the
descriptor cannot be waited for; else until something happens, but at most the limit. -/
def waits (limit : Nat) (a : Addr Meets) : Nat :=
  match a.sock, a.env with
  | some fd, .pending w =>
    if a.cloexec = true ∧ fd < 1024 then (match happens w with | some t => min limit t | none => limit) else 0
  | _, _ => 0

theorem selects_time (w : Wait) : ∀ (ds : List Nat) (left : Nat), (selects w left ds).2 =
    match (if w.fails then some ds.sum else w.ready.map (ds.sum + ·)) with | some t => min left t | none => left := by
  intro ds
  induction ds with
  | nil =>
    intro left
    simp only [selects]
    cases w.fails with
    | true => simp
    | false =>
      cases w.ready with
      | none => simp
      | some d =>
        by_cases hd : d ≤ left
        · simp [hd]
        · simp [hd, Nat.min_eq_left (Nat.le_of_not_le hd)]
  | cons d ds ih =>
    intro left
    have add : ∀ t, d ≤ left → d + min (left - d) t = min left (d + t) := fun t hd => by
      rw [← Nat.add_min_add_left, Nat.add_sub_cancel' hd]
    simp only [selects]
    split
    · rename_i hd
      simp only [ih]
      cases w.fails with
      | true => simp [add _ hd]
      | false =>
        cases w.ready with
        | none => simp [Nat.add_sub_cancel' hd]
        | some e => simp [add _ hd, Nat.add_assoc]
    · rename_i hd
      have hd' : left ≤ d := Nat.le_of_not_le hd
      cases w.fails with
      | true => simp [Nat.min_eq_left (Nat.le_trans hd' (Nat.le_add_right d _))]
      | false =>
        cases w.ready with
        | none => simp
        | some e => simp [Nat.add_assoc, Nat.min_eq_left (Nat.le_trans hd' (Nat.le_add_right d _))]

theorem connectTo_time (limit : Nat) (s : Err × Nat) (fd : Nat) (a : Addr Meets) (hs : a.sock = some fd) (hc : a.cloexec = true) q
    (h : connectTo limit s fd a.env = ok q) : q.2.1.2 = s.2 + waits limit a := by
  cases he : a.env with
  | done => rw [he] at h; cases h; simp [waits, hs, he]
  | refused => rw [he] at h; cases h; simp [waits, hs, he]
  | pending w =>
    rw [he] at h
    simp only [connectTo, waitReady_eq, bind_ok] at h
    have key : (if fd < 1024 then selects w limit w.interrupted else (Err.connection, 0)).2 = waits limit a := by
      by_cases hf : fd < 1024
      · simp only [hf, if_true, selects_time, waits, hs, he, hc, true_and, happens]
      · simp [hf, waits, hs, he]
    rw [← key]
    generalize (if fd < 1024 then selects w limit w.interrupted else (Err.connection, 0)) = x at h
    split at h <;> cases h <;> rfl

theorem tries_time (limit : Nat) : ∀ (l : List (Addr Meets)) (s : Err × Nat) r, tries false (connectTo limit) s l = ok r →
    ∃ tried rest, l = tried ++ rest ∧ r.2.1.2 = s.2 + (tried.map (waits limit)).sum ∧ (r.1 = none → rest = []) ∧
      ∀ fd a, r.1 = some (fd, a) → ∃ pre, tried = pre ++ [a] := by
  intro l
  induction l with
  | nil =>
    intro s r h
    simp only [tries] at h
    cases h
    exact ⟨[], [], rfl, by simp, fun _ => rfl, fun _ _ h => nomatch h⟩
  | cons a l ih =>
    intro s r h
    have go : ∀ (s' : Err × Nat) r', tries false (connectTo limit) s' l = ok r' → s'.2 = s.2 + waits limit a →
        ∃ tried rest, a :: l = tried ++ rest ∧ r'.2.1.2 = s.2 + (tried.map (waits limit)).sum ∧ (r'.1 = none → rest = []) ∧
          ∀ fd b, r'.1 = some (fd, b) → ∃ pre, tried = pre ++ [b] := by
      intro s' r' ht hw
      obtain ⟨tried, rest, h1, h2, h3, h4⟩ := ih s' r' ht
      refine ⟨a :: tried, rest, by rw [h1]; rfl, by rw [h2, hw]; simp [Nat.add_assoc], h3, fun fd b hb => ?_⟩
      obtain ⟨pre, hp⟩ := h4 fd b hb
      exact ⟨a :: pre, by rw [hp]; rfl⟩
    simp only [tries] at h
    split at h
    · rename_i hs
      cases ht : tries false (connectTo limit) s l with
      | ub => rw [ht] at h; cases h
      | ok r' =>
        rw [ht] at h
        simp only [bind_ok] at h
        cases h
        exact go s r' ht (by simp [waits, hs])
    · rename_i fd hs
      split at h
      · rename_i hc
        obtain ⟨q, hq, -⟩ := connectTo_made limit s fd a.env
        have hw := connectTo_time limit s fd a hs hc q hq
        rw [hq] at h
        simp only [bind_ok] at h
        split at h
        · cases h
          exact ⟨[a], l, rfl, by simp [hw], fun h => (nomatch h), fun f b hb => by cases hb; exact ⟨[], rfl⟩⟩
        · cases ht : tries false (connectTo limit) q.2.1 l with
          | ub => rw [ht] at h; cases h
          | ok r' =>
            rw [ht] at h
            simp only [bind_ok] at h
            cases h
            exact go _ r' ht hw
      · rename_i hc
        cases ht : tries false (connectTo limit) s l with
        | ub => rw [ht] at h; cases h
        | ok r' =>
          rw [ht] at h
          simp only [bind_ok] at h
          cases h
          refine go s r' ht ?_
          simp only [waits]
          split <;> simp [hc]

/-- **C123** (exact): the time a client spends is the sum of the times it waits at the addresses, one after the other, up to the one it is
connected to, or at all of them. -/
theorem C123_exact (limit : Nat) (l : List (Addr Meets)) : ∃ r tried rest, clientSocket limit (some l) = ok r ∧ l = tried ++ rest ∧
    r.spent = (tried.map (waits limit)).sum ∧ (r.sock = none → rest = []) ∧ ∀ fd a, r.sock = some (fd, a) → ∃ pre, tried = pre ++ [a] := by
  obtain ⟨r, h1, h2⟩ := tries_first (options := false) (boc := connectTo limit) (made limit)
    (fun s fd e => by obtain ⟨q, h, h', _⟩ := connectTo_made limit s fd e; exact ⟨q, h, h'⟩) l (.success, 0)
  obtain ⟨tried, rest, h3, h4, h5, h6⟩ := tries_time limit l _ r h1
  simp only [clientSocket, createSocket, h1, bind_ok]
  exact ⟨_, tried, rest, rfl, h3, by simpa using h4, h5, h6⟩

/-- The first address keeps the client waiting for the whole limit, the second one accepts after 3 + 4 milliseconds. -/
example : (clientSocket 100 (some [silent 5, ⟨false, some 5, true, .pending ⟨[3], false, some 4, some 0⟩⟩, silent 6])).bind
    (fun r => ok (r.spent, r.sock.isSome)) = ok (107, true) ∧ waits 100 (silent 5) = 100 := ⟨by decide, rfl⟩

end

/-! ## Cases -/

/-- The request of the instance meets the hypotheses of `C30_exact`; the voucher has the nonce of the registrar. -/
example : Consistent toy Rt.plain demoRequest none (some [([7], 0)]) none (some [([3], 0)]) demoVr demoPv (str "S1") ∧
    demoIssue = .ok (some (1 :: demoIssuedText)) ∧ CallbackProper demoCb ∧ StringText (str "S1") ∧ demoVr.nonce ≠ demoPv.nonce ∧
    Authentic toy none (some [([1], 0)]) (1 :: demoIssuedText) demoIssuedText ∧ Reads Env.plain demoIssuedText demoIssued :=
  ⟨demo_consistent, demoIssue_eq, fun _ _ p h => by cases h; exact ⟨by simp, by decide⟩, .of_plain (by decide), by decide,
    toy_authentic 1 _ (by decide +kernel), demoIssued_reads⟩

/-- A request like that of the instance, in which the pledge asserts proximity to registrar 7 and has another nonce. -/
def demoInner' : Bytes :=
  3 :: str "{\"ietf-voucher:voucher\":{\"assertion\":\"proximity\",\"serial-number\":\"S1\",\"nonce\":\"BQ==\",\"proximity-registrar-cert\":\"Bw==\"}}"

/-- The registrar request around it. -/
def demoRequest' : Bytes :=
  7 :: (str "{\"ietf-voucher:voucher\":{\"serial-number\":\"S1\",\"nonce\":\"AQ==\",\"prior-signed-voucher-request\":\"" ++
    rfc4648 demoInner' ++ str "\"}}")

theorem demo_consistent' : Consistent toy Rt.plain demoRequest' none (some [([7], 0)]) none (some [([3], 0)])
    { demoVr with prior := .of demoInner' }
    { Voucher.init with assertion := 3, serial := some (str "S1"), nonce := .of [5], proximity := .of [7] } (str "S1") where
  registrar := ⟨_, toy_authentic 7 _ (by decide +kernel), by decide +kernel, by decide +kernel⟩
  named := rfl
  pledge := ⟨demoInner', _, rfl, toy_authentic 3 _ (by decide +kernel), by decide +kernel, by decide +kernel⟩
  same := rfl

/-- Two requests for `C31_blind`, one of which deserves a voucher and one of which does not. -/
example : signMasaPledgeVoucher toy Rt.plain (some (.of demoRequest)) (some demoTime) (some demoCb) (some (.of [1]))
      (some (.of [1])) none (some [([7], 0)]) none (some [([3], 0)]) none =
    signMasaPledgeVoucher toy Rt.plain (some (.of demoRequest')) (some demoTime) (some demoCb) (some (.of [1]))
      (some (.of [1])) none (some [([7], 0)]) none (some [([3], 0)]) none :=
  C31_blind toy toy_small Rt.plain noFail_plain _ _ _ _ _ _ _ _ _ _ _ _ _ _ _ _ (some [([7], 0)]) demo_consistent demo_consistent' rfl
    ⟨(7, _), rfl, .inr ⟨by simp [toy], [[7]], rfl, rfl⟩⟩ ⟨(7, _), rfl, .inr ⟨by simp [toy], [[7]], rfl, rfl⟩⟩

/-- Registrar 66 is as good as any other. -/
example : verifyMasaPledgeVoucher toy Rt.plain (some (.of (1 :: demoIssuedText))) (some (str "S1")) (some (.of [1])) (some (.of [66]))
    none none (some [([1], 0)]) false = .ok (some (.of [8])) :=
  (C33_exact toy toy_small toy_documented Rt.plain noFail_plain _ _ _ _ _ _ _ (fun n h => by cases h; exact wf_of [1])).2
    ⟨⟨_, demo_acceptable⟩, rfl, rfl⟩

/-- A message of a signer nobody trusts, without and with a trust list. -/
example : verifyCms toy (fun _ => true) (some (.of [66, 1])) none none false = .ok (some ⟨[1], none⟩) ∧
    verifyCms toy (fun _ => true) (some (.of [66, 1])) none (some [([1], 0)]) false = .ok none :=
  ⟨(C37_exact toy _ (fun _ => rfl) _ _ _ _).2 ⟨(66, [1]), [], rfl, rfl, rfl, rfl, fun l h => by cases h⟩, by decide +kernel⟩

/-- A voucher that cannot be serialised, with and without trace messages. -/
example : signEccmsVoucher toy toy.d2iKey Log.defaults ⟨Env.plain.lib, fun _ => ⟨fun _ => none, by simp⟩, Env.plain.blk, Env.plain.blk_len⟩
      Voucher.init (some (.of [7])) (some (.of [7])) none = .ub ∧
    signEccmsVoucher toy toy.d2iKey { Log.defaults with level := 1 }
      ⟨Env.plain.lib, fun _ => ⟨fun _ => none, by simp⟩, Env.plain.blk, Env.plain.blk_len⟩
      Voucher.init (some (.of [7])) (some (.of [7])) none = .ok none := ⟨by decide +kernel, by decide +kernel⟩

/-- Both sides of `C54_exact`: the run accepts with the same certificate on both connections and with two of them. -/
example : ranView (postVoucher toy demoPledge (demoNet [7] [7] demoVoucherText []) Heap.empty) = some (some (some [8]), 2) ∧
    ranView (postVoucher toy demoPledge (demoNet [7] [66] demoVoucherText []) Heap.empty) = some (some (some [8]), 2) :=
  ⟨demo_same, demo_run⟩

end Brski.Props
