import Verif.RequestLemmas

/-!
# C26 to C34, C37, C38: requests, vouchers and trust decisions
-/

namespace Brski.Props
open Outcome Brski.Voucher VoucherJson Crypto BoolTime Spec Request

/-! ## A small concrete signature scheme, for instances

A certificate or key is one byte; a message is the certificate of its signer followed by the text;
signing works with the key equal to the certificate; a signer is trusted when it is in the store. -/

/-- The scheme (an instance of the OpenSSL interface used at
/repo/src/voucher/crypto_ossl.c:127-1694). -/
def toy : Ossl where
  Cms := UInt8 × Bytes
  Cert := UInt8
  Crl := Unit
  Key := UInt8
  d2iCms := fun
    | [] => none
    | c :: t => some (c, t)
  d2iX509 := fun
    | [c] => some c
    | _ => none
  i2dX509 := fun c => some [c]
  d2iCrl := fun _ => none
  d2iKey := fun
    | [c] => some c
    | _ => none
  sigOk := fun _ _ => true
  trustOk := fun m _ st => decide (m.1 ∈ st.1)
  content := fun m => m.2.take (2 ^ 31 - 1)
  signers := fun m => [m.1]
  buildChain := fun x _ st => match st with
    | none => [x]
    | some st => if x ∈ st.1 then [x] else []
  cmsSign := fun c k _ t => if c = k ∧ t.length < 2 ^ 31 then some (c :: t) else none

theorem toy_small : Small toy := by
  intro m
  show (List.take _ _).length < _
  rw [List.length_take]
  omega

/-- What was signed is what a reader of the message finds in it (documented behaviour of
`CMS_sign`; used at /repo/src/voucher/crypto_ossl.c:1358-1425). -/
def Faithful (O : Ossl) : Prop :=
  ∀ x k cs t der, O.cmsSign x k cs t = some der → ∃ m, O.d2iCms der = some m ∧ O.content m = t

theorem toy_faithful : Faithful toy := by
  intro x k cs t der h
  simp only [toy] at h
  split at h
  · rename_i hc
    cases h
    refine ⟨(x, t), rfl, ?_⟩
    show t.take _ = t
    exact List.take_of_length_le (by omega)
  · cases h

/-! ## C26 -/

/-- The voucher a pledge request has to hold (specification for
/repo/src/voucher/request.c:20-98; RFC 8995 section 5.2). -/
def pledgeVoucher (t : Tm) (serial : Bytes) (nonce : Option BinArr) (registrar : Bytes) : Voucher :=
  { Voucher.init with
    createdOn := t, assertion := 3, serial := some serial, nonce := nonce.getD .empty,
    proximity := .of registrar }

theorem init_wf : VoucherOk Voucher.init := voucherOk_init

theorem pledgeVoucher_ok {t : Tm} {s r : Bytes} {nonce : Option BinArr} (hn : ArgWf nonce)
    (h0 : (0 : UInt8) ∉ s) (hl : s.length ≤ 127) : VoucherOk (pledgeVoucher t s nonce r) := by
  refine ⟨⟨fun n h => ?_, fun x h => ?_⟩, rfl, rfl, ?_, rfl, rfl⟩
  · cases h; exact .inr (.inr (.inr rfl))
  · cases h; exact ⟨by omega, h0⟩
  · cases nonce with
    | none => rfl
    | some n => exact hn n rfl

/-- What a pledge request call leads to: nothing, or signing exactly the specified voucher. -/
theorem pledge_cases (O : Ossl) (rt : Rt) (t : Tm) (serial : Option Bytes)
    (nonce reg cert key : Option BinArr) (add : Option CertList) (hs : strOk serial)
    (hn : ArgWf nonce) (hr : ArgWf reg) :
    signPledgeVoucherRequest O rt (some t) serial nonce reg cert key add = .ok none ∨
    ∃ s r, serial = some s ∧ s.length ≤ 127 ∧ reg = some (.of r) ∧
      (∀ n, nonce = some n → ∃ b, n = .of b) ∧
      signPledgeVoucherRequest O rt (some t) serial nonce reg cert key add =
        signCmsVoucher O (rt.json 0) (pledgeVoucher t s nonce r) cert key add := by
  unfold signPledgeVoucherRequest
  split
  · rw [setOr_true (set_created _ _ _)]
    rcases setNonce_cases (rt.mem 1) { Voucher.init with createdOn := t } nonce hn with ⟨rfl, e⟩ | ⟨hob, hset⟩
    · exact .inl (setOr_fail e)
    · rcases setOr_sets hset (k := fun v =>
        setOr (setVa (rt.mem 2) v .assertion (.int 3)) fun v =>
        setOr (setVa (rt.mem 3) v .proximityCert (.array reg)) fun v =>
        setOr (setVa (rt.mem 4) v .serialNumber (.str serial)) fun v =>
        signCmsVoucher O (rt.json 0) v cert key add) with e | e
      · exact .inl e
      · rw [e, setOr_true (set_assertion _ _)]
        have hrc : (∀ y, reg = some y → y = .empty) ∨ ∃ r, reg = some (.of r) := by
          cases reg with
          | none => exact .inl fun y h => by cases h
          | some y =>
            rcases wf_cases (hr y rfl) with rfl | ⟨r, rfl⟩
            · exact .inl fun y h => by cases h; rfl
            · exact .inr ⟨r, rfl⟩
        rcases hrc with hrc | ⟨r, rfl⟩
        · left
          exact setOr_fail (array_refused _ _ _ (by simp) _ hrc)
        · rcases setOr_sets (sets_proximity (rt.mem 3) _ r) (k := fun v =>
            setOr (setVa (rt.mem 4) v .serialNumber (.str serial)) fun v =>
            signCmsVoucher O (rt.json 0) v cert key add) with e | e
          · exact .inl e
          · rw [e]
            cases serial with
            | none => exact .inl (setOr_fail rfl)
            | some s =>
              by_cases hl : s.length ≤ 127
              · rcases setOr_sets (setStr_sets (rt.mem 4) _ s (hs s rfl) hl) (k := fun v =>
                  signCmsVoucher O (rt.json 0) v cert key add) with e | e
                · exact .inl e
                · exact .inr ⟨s, r, rfl, hl, rfl, hob, e⟩
              · exact .inl (setOr_fail (setStr_long _ _ _ (by omega)))
  · exact .inl rfl

/-- **C26** For every combination of arguments within the contract (the time is given, arrays have
their bytes, strings are C strings), every allocation outcome and every signature scheme, the call
is defined and yields either nothing or a signature, made with the given certificate and key, over
the encoding of the voucher with exactly created-on, assertion proximity, the registrar
certificate, the serial number and (iff given) the nonce. -/
theorem C26_pledge_request (O : Ossl) (rt : Rt) (t : Tm) (serial : Option Bytes)
    (nonce reg cert key : Option BinArr) (add : Option CertList) (hs : strOk serial)
    (hn : ArgWf nonce) (hr : ArgWf reg) (hc : ArgWf cert) (hk : ArgWf key) :
    signPledgeVoucherRequest O rt (some t) serial nonce reg cert key add = .ok none ∨
    ∃ s r cms, serial = some s ∧ reg = some (.of r) ∧ (∀ n, nonce = some n → ∃ b, n = .of b) ∧
      SignedVoucher O cert key add (pledgeVoucher t s nonce r) cms ∧
      signPledgeVoucherRequest O rt (some t) serial nonce reg cert key add = .ok (some cms) := by
  rcases pledge_cases O rt t serial nonce reg cert key add hs hn hr with e | ⟨s, r, rfl, hl, rfl, hob, e⟩
  · exact .inl e
  · rcases signCmsVoucher_cases O (rt.json 0) (pledgeVoucher t s nonce r)
      (pledgeVoucher_ok hn (hs s rfl) hl) cert key hc hk add with e' | ⟨cms, h, e'⟩
    · exact .inl (e.trans e')
    · exact .inr ⟨s, r, cms, rfl, rfl, hob, h, e.trans e'⟩

/-- non-vacuity of C26: a request is made. -/
example : signPledgeVoucherRequest toy Rt.plain (some ⟨1, 2, 3, 4, 5, 120, 0, 0, 0⟩) (some (str "S1"))
    (some (.of [9])) (some (.of [7])) (some (.of [3])) (some (.of [3])) none =
    .ok (some (3 :: str "{\"ietf-voucher:voucher\":{\"created-on\":\"2020-06-04T03:02:01Z\",\"assertion\":\"proximity\",\"serial-number\":\"S1\",\"domain-cert-revocation-checks\":false,\"nonce\":\"CQ==\",\"proximity-registrar-cert\":\"Bw==\"}}")) := by
  decide +kernel

/-- No step of the call runs out of memory (/repo/src/utils/os.h:75). -/
structure NoFail (rt : Rt) : Prop where
  json : ∀ k, (rt.json k).NoOom
  mem : ∀ k, NoOom (rt.mem k)
  ok : ∀ i k, rt.ok i k = true

theorem noFail_plain : NoFail Rt.plain := ⟨fun _ => plain_noOom, fun _ => noOom_zero, fun _ _ => rfl⟩

/-- With memory available the pledge request call signs the specified voucher. -/
theorem pledge_full (O : Ossl) (rt : Rt) (hf : NoFail rt) (t : Tm) (s r : Bytes)
    (nonce cert key : Option BinArr) (add : Option CertList) (h0 : (0 : UInt8) ∉ s)
    (hl : s.length ≤ 127) (hn : ∀ n, nonce = some n → ∃ b, n = .of b) :
    signPledgeVoucherRequest O rt (some t) (some s) nonce (some (.of r)) cert key add =
      signCmsVoucher O (rt.json 0) (pledgeVoucher t s nonce r) cert key add := by
  unfold signPledgeVoucherRequest
  rw [if_pos (hf.ok 0 0), setOr_true (set_created _ _ _)]
  rw [setOr_true (setNonce_succ _ (hf.mem 1) _ _ hn), setOr_true (set_assertion _ _),
    setOr_true (succ_proximity _ _ _ (hf.mem 3)), setOr_true (setStr_succ _ (hf.mem 4) _ _ h0 hl)]
  rfl

/-- Signing with everything available. -/
theorem signCmsVoucher_full (O : Ossl) (env : Env) (hal : env.NoOom) (v : Voucher) (hv : VoucherOk v)
    (ht : TimesOk v) (ha : ArraysFull v) (cert key : Bytes) (x : O.Cert) (k : O.Key)
    (add : Option CertList) (cs : List O.Cert) (hx : O.d2iX509 cert = some x)
    (hk : O.d2iKey key = some k) (hcs : Extra O add cs) :
    ∃ text part, Encoded v text ∧ serialize env v = .ok (some text) ∧ Handed text part ∧
      signCmsVoucher O env v (some (.of cert)) (some (.of key)) add = .ok (O.cmsSign x k cs part) := by
  have e := serialize_full env hal v hv ht ha
  rcases serialize_encoded env v hv with e' | ⟨t, he, e'⟩
  · rw [e] at e'; cases e'
  · refine ⟨t, _, he, e', bioWrite_handed t, ?_⟩
    simp only [signCmsVoucher, e', bind'_ok, signCms, signCmsBy]
    rw [if_neg (by simp [BinArr.of]), arrBytes_of, arrBytes_of, bind'_ok, bind'_ok]
    simp only [hk, hx, (optStack_iff O add cs).2 hcs]

/-- **C26**, success: with memory, a real date, a serial number of at most 127 bytes and decodable
certificate and key, the outcome is the outcome of the signature over the encoded voucher. -/
theorem C26_request_is_made (O : Ossl) (rt : Rt) (hf : NoFail rt) (t : Tm) (s r cert key : Bytes)
    (nonce : Option BinArr) (add : Option CertList) (h0 : (0 : UInt8) ∉ s) (hl : s.length ≤ 127)
    (hn : ∀ n, nonce = some n → ∃ b, n = .of b) (ht : TimesOk (pledgeVoucher t s nonce r))
    (ha : ArraysFull (pledgeVoucher t s nonce r)) (x : O.Cert) (k : O.Key) (cs : List O.Cert)
    (hx : O.d2iX509 cert = some x) (hk : O.d2iKey key = some k) (hcs : Extra O add cs) :
    ∃ text part, Encoded (pledgeVoucher t s nonce r) text ∧ Handed text part ∧
      signPledgeVoucherRequest O rt (some t) (some s) nonce (some (.of r)) (some (.of cert))
        (some (.of key)) add = .ok (O.cmsSign x k cs part) := by
  obtain ⟨text, part, h1, -, hh, h2⟩ := signCmsVoucher_full O (rt.json 0) (hf.json 0) _
    (pledgeVoucher_ok (nonce := nonce) (fun n h => by obtain ⟨b, rfl⟩ := hn n h; exact wf_of b) h0 hl)
    ht ha cert key x k add cs hx hk hcs
  exact ⟨text, part, h1, hh, (pledge_full O rt hf t s r nonce _ _ add h0 hl hn).trans h2⟩

/-! ## C27 -/

/-- The voucher a registrar request has to hold for the pledge request `pv`, received as `pcms`
(specification for /repo/src/voucher/request.c:100-245; RFC 8995 section 5.5). -/
def registrarVoucher (t : Tm) (serial : Bytes) (issuer : Bytes) (pcms : Bytes) (pv : Voucher) : Voucher :=
  { Voucher.init with
    createdOn := t, serial := some serial, idevidIssuer := .of issuer, prior := .of pcms,
    nonce := pv.nonce }

/-- The checks a registrar has to make on a pledge request (specification for
/repo/src/voucher/request.c:127-166; RFC 8995 section 5.5). -/
def Vetted (pv : Voucher) (serial registrar : Bytes) : Prop :=
  pv.serial = some serial ∧ Props.content pv.proximity = registrar ∧ pv.assertion = 3

theorem registrarVoucher_ok {t : Tm} {s i c : Bytes} {pv : Voucher} (hv : VoucherOk pv)
    (h0 : (0 : UInt8) ∉ s) (hl : s.length ≤ 127) : VoucherOk (registrarVoucher t s i c pv) := by
  refine ⟨⟨fun n h => ?_, fun x h => ?_⟩, rfl, rfl, hv.2.2.2.1, rfl, rfl⟩
  · cases h; exact .inl rfl
  · cases h; exact ⟨by omega, h0⟩

theorem serial_ok {v : Voucher} (hv : VoucherOk v) {s : Bytes} (h : v.serial = some s) :
    (0 : UInt8) ∉ s ∧ s.length ≤ 127 := by
  have := hv.1.2 s (by rw [getStr, h])
  exact ⟨this.2, by omega⟩

/-- Forwarding the nonce of the pledge request. -/
theorem forward_cases (al : Allocator) (v : Voucher) (hv0 : v.nonce = .empty) (pv : Voucher)
    (hv : VoucherOk pv) :
    Sets (forwardNonce al v pv) { v with nonce := pv.nonce } ∧
    (NoOom al → forwardNonce al v pv = .ok ({ v with nonce := pv.nonce }, true)) := by
  obtain ⟨c, e, a, s, i, p, r, n, lr, pr, px⟩ := pv
  have hn : BinArr.Wf n := hv.2.2.2.1
  clear hv
  simp only [forwardNonce, attrNonempty, getArray]
  rcases wf_cases hn with rfl | ⟨b, rfl⟩
  · simp only [nonempty_empty, Bool.false_eq_true, if_false]
    have : { v with nonce := .empty } = v := by cases v; simp only at hv0; subst hv0; rfl
    rw [this]
    exact ⟨.inl rfl, fun _ => rfl⟩
  · simp only [nonempty_of, if_true]
    exact ⟨sets_nonce al v b, fun hal => succ_nonce al v b hal⟩

theorem compare_one {x y : BinArr} (hx : BinArr.Wf x) (hy : BinArr.Wf y) :
    ∃ e, compareBinaryArray (some x) (some y) = .ok e ∧ (e < 1 ↔ Props.content x ≠ Props.content y) := by
  refine ⟨_, C25_compare x y hx hy, ?_⟩
  split
  · rename_i h; simp [h]
  · rename_i h; simp [h]

/-- The registrar's call after the pledge request was accepted as `pv`: nothing, undefined when
there is no serial number, or the specified voucher is signed. -/
theorem registrar_rest (O : Ossl) (rt : Rt) (pcms : BinArr) (hpw : BinArr.Wf pcms) (t : Tm) (serial : Bytes)
    (issuer reg : BinArr) (cert key : Option BinArr) (add : Option CertList) (h0 : (0 : UInt8) ∉ serial)
    (hi : BinArr.Wf issuer) (hr : BinArr.Wf reg) (pv : Voucher) (hv : VoucherOk pv) (F : Outcome (Option Bytes))
    (hF : F = registrarRequest O rt pv (some pcms) (some t) serial issuer (some reg) cert key add) :
    (pv.serial = none ∧ F = .ub) ∨ (pv.serial ≠ none ∧ F = .ok none) ∨
    ∃ i c, issuer = .of i ∧ pcms = .of c ∧ Vetted pv serial (Props.content reg) ∧
      F = signCmsVoucher O (rt.json 1) (registrarVoucher t serial i c pv) cert key add := by
  unfold registrarRequest at hF
  cases hs : pv.serial with
  | none => left; rw [getStr, hs] at hF; exact ⟨rfl, hF⟩
  | some s =>
    right
    rw [getStr, hs] at hF
    simp only at hF
    by_cases he : s = serial
    · subst he
      rw [if_neg (by simp)] at hF
      obtain ⟨e, e1, e2⟩ := compare_one hv.2.2.2.2.2 hr
      simp only [getArray, e1, bind'_ok] at hF
      by_cases hp : Props.content pv.proximity = Props.content reg
      · rw [if_neg (by rw [e2]; simp [hp])] at hF
        simp only [getEnum] at hF
        by_cases ha : pv.assertion = 3
        · rw [if_neg (by simp [ha])] at hF
          by_cases hk : rt.ok 1 0 = true
          · rw [if_pos hk, setOr_true (set_created _ _ _)] at hF
            have hfw := (forward_cases (rt.mem 1) { Voucher.init with createdOn := t } rfl pv hv).1
            rcases setOr_sets hfw (k := fun v =>
                setOr (setVa (rt.mem 2) v .serialNumber (.str (some s))) fun v =>
                setOr (setVa (rt.mem 3) v .idevidIssuer (.array (some issuer))) fun v =>
                setOr (setVa (rt.mem 4) v .priorSigned (.array (some pcms))) fun v =>
                signCmsVoucher O (rt.json 1) v cert key add) with e | e
            · exact .inl ⟨by simp, hF.trans e⟩
            · have hF := hF.trans e
              rcases setOr_sets (setStr_sets (rt.mem 2) _ s h0 (serial_ok hv hs).2) (k := fun v =>
                setOr (setVa (rt.mem 3) v .idevidIssuer (.array (some issuer))) fun v =>
                setOr (setVa (rt.mem 4) v .priorSigned (.array (some pcms))) fun v =>
                signCmsVoucher O (rt.json 1) v cert key add) with e | e
              · exact .inl ⟨by simp, hF.trans e⟩
              · have hF := hF.trans e
                rcases wf_cases hi with rfl | ⟨i, rfl⟩
                · exact .inl ⟨by simp, hF.trans (setOr_fail (array_refused _ _ _ (by simp) _ fun y h => by cases h; rfl))⟩
                · rcases setOr_sets (sets_issuer (rt.mem 3) _ i) (k := fun v =>
                    setOr (setVa (rt.mem 4) v .priorSigned (.array (some pcms))) fun v =>
                    signCmsVoucher O (rt.json 1) v cert key add) with e | e
                  · exact .inl ⟨by simp, hF.trans e⟩
                  · have hF := hF.trans e
                    rcases wf_cases hpw with rfl | ⟨c, rfl⟩
                    · exact .inl ⟨by simp, hF.trans (setOr_fail (array_refused _ _ _ (by simp) _ fun y h => by cases h; rfl))⟩
                    · rcases setOr_sets (sets_prior (rt.mem 4) _ c) (k := fun v =>
                        signCmsVoucher O (rt.json 1) v cert key add) with e | e
                      · exact .inl ⟨by simp, hF.trans e⟩
                      · exact .inr ⟨i, c, rfl, rfl, ⟨hs, hp, ha⟩, hF.trans e⟩
          · rw [if_neg hk] at hF
            exact .inl ⟨by simp, hF⟩
        · rw [if_pos ha] at hF
          exact .inl ⟨by simp, hF⟩
      · rw [if_pos (e2.2 hp)] at hF
        exact .inl ⟨by simp, hF⟩
    · rw [if_pos he] at hF
      exact .inl ⟨by simp, hF⟩

/-- **C27** Whenever the registrar produces a voucher request, the pledge CMS passed verification,
its serial number is the given one, its proximity certificate equals the registrar TLS certificate
and it asserts proximity; the request is a signature over exactly created-on, the given serial
number and issuer, the unmodified pledge CMS and the pledge nonce (iff present).  For every
allocation outcome, every verification scheme and all arguments within the contract. -/
theorem C27_vetting (O : Ossl) (hsm : Small O) (rt : Rt) (pledgeCms : Option BinArr) (t : Tm)
    (serial : Option Bytes) (issuer reg cert key : Option BinArr)
    (certs store add : Option CertList) (hp : ArgWf pledgeCms) (hs : strOk serial) (hi : ArgWf issuer)
    (hr : ArgWf reg) (hc : ArgWf cert) (hk : ArgWf key) (cms : Bytes)
    (h : signVoucherRequest O rt pledgeCms (some t) serial issuer reg cert key certs store add = .ok (some cms)) :
    ∃ s i r c text pv, serial = some s ∧ issuer = some (.of i) ∧ reg = some r ∧ pledgeCms = some (.of c) ∧
      Authentic O certs store c text ∧ Reads (rt.json 0) text pv ∧ Vetted pv s (Props.content r) ∧
      SignedVoucher O cert key add (registrarVoucher t s i c pv) cms := by
  unfold signVoucherRequest at h
  cases serial with
  | none => cases h
  | some serial =>
    cases issuer with
    | none => cases h
    | some issuer =>
      simp only at h
      cases hv : verifyCmsVoucher O (rt.json 0) (rt.ok 0) pledgeCms certs store false with
      | ub => rw [hv] at h; cases h
      | ok q =>
        rw [hv, bind'_ok] at h
        cases q with
        | none => cases h
        | some q =>
          obtain ⟨pv, l⟩ := q
          obtain ⟨x, text, rfl, hA, hR, hok, -⟩ := verifyCmsVoucher_sound O hsm (rt.json 0) (rt.ok 0) pledgeCms hp
            certs store false pv l hv
          simp only at h
          cases reg with
          | none =>
            exfalso
            cases hs' : pv.serial with
            | none => rw [registrarRequest, getStr, hs'] at h; cases h
            | some s' =>
              rw [registrarRequest, getStr, hs'] at h
              simp only [getArray, compareBinaryArray, bind'_ok] at h
              split at h
              · cases h
              · cases h
          | some r =>
            rcases registrar_rest O rt x (hp x rfl) t serial issuer r cert key add (hs _ rfl)
              (hi _ rfl) (hr _ rfl) pv hok _ rfl with ⟨-, e⟩ | ⟨-, e⟩ | ⟨i, c, rfl, rfl, hvet, e⟩
            · exact absurd (h.symm.trans e) (by simp)
            · exact absurd (h.symm.trans e) (by simp)
            · have h := h.symm.trans e
              rcases signCmsVoucher_cases O (rt.json 1) _ (registrarVoucher_ok (t := t) (i := i) (c := c) hok
                (hs _ rfl) (serial_ok hok hvet.1).2) cert key hc hk add with e' | ⟨cms', hsg, e'⟩
              · rw [e'] at h; cases h
              · rw [e'] at h
                cases h
                exact ⟨serial, i, r, c, text, pv, rfl, rfl, rfl, rfl, hA, hR, hvet, hsg⟩

/-- **C27**, definedness: when the voucher can be allocated, the call is undefined only for an
accepted pledge request without serial number (see C28). -/
theorem C27_defined (O : Ossl) (hsm : Small O) (rt : Rt) (hal : Alloc (rt.json 0))
    (pledgeCms : Option BinArr) (t : Tm) (serial : Option Bytes) (issuer reg cert key : Option BinArr)
    (certs store add : Option CertList) (hp : ArgWf pledgeCms) (hs : strOk serial) (hi : ArgWf issuer)
    (hr : ArgWf reg) (hc : ArgWf cert) (hk : ArgWf key)
    (hser : ∀ c text pv, pledgeCms = some c → Authentic O certs store (Props.content c) text → Reads (rt.json 0) text pv →
      pv.serial ≠ none) :
    (signVoucherRequest O rt pledgeCms (some t) serial issuer reg cert key certs store add).Defined := by
  unfold signVoucherRequest
  cases serial with
  | none => exact ⟨_, rfl⟩
  | some serial =>
    cases issuer with
    | none => exact ⟨_, rfl⟩
    | some issuer =>
      simp only
      rcases verifyCmsVoucher_cases O hsm (rt.json 0) hal (rt.ok 0) pledgeCms hp certs store false with
        e | ⟨x, text, pv, l, rfl, hA, hR, hok, -, e⟩
      · rw [e]; exact ⟨_, rfl⟩
      · rw [e, bind'_ok]
        have hne := hser x text pv rfl hA hR
        simp only
        cases reg with
        | none =>
          cases hs' : pv.serial with
          | none => exact absurd hs' hne
          | some s' =>
            rw [registrarRequest, getStr, hs']
            simp only [getArray, compareBinaryArray, bind'_ok]
            split
            · exact ⟨_, rfl⟩
            · exact ⟨_, rfl⟩
        | some r =>
          rcases registrar_rest O rt x (hp x rfl) t serial issuer r cert key add (hs _ rfl)
            (hi _ rfl) (hr _ rfl) pv hok _ rfl with ⟨e, -⟩ | ⟨-, e⟩ | ⟨i, c, rfl, rfl, hvet, e⟩
          · exact absurd e hne
          · exact ⟨_, e⟩
          · rcases signCmsVoucher_cases O (rt.json 1) _ (registrarVoucher_ok (t := t) (i := i) (c := c) hok
              (hs _ rfl) (serial_ok hok hvet.1).2) cert key hc hk add with e' | ⟨cms', hsg, e'⟩
            · exact ⟨_, e.trans e'⟩
            · exact ⟨_, e.trans e'⟩

/-- A pledge request for instances: the text signed by pledge 3 with serial `S1`, proximity
certificate 7 and nonce 9. -/
def demoPledgeCms : Bytes :=
  3 :: str "{\"ietf-voucher:voucher\":{\"assertion\":\"proximity\",\"serial-number\":\"S1\",\"nonce\":\"CQ==\",\"proximity-registrar-cert\":\"Bw==\"}}"

/-- non-vacuity of C27: a request is produced. -/
example : (signVoucherRequest toy Rt.plain (some (.of demoPledgeCms)) (some ⟨1, 2, 3, 4, 5, 120, 0, 0, 0⟩)
    (some (str "S1")) (some (.of [5])) (some (.of [7])) (some (.of [7])) (some (.of [7])) none
    (some [([3], 0)]) none).bind (fun r => .ok r.isSome) = .ok true := by decide +kernel

/-- The registrar's call when the pledge request is accepted as `pv`. -/
theorem registrar_full (O : Ossl) (rt : Rt) (hf : NoFail rt) (c i r serial : Bytes) (t : Tm)
    (cert key : Option BinArr) (certs store add : Option CertList) (pv : Voucher) (l : Option CertList)
    (hv : verifyCmsVoucher O (rt.json 0) (rt.ok 0) (some (.of c)) certs store false = .ok (some (pv, l)))
    (hok : VoucherOk pv) (hvet : Vetted pv serial r) :
    signVoucherRequest O rt (some (.of c)) (some t) (some serial) (some (.of i)) (some (.of r)) cert key
      certs store add = signCmsVoucher O (rt.json 1) (registrarVoucher t serial i c pv) cert key add := by
  obtain ⟨h1, h2, h3⟩ := hvet
  unfold signVoucherRequest
  simp only [hv, bind'_ok, registrarRequest, getStr, h1, ne_eq, not_true, if_false]
  obtain ⟨e, e1, e2⟩ := compare_one hok.2.2.2.2.2 (wf_of r)
  simp only [getArray, e1, bind'_ok]
  rw [if_neg (by rw [e2, h2]; simp [Props.content, BinArr.of])]
  simp only [getEnum, h3, not_true, if_false]
  rw [if_pos (hf.ok 1 0), setOr_true (set_created _ _ _)]
  have hfw := (forward_cases (rt.mem 1) { Voucher.init with createdOn := t } rfl pv hok).2 (hf.mem 1)
  rw [setOr_true hfw, setOr_true (setStr_succ _ (hf.mem 2) _ _ (serial_ok hok h1).1 (serial_ok hok h1).2),
    setOr_true (succ_issuer _ _ _ (hf.mem 3)), setOr_true (succ_prior _ _ _ (hf.mem 4))]
  rfl

/-! ## C28 -/

/-- **C28** as stated: a pledge request that verifies but has no serial number is refused. -/
def C28_statement : Prop :=
  ∀ (O : Ossl) (rt : Rt) (c i r serial text : Bytes) (t : Tm) (cert key : Option BinArr)
    (certs store add : Option CertList) (pv : Voucher), Small O → NoFail rt →
    Authentic O certs store c text → text ≠ [] → deserialize (rt.json 0) text = .ok (some pv) →
    pv.serial = none →
    signVoucherRequest O rt (some (.of c)) (some t) (some serial) (some (.of i)) (some (.of r)) cert key
      certs store add = .ok none

/-- With memory available a message that passes the check and parses is accepted. -/
theorem verifyCmsVoucher_full (O : Ossl) (env : Env) (ok : Nat → Bool) (hok : ∀ k, ok k = true)
    (c text : Bytes) (certs store : Option CertList) (v : Voucher) (hA : Authentic O certs store c text)
    (hne : text ≠ []) (hd : deserialize env text = .ok (some v)) :
    verifyCmsVoucher O env ok (some (.of c)) certs store false = .ok (some (v, none)) := by
  simp only [verifyCmsVoucher, verifyCms_complete O ok hok c text certs store hA, bind'_ok, if_neg hne, hd,
    Option.map_some]

theorem verifyCmsVoucher_full_out (O : Ossl) (env : Env) (ok : Nat → Bool) (hok : ∀ k, ok k = true)
    (c text : Bytes) (certs store out : Option CertList) (v : Voucher) (hA : Authentic O certs store c text)
    (hne : text ≠ []) (hd : deserialize env text = .ok (some v)) (hs : SignersOf O c out) :
    verifyCmsVoucher O env ok (some (.of c)) certs store true = .ok (some (v, out)) := by
  simp only [verifyCmsVoucher, verifyCms_complete_out O ok hok c text certs store out hA hs, bind'_ok,
    if_neg hne, hd, Option.map_some]

/-- In fact *every* such request makes the registrar call `strcmp` with a NULL pointer
(/repo/src/voucher/request.c:129-137). -/
theorem C28_always_undefined (O : Ossl) (rt : Rt) (c i r serial text : Bytes) (t : Tm)
    (cert key : Option BinArr) (certs store add : Option CertList) (pv : Voucher) (hf : NoFail rt)
    (hA : Authentic O certs store c text) (hne : text ≠ [])
    (hd : deserialize (rt.json 0) text = .ok (some pv)) (hser : pv.serial = none) :
    signVoucherRequest O rt (some (.of c)) (some t) (some serial) (some (.of i)) (some (.of r)) cert key
      certs store add = .ub := by
  unfold signVoucherRequest
  simp only [verifyCmsVoucher_full O (rt.json 0) (rt.ok 0) (hf.ok 0) c text certs store pv hA hne hd, bind'_ok,
    registrarRequest, getStr, hser]

/-- A signed pledge request without serial number, for instances. -/
def noSerialText : Bytes := str "{\"ietf-voucher:voucher\":{\"assertion\":\"proximity\"}}"

theorem noSerial_authentic : Authentic toy none (some [([3], 0)]) (3 :: noSerialText) noSerialText := by
  refine ⟨(3, noSerialText), rfl, ?_, [], rfl, rfl, fun l h => ?_⟩
  · show noSerialText.take _ = _
    exact List.take_of_length_le (by decide)
  · cases h
    exact ⟨[(3 : UInt8)], [], .cert rfl .nil, by decide⟩

theorem noSerial_reads : deserialize Env.plain noSerialText = .ok (some { Voucher.init with assertion := 3 }) := by
  decide +kernel

/-- The code violates C28. -/
theorem C28_violated : ¬ C28_statement := by
  intro h
  have h1 := h toy Rt.plain (3 :: noSerialText) [5] [7] (str "S1") noSerialText Tm.zero none none none
    (some [([3], 0)]) none _ toy_small noFail_plain noSerial_authentic (by decide) noSerial_reads rfl
  have h2 := C28_always_undefined toy Rt.plain (3 :: noSerialText) [5] [7] (str "S1") noSerialText Tm.zero none none
    none (some [([3], 0)]) none _ noFail_plain noSerial_authentic (by decide) noSerial_reads rfl
  rw [h1] at h2
  cases h2

/-- **C28**, the part that holds: no voucher request ever results from a pledge request without
serial number. Missing: the refusal is not a NULL result but undefined behaviour. -/
theorem C28_partial (O : Ossl) (hsm : Small O) (rt : Rt) (c : Bytes) (t : Tm) (serial : Option Bytes)
    (issuer reg cert key : Option BinArr) (certs store add : Option CertList) (hs : strOk serial)
    (hi : ArgWf issuer) (hr : ArgWf reg) (hc : ArgWf cert) (hk : ArgWf key)
    (hser : ∀ text pv, Authentic O certs store c text → Reads (rt.json 0) text pv → pv.serial = none) (cms : Bytes) :
    signVoucherRequest O rt (some (.of c)) (some t) serial issuer reg cert key certs store add ≠
      .ok (some cms) := by
  intro h
  obtain ⟨s, i, r, c', text, pv, -, -, -, e, hA, hR, hv, -⟩ := C27_vetting O hsm rt _ t serial issuer reg cert
    key certs store add (fun y h => by cases h; exact wf_of c) hs hi hr hc hk cms h
  simp only [BinArr.of, Option.some.injEq, BinArr.mk.injEq] at e
  rw [← e.1] at hA
  exact absurd ((hser text pv hA hR).symm.trans hv.1) (by simp)

/-- non-vacuity of C28_partial: the concrete request has no serial number. -/
example : ∀ text pv, Authentic toy none (some [([3], 0)]) (3 :: noSerialText) text →
    Reads (Rt.plain.json 0) text pv → pv.serial = none := by
  intro text pv hA hR
  obtain ⟨m, hm, rfl, -⟩ := hA
  obtain ⟨m', hm', ht', -⟩ := noSerial_authentic
  rw [hm] at hm'
  cases hm'
  rw [ht'] at hR
  have := hR.2.symm.trans noSerial_reads
  cases this
  rfl

end Brski.Props
