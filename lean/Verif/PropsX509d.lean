import Verif.PropsX509c
import Verif.PropsDeploy2

/-!
# C87: the contents of the certificate with which a pledge leaves enrolment

The servers and the pledge see certificates as opaque objects (`Crypto.Ossl`, `Server.Ca`).  `Reflects` connects them with their
contents.
-/

namespace Brski.Props
open Outcome Brski.Voucher VoucherJson Crypto BoolTime Request Base64 Brski.Spec Server Pledge Routes Wire Tls Deploy

/-- The functions on opaque certificates do to the contents what `crypto_sign_cert` does (specification of
/repo/src/voucher/crypto_ossl.c:962-976,1135-1170; precondition on the library). -/
structure Reflects (O : Ossl) (A : Ca O) (L : X509.Lib) (view : O.Cert → X509.Cert L.Pub L.Sig) (keyOf : O.Key → L.Key) : Prop where
  reads : ∀ b c, O.d2iX509 b = some c → L.d2i b = some (view c)
  writes : ∀ c b, O.i2dX509 c = some b → L.i2d (view c) = some b
  names : ∀ x c y, A.setIssuer x c = some y → (view y).tbs = { (view x).tbs with issuer := (view c).tbs.subject }
  signs : ∀ y k z, A.sign y k = some z → X509.signSha L (view y) (keyOf k) = some (view z)

/-- **C87**, the endpoint: the certificate the registrar issues has the contents of the submitted one, the subject of the CA as
issuer, and a signature that the CA's key verifies. -/
theorem C87_endpoint {O : Ossl} {e : EnrollEnv O} {L : X509.Lib} {view : O.Cert → X509.Cert L.Pub L.Sig} {keyOf : O.Key → L.Key}
    (hr : Reflects O e.ca L view keyOf) {c : Bytes} {ca x y z : O.Cert} {k : O.Key} {der : Bytes} (h : IssuedCert O e c ca x y z k der) :
    L.d2i c = some (view x) ∧ L.i2d (view z) = some der ∧ IssuedFor L (view ca) (view x) (view z) (keyOf k) := by
  have h1 := hr.names _ _ _ h.hnamed
  obtain ⟨s, -, e2, e3⟩ := signSha_some.1 (hr.signs _ _ _ h.hsigned)
  have h2 : (view z).tbs = { (view x).tbs with issuer := (view ca).tbs.subject } := by rw [e3, ← h1]
  refine ⟨hr.reads _ _ h.hsubmitted, hr.writes _ _ h.hder, ?_⟩
  refine ⟨by rw [h2], by rw [h2], ⟨by rw [h2], by rw [h2]⟩, by rw [h2], by rw [h2], by rw [h2], by rw [h2], s, by rw [e3], ?_⟩
  rw [e3]
  exact e2

/-- The contents of the certificate of an enrolled pledge (specification; RFC 8995 section 5.9 leaves them to the domain): a
certificate of version 3 for the returned key, that is no CA, does not end, and is signed by the CA. -/
structure EnrolledFor (L : X509.Lib) (key : Bytes) (serial : Nat) (name : Bytes) (issuer : List Names.Entry) (caPub : L.Pub)
    (x : X509.Cert L.Pub L.Sig) : Prop where
  version : x.tbs.version = 2
  serial : x.tbs.serial = serial
  ends : L.time (str "99991231235959Z") = some x.tbs.notAfter
  subject : NamedBy L [(some (str "C"), some (str "IE")), (some (str "CN"), some (str "ldevid-cert")), (some (str "serialNumber"), some name)]
    x.tbs.subject
  issuer : x.tbs.issuer = issuer
  exts : ∃ v, L.constraints (str "CA:false") = some v ∧ x.tbs.exts = [(87, v)]
  pub : ∃ k, L.ecKey key = some k ∧ x.tbs.pub = some (L.pub k)
  signed : ∃ s, x.sig = some s ∧ L.verify caPub x.tbs s = true

/-- What a pledge submits. -/
theorem generated_contents (L : X509.Lib) (ge : X509.GenEnv) (hg : Generator ge.rng) (hb : ge.rands.length = 17) (key cert : Bytes)
    (h : X509.generate L ge = .ok (some (some key, some cert))) :
    ∃ r k t s, ge.rng 8 = some r ∧ L.ecKey key = some k ∧ L.i2d ⟨t, some s⟩ = some cert ∧
      Carries L (X509.pledgeMeta (X509.genRand64 ge.rnd ge.time) ((hexText true r).take 15)) ge.now k t := by
  rcases generate_inv L ge hg hb with h0 | ⟨r, h1, h2, h0⟩
  · rw [h0] at h; cases h
  · rw [h0] at h
    simp only [Outcome.ok.injEq, Option.some.injEq, Prod.mk.injEq] at h
    obtain ⟨h3, h4⟩ := h
    rw [h3, Option.bind_some] at h4
    obtain ⟨k, t, s, hk, hc, -, hd⟩ := C85_contents L _ _ _ _ _ _ h4
    exact ⟨r, k, t, s, h1, hk, hd, hc⟩

/-- **C87**, end to end: between matching parties, the pledge leaves with the encoding of a certificate for the key returned beside
it, with its own name and number, that is no CA and that is issued and signed by the CA of the registrar. -/
theorem C87_enrolled {O : Ossl} (hsm : Small O) {L : Lib} {e : PledgeEnv} {g : Gen} {D : Site O L} {serial : Bytes}
    {nonce : Option Bytes} {pin : Bytes} (h : Matching e D serial nonce pin) {key cert crt : Bytes} {ca x y z : O.Cert} {k : O.Key}
    (hg : Enrolling g D pin key cert ca x y z k crt) {H : Heap} (hw : H.Wf) {C : X509.Lib} {view : O.Cert → X509.Cert C.Pub C.Sig}
    {keyOf : O.Key → C.Key} (hr : Reflects O D.enr.ca C view keyOf) (hf : CertFaithful C) {ge : X509.GenEnv} (hgen : Generator ge.rng)
    (hb : ge.rands.length = 17) (hmade : X509.generate C ge = .ok (some (some key, some cert))) :
    ∃ sent H' p q r out, postSignCert O e g (netOf D) H = .ok ⟨H', some (p, q), sent⟩ ∧ H'.blk p = some crt ∧ H'.blk q = some key ∧
      C.d2i crt = some out ∧ ge.rng 8 = some r ∧
      EnrolledFor C key (X509.genRand64 ge.rnd ge.time) ((hexText true r).take 15) (view ca).tbs.subject (C.pub (keyOf k)) out := by
  obtain ⟨request, H', p, q, h1, h2, h3, -⟩ := C84_enrolled hsm h hg hw
  obtain ⟨r, kk, t, s, e1, e2, e3, e4⟩ := generated_contents C ge hgen hb key cert hmade
  obtain ⟨f1, f2, f3⟩ := C87_endpoint hr hg.issued
  have hx : view x = ⟨t, some s⟩ := Option.some.inj (f1.symm.trans (hf _ _ e3))
  rw [hx] at f3
  refine ⟨_, H', p, q, r, view z, h1, h2, h3, hf _ _ f2, e1, ⟨f3.version.trans e4.version, f3.serial.trans e4.serial, ?_, ?_, f3.issuer, ?_,
    ⟨kk, e2, f3.pub.trans e4.pub⟩, f3.signed⟩⟩
  · rcases e4.ends with ⟨a, a1, -, a2⟩ | ⟨a1, -⟩
    · cases a1
      rw [f3.dates.2, ← a2, cstr_same (by decide +kernel)]
    · cases a1
  · rw [f3.subject]
    exact e4.subject
  · rcases e4.exts with ⟨a1, -⟩ | ⟨c, v, a1, a2, a3⟩
    · cases a1
    · cases a1
      rw [cstr_same (by decide +kernel)] at a2
      exact ⟨v, a2, f3.exts.trans a3⟩

/-! ## An instance -/

/-- The contents of the certificates of the instance: 1 is the CA, 5 what the pledge submits, 7 the same with the name of the CA,
8 what is issued. -/
def demoView (c : UInt8) : X509.Cert Nat Nat :=
  let mine : X509.Tbs Nat := { pledgeCert.tbs with pub := some 6 }
  if c = 1 then ⟨⟨2, 1, 0, 100, [], [⟨13, some (str "ca")⟩], [], some 1⟩, some 1⟩
  else if c = 5 then ⟨mine, some 6⟩
  else if c = 7 then ⟨{ mine with issuer := [⟨13, some (str "ca")⟩] }, none⟩
  else if c = 8 then ⟨{ mine with issuer := [⟨13, some (str "ca")⟩] }, some 1⟩
  else ⟨⟨0, c.toNat, 0, 0, [], [], [], none⟩, none⟩

/-- The library of the instance. -/
def demoX509 : X509.Lib :=
  { certPair pledgeCert pledgeCert with
    ecKey := fun b => match b with | [k] => some k.toNat | _ => none
    anyKey := fun b => match b with | [k] => some k.toNat | _ => none
    i2d := fun x => ((List.range 256).find? fun n => demoView (UInt8.ofNat n) == x).map fun n => [UInt8.ofNat n]
    d2i := fun b => match b with | [c] => some (demoView c) | _ => none }

/-- The deployment, with a CA that signs this certificate only. -/
def demoSite7 : Site toy demoLib :=
  let ca : Ca toy := ⟨fun (x c : UInt8) => if x = 5 ∧ c = 1 then some (7 : UInt8) else none,
    fun (y k : UInt8) => if y = 7 ∧ k = 1 then some (8 : UInt8) else none⟩
  { demoSite with enr := { demoSite.enr with ca := ca } }

/-- The clock and the generators of the pledge of the instance. -/
def demoGenEnv : X509.GenEnv := { pledgeAt [1, 2, 3, 4, 5, 6, 7, 8] with key := some [6] }

theorem demoX509_writes (c : UInt8) : demoX509.i2d (demoView c) = some [c] := by
  have h : ∀ n : Fin 256, demoX509.i2d (demoView (UInt8.ofNat n.val)) = some [UInt8.ofNat n.val] := by decide +kernel
  have := h ⟨c.toNat, c.toNat_lt⟩
  simpa using this

theorem demoX509_faithful : CertFaithful demoX509 := by
  intro x der h
  obtain ⟨n, h1, h2⟩ := Option.map_eq_some_iff.1 h
  have h3 := List.find?_some h1
  subst h2
  exact congrArg some (eq_of_beq (α := X509.Cert Nat Nat) h3)

theorem demo_reflects : Reflects toy demoSite7.enr.ca demoX509 demoView (fun k : UInt8 => k.toNat) where
  reads := by
    intro b c h
    match b, h with
    | [_], h => cases h; rfl
  writes := by
    intro c b h
    cases h
    exact demoX509_writes c
  names := by
    intro x c y h
    simp only [demoSite7] at h
    split at h
    · next e => obtain ⟨rfl, rfl⟩ := e; cases h; rfl
    · cases h
  signs := by
    intro y k z h
    simp only [demoSite7] at h
    split at h
    · next e => obtain ⟨rfl, rfl⟩ := e; cases h; rfl
    · cases h

/-- Non-vacuity of C87_enrolled and C87_endpoint. -/
example : ∃ sent H' p q out, postSignCert toy demoPledge demoGen5 (netOf demoSite7) Heap.empty = .ok ⟨H', some (p, q), sent⟩ ∧
    H'.blk p = some [8] ∧ H'.blk q = some [6] ∧ demoX509.d2i [8] = some out ∧ out.tbs.pub = some (6 : Nat) := by
  have hm : Matching demoPledge demoSite7 (str "S1") (some [1]) [8] := { demo_matching with }
  have he : Enrolling demoGen5 demoSite7 [8] [6] [5] (1 : UInt8) (5 : UInt8) (7 : UInt8) (8 : UInt8) (1 : UInt8) [8] :=
    { demo_enrolling with issued := ⟨⟨[1], rfl, rfl⟩, ⟨[1], rfl, rfl⟩, rfl, rfl, rfl, rfl⟩ }
  obtain ⟨sent, H', p, q, r, out, h1, h2, h3, h4, -, h5⟩ := C87_enrolled toy_small hm he Heap.wf_empty demo_reflects demoX509_faithful
    (ge := demoGenEnv) (pledgeAt_generator (r := [1, 2, 3, 4, 5, 6, 7, 8]) rfl) rfl (by decide +kernel)
  obtain ⟨k, k1, k2⟩ := h5.pub
  cases k1
  exact ⟨sent, H', p, q, out, h1, h2, h3, h4, k2⟩

end Brski.Props
