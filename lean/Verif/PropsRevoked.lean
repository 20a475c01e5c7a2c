import Verif.PropsExact2
import Verif.PropsConfig

/-!
# C147: revoked certificates

A trust list may contain revocation lists (`CRYPTO_CERTIFICATE_CRL`, /repo/src/voucher/crypto.h:77-82).
-/

namespace Brski.Props
open Outcome Brski.Voucher VoucherJson Crypto BoolTime Spec Request
open DlList (Wf)

/-! ## Specification -/

/-- Documented behaviour of OpenSSL: revocation lists in a store are looked at only if the flag `X509_V_FLAG_CRL_CHECK` is set, which
the code never does (/repo/src/voucher/crypto_ossl.c:1230-1297,1338-1339,1659-1661). -/
def NoCrlCheck (O : Ossl) : Prop :=
  (∀ m cs xs rs rs', O.trustOk m cs (xs, rs) = O.trustOk m cs (xs, rs')) ∧
  (∀ x cs xs rs rs', O.buildChain x cs (some (xs, rs)) = O.buildChain x cs (some (xs, rs')))

/-- One of the revocation lists in a trust list revokes the certificate (specification; `rev` tells which certificates a revocation
list names). -/
def Revoked (O : Ossl) (rev : O.Crl → O.Cert → Prop) (l : CertList) (x : O.Cert) : Prop :=
  ∃ der crl, (der, (1 : Int)) ∈ l ∧ O.d2iCrl der = some crl ∧ rev crl x

/-- **C147** as stated: no message is accepted of whose signers one is revoked by a revocation list in the trust list. -/
def C147_statement : Prop :=
  ∀ (O : Ossl), NoCrlCheck O → ∀ (rev : O.Crl → O.Cert → Prop) (ok : Nat → Bool) (c : Bytes) (certs : Option CertList) (l : CertList)
    (out : Bool) (r : Verified) (m : O.Cms), verifyCms O ok (some (.of c)) certs (some l) out = .ok (some r) → O.d2iCms c = some m →
    ∀ x ∈ O.signers m, ¬ Revoked O rev l x

/-- A trust list without its revocation lists (specification). -/
def withoutCrls (l : CertList) : CertList := l.filter fun e => e.2 ≠ 1

/-- All revocation lists of a trust list can be read (specification). -/
def CrlsReadable (O : Ossl) (l : CertList) : Prop := ∀ e ∈ l, e.2 = 1 → O.d2iCrl e.1 ≠ none

/-! ## Lemmas -/

theorem trust_without {O : Ossl} {l : CertList} {xs : List O.Cert} {rs : List O.Crl} (h : TrustList O l xs rs) :
    TrustList O (withoutCrls l) xs [] ∧ CrlsReadable O l := by
  refine ⟨?_, fun e he h1 => ?_⟩
  · induction h with
    | nil => exact .nil
    | cert h1 _ ih => exact .cert h1 ih
    | crl h1 _ ih => exact ih
  · rcases trust_mem h e he with ⟨h2, -⟩ | ⟨-, h2⟩
    · omega
    · exact h2

theorem trust_with {O : Ossl} : ∀ {l : CertList} {xs : List O.Cert} {rs : List O.Crl}, TrustList O (withoutCrls l) xs rs →
    CrlsReadable O l → ∃ rs', TrustList O l xs rs'
  | [], xs, rs, h, _ => ⟨rs, h⟩
  | (der, f) :: l, xs, rs, h, hr => by
    have hr' : CrlsReadable O l := fun e he => hr e (List.mem_cons_of_mem _ he)
    by_cases hf : f = 1
    · subst hf
      obtain ⟨rs', h'⟩ := trust_with (l := l) (xs := xs) (rs := rs) h hr'
      obtain ⟨crl, hc⟩ := Option.ne_none_iff_exists'.1 (hr (der, 1) List.mem_cons_self rfl)
      exact ⟨_, .crl hc h'⟩
    · have e : withoutCrls ((der, f) :: l) = (der, f) :: withoutCrls l := by
        simp [withoutCrls, hf]
      rw [e] at h
      cases h with
      | cert h1 h2 =>
        obtain ⟨rs', h'⟩ := trust_with h2 hr'
        exact ⟨rs', .cert h1 h'⟩
      | crl h1 h2 => exact absurd rfl hf

theorem trust_crl {O : Ossl} {l : CertList} {xs : List O.Cert} {rs : List O.Crl} (h : TrustList O l xs rs) {der : Bytes} {crl : O.Crl}
    (hm : (der, (1 : Int)) ∈ l) (hc : O.d2iCrl der = some crl) : crl ∈ rs := by
  induction h with
  | nil => cases hm
  | cert _ _ ih =>
    rcases List.mem_cons.1 hm with hm | hm
    · cases hm
    · exact ih hm
  | crl h1 _ ih =>
    rcases List.mem_cons.1 hm with hm | hm
    · cases hm
      rw [h1] at hc
      cases hc
      exact List.mem_cons_self
    · exact List.mem_cons_of_mem _ (ih hm)

/-! ## C147 -/

/-- **C147**, the part that holds: every revocation list in the trust list is handed to the library, so that with a library that looked
at them no message of a revoked signer would be accepted.  Missing: that it looks at them, which takes a flag. -/
theorem C147_partial (O : Ossl) (rev : O.Crl → O.Cert → Prop)
    (hchk : ∀ m cs xs rs, O.trustOk m cs (xs, rs) = true → ∀ x ∈ O.signers m, ∀ crl ∈ rs, ¬ rev crl x)
    (ok : Nat → Bool) (c : Bytes) (certs : Option CertList) (l : CertList) (out : Bool) (r : Verified) (m : O.Cms)
    (h : verifyCms O ok (some (.of c)) certs (some l) out = .ok (some r)) (hm : O.d2iCms c = some m) :
    ∀ x ∈ O.signers m, ¬ Revoked O rev l x := by
  rintro x hx ⟨der, crl, h1, h2, h3⟩
  obtain ⟨m', cs, xs, rs, g1, -, g3, g4, -⟩ := C37_partial O ok c certs l out r h
  rw [hm] at g1
  cases g1
  exact hchk _ _ _ _ g4 x hx crl (trust_crl g3 h1 h2) h3

/-- **C147** (revocation has no effect on messages): with the library as documented, a message is accepted with a trust list if and
only if it is accepted with the same list without its revocation lists, provided these can be read at all. -/
theorem C147_blind (O : Ossl) (hO : NoCrlCheck O) (ok : Nat → Bool) (hok : ∀ k, ok k = true) (c text : Bytes) (certs : Option CertList)
    (l : CertList) :
    verifyCms O ok (some (.of c)) certs (some l) false = .ok (some ⟨text, none⟩) ↔
      verifyCms O ok (some (.of c)) certs (some (withoutCrls l)) false = .ok (some ⟨text, none⟩) ∧ CrlsReadable O l := by
  rw [C37_exact O ok hok, C37_exact O ok hok]
  constructor
  · rintro ⟨m, cs, h1, h2, h3, h4, h5⟩
    obtain ⟨xs, rs, g1, g2⟩ := h5 l rfl
    obtain ⟨k1, k2⟩ := trust_without g1
    refine ⟨⟨m, cs, h1, h2, h3, h4, fun l' hl' => ?_⟩, k2⟩
    cases hl'
    exact ⟨xs, [], k1, (hO.1 m cs xs [] rs).trans g2⟩
  · rintro ⟨⟨m, cs, h1, h2, h3, h4, h5⟩, hr⟩
    obtain ⟨xs, rs, g1, g2⟩ := h5 _ rfl
    obtain ⟨rs', k1⟩ := trust_with g1 hr
    refine ⟨m, cs, h1, h2, h3, h4, fun l' hl' => ?_⟩
    cases hl'
    exact ⟨xs, rs', k1, (hO.1 m cs xs rs' rs).trans g2⟩

/-- **C147** (nor on the certificate of the registrar): likewise for the check of the registrar's certificate with the pinned one. -/
theorem C147_blind_cert (O : Ossl) (hO : NoCrlCheck O) (ok : Nat → Bool) (hok : ∀ k, ok k = true) (reg pin : Bytes) (f : Int)
    (l : CertList) :
    verifyCert O ok (some reg) (some [(pin, f)]) (some l) = true ↔
      verifyCert O ok (some reg) (some [(pin, f)]) (some (withoutCrls l)) = true ∧ CrlsReadable O l := by
  constructor
  · intro h
    obtain ⟨x, p, h1, h2, xs, rs, g1, g2⟩ := verifyCert_sound O ok reg pin f _ h
    obtain ⟨k1, k2⟩ := trust_without g1
    exact ⟨verifyCert_complete O ok hok reg pin f _ ⟨x, p, h1, h2, xs, [], k1, by rwa [hO.2 x [p] xs [] rs]⟩, k2⟩
  · rintro ⟨h, hr⟩
    obtain ⟨x, p, h1, h2, xs, rs, g1, g2⟩ := verifyCert_sound O ok reg pin f _ h
    obtain ⟨rs', k1⟩ := trust_with g1 hr
    exact verifyCert_complete O ok hok reg pin f _ ⟨x, p, h1, h2, xs, rs', k1, by rwa [hO.2 x [p] xs rs' rs]⟩

/-- The scheme `toy` with revocation lists of one byte, the certificate they revoke. -/
def toyCrl : Ossl where
  Cms := UInt8 × Bytes
  Cert := UInt8
  Crl := UInt8
  Key := UInt8
  d2iCms := toy.d2iCms
  d2iX509 := toy.d2iX509
  i2dX509 := toy.i2dX509
  d2iCrl := fun
    | [c] => some c
    | _ => none
  d2iKey := toy.d2iKey
  sigOk := fun _ _ => true
  trustOk := fun m _ st => decide (m.1 ∈ st.1)
  content := toy.content
  signers := fun m => [m.1]
  buildChain := fun x _ st => match st with
    | none => [x]
    | some st => if x ∈ st.1 then [x] else []
  cmsSign := toy.cmsSign

theorem toyCrl_documented : NoCrlCheck toyCrl := ⟨fun _ _ _ _ _ => rfl, fun _ _ _ _ _ => rfl⟩

/-- The code violates C147: the message of signer 3 is accepted with a trust list that revokes 3. -/
theorem C147_violated : ¬ C147_statement := by
  intro h
  exact h toyCrl toyCrl_documented (fun a b => a = b) (fun _ => true) [3, 1] none [([3], 0), ([3], 1)] false ⟨[1], none⟩
    ((3, [1]) : UInt8 × Bytes) (by decide +kernel) rfl (3 : UInt8) (List.mem_singleton.2 rfl) ⟨[3], (3 : UInt8), by simp, rfl, rfl⟩

/-- **C147** (nor can revocation be configured): the lists loaded from the files of a configuration have no revocation lists, every
element is taken for a certificate. -/
theorem C147_config (m : DlList.Mem) (l : Nat) (paths : List Bytes) (files : Nat → Bytes → Option Bytes) (al0 : Bool)
    (al : Nat → DlList.Oracle) (hw : Wf m) (hp : HoldsPaths m l paths) (hal : ∀ k, CopyWorks (al k)) (m' : DlList.Mem) (o : Nat)
    (h : Config.loadCertFiles al0 al files m (some l) = .ok (m', some o, true)) :
    ∃ els, DlList.contents m' o = .ok els ∧ els.length = paths.length ∧ ∀ e ∈ els, e.2.2 = 0 := by
  obtain ⟨m1, out, ok, e, h1, h2, -⟩ := C43_partial m l paths files al0 al hw hp hal
  rw [h] at e
  cases e
  by_cases hn : paths = []
  · have := (h2 hn).2
    cases this
  · obtain ⟨o', ders, ho, hd, hc⟩ := h1 rfl hn
    cases ho
    refine ⟨_, hc, ?_, ?_⟩
    · have := congrArg List.length hd
      rw [List.length_mapIdx, List.length_map] at this
      rw [List.length_map, this]
    · intro e he
      obtain ⟨d, -, rfl⟩ := List.mem_map.1 he
      rfl

/-- The same with a library that looks at the revocation lists. -/
def toyChecks : Ossl := { toyCrl with
  trustOk := fun (m : UInt8 × Bytes) _ (st : List UInt8 × List UInt8) => decide (m.1 ∈ st.1) && decide (m.1 ∉ st.2) }

/-- Non-vacuity: signer 3 revoked and accepted, an unreadable revocation list refused; the same for the chain; and a library that looks
at revocation lists. -/
example : verifyCms toyCrl (fun _ => true) (some (.of [3, 1])) none (some [([3], 0), ([3], 1)]) false = .ok (some ⟨[1], none⟩) ∧
    verifyCms toyCrl (fun _ => true) (some (.of [3, 1])) none (some [([3], 0), ([], 1)]) false = .ok none ∧
    verifyCert toyCrl (fun _ => true) (some [3]) (some [([4], 0)]) (some [([3], 0), ([3], 1)]) = true := by
  refine ⟨?_, ?_, ?_⟩ <;> decide +kernel

example : ∃ O : Ossl, ∃ rev : O.Crl → O.Cert → Prop,
    (∀ m cs xs rs, O.trustOk m cs (xs, rs) = true → ∀ x ∈ O.signers m, ∀ crl ∈ rs, ¬ rev crl x) ∧
    verifyCms O (fun _ => true) (some (.of [3, 1])) none (some [([3], 0), ([4], 1)]) false = .ok (some ⟨[1], none⟩) := by
  refine ⟨toyChecks, fun a b => a = b, ?_, by decide +kernel⟩
  intro (m : UInt8 × Bytes) cs (xs : List UInt8) (rs : List UInt8) h x hx crl hc e
  have hx : x = m.1 := List.mem_singleton.1 hx
  have e : crl = x := e
  have h : (decide (m.1 ∈ xs) && decide (m.1 ∉ rs)) = true := h
  rw [Bool.and_eq_true, decide_eq_true_eq, decide_eq_true_eq] at h
  exact h.2 (hx ▸ e ▸ hc)

end Brski.Props
