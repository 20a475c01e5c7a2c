import Verif.PropsPledge
import Verif.JsonMono
import Verif.JsonCut

/-!
# Lemmas for compositions of the protocol steps
-/

namespace Brski.Props
open Outcome Brski.Voucher VoucherJson Crypto BoolTime Spec Request

/-- A real date with a four digit year (/repo/src/voucher/serialize.c:331-361). -/
def FourDigits (t : Tm) : Prop := ∃ d : DateTime, tmHolds t d ∧ d.Valid ∧ 1000 ≤ d.y

/-- All time attributes that are set have a four digit year
(/repo/src/voucher/voucher.h:278-288). -/
def Times4 (v : Voucher) : Prop := ∀ a t, getTime v a = some t → timeSet t = false ∨ FourDigits t

theorem times4_ok {v : Voucher} (h : Times4 v) : TimesOk v :=
  fun a t ht => (h a t ht).imp id fun ⟨d, h1, h2, _⟩ => ⟨d, h1, h2⟩

theorem times4_for {v : Voucher} (h : Times4 v) (l l' : TimeLib) : TimesFor l l' v :=
  fun a t ht => (h a t ht).imp id fun ⟨d, h1, h2, h3⟩ => ⟨d, h1, h2, .inr h3⟩

theorem isTime_unique {t : Tm} (h : FourDigits t) {x y : FlatValue} (hx : IsTime t x) (hy : IsTime t y) : x = y := by
  obtain ⟨d, h1, h2, h3⟩ := h
  obtain ⟨s, rfl, hs⟩ := hx
  obtain ⟨s', rfl, hs'⟩ := hy
  rw [hs d h1 h2 h3, hs' d h1 h2 h3]

theorem isBytes_unique {a : BinArr} {x y : FlatValue} (hx : IsBytes a x) (hy : IsBytes a y) : x = y := by
  obtain ⟨b, rfl, rfl⟩ := hx
  obtain ⟨b', h, rfl⟩ := hy
  cases h
  rfl

theorem isValue_unique {v : Voucher} (ht : Times4 v) {a : Attr} (hp : present v a = true) {x y : FlatValue}
    (hx : IsValue v a x) (hy : IsValue v a y) : x = y := by
  have time : ∀ t, getTime v a = some t → timeSet t = true → FourDigits t := by
    intro t h1 h2
    rcases ht a t h1 with h | h
    · rw [h2] at h; cases h
    · exact h
  cases a <;> simp only [present] at hp <;> simp only [IsValue] at hx hy
  case createdOn => exact isTime_unique (time _ rfl hp) hx hy
  case expiresOn => exact isTime_unique (time _ rfl hp) hx hy
  case lastRenewalDate => exact isTime_unique (time _ rfl hp) hx hy
  case assertion =>
    rcases hx with ⟨h1, rfl⟩ | ⟨h1, rfl⟩ | ⟨h1, rfl⟩ <;> rcases hy with ⟨h2, rfl⟩ | ⟨h2, rfl⟩ | ⟨h2, rfl⟩ <;>
      first | rfl | (rw [h1] at h2; exact absurd h2 (by decide))
  case serialNumber =>
    obtain ⟨s, h1, rfl⟩ := hx
    obtain ⟨s', h2, rfl⟩ := hy
    rw [h1] at h2
    cases h2
    rfl
  case revocationChecks => rw [hx, hy]
  case idevidIssuer => exact isBytes_unique hx hy
  case pinnedDomainCert => exact isBytes_unique hx hy
  case nonce => exact isBytes_unique hx hy
  case priorSigned => exact isBytes_unique hx hy
  case proximityCert => exact isBytes_unique hx hy

theorem voucherDoc_congr {v : Voucher} {f g : Attr → FlatValue} (h : ∀ a, present v a = true → f a = g a) :
    voucherDoc v f = voucherDoc v g := by
  unfold voucherDoc
  congr 1
  refine List.map_congr_left fun p hp => ?_
  rw [h p.1 (by simpa using (List.mem_filter.1 hp).2)]

/-- The encoding is determined by the voucher. -/
theorem encoded_unique (lib : TimeLib) {v : Voucher} (hv : VoucherOk v) (ht : Times4 v) {text : Bytes}
    (h : Encoded v text) : text = (docOf lib v).render := by
  obtain ⟨val, h1, rfl⟩ := h
  unfold docOf
  rw [voucherDoc_congr]
  intro a ha
  obtain ⟨x, hx⟩ := Option.isSome_iff_exists.1 (flatVal_some (lib := lib) hv (times4_ok ht) ha)
  rw [hx, Option.getD_some]
  exact isValue_unique ht ha (h1 a ha) (flatVal_isValue hv ha hx)

/-- Reading the encoding gives the voucher back. -/
theorem encoded_read (env : Env) (hal : env.NoOom) {v : Voucher} (hv : VoucherOk v) (ht : Times4 v)
    (ha : ArraysFull v) (hp : SerialText v) {text : Bytes} (h : Encoded v text) (hl : text.length < 2 ^ 31) :
    ∃ v', deserialize env text = .ok (some v') ∧ SameVoucher v v' := by
  obtain ⟨t, e, hr⟩ := round_trip env env hal hal v hv (times4_for ht _ _) ha hp
  rw [serialize_full env hal v hv (times4_ok ht) ha] at e
  cases e
  rw [encoded_unique env.lib hv ht h] at hl ⊢
  exact hr hl

/-- The same environment with memory available. -/
def richEnv (env : Env) : Env := ⟨env.lib, fun _ => zeroAllocator, env.blk, env.blk_len⟩

theorem rich_noOom (env : Env) : (richEnv env).NoOom := fun _ => noOom_zero

/-- Whatever happens to memory, a successful reader of the encoding finds the voucher. -/
theorem encoded_reads (env : Env) {v : Voucher} (hv : VoucherOk v) (ht : Times4 v)
    (ha : ArraysFull v) (hp : SerialText v) {text : Bytes} (h : Encoded v text) (hl : text.length < 2 ^ 31)
    {w : Voucher} (hr : Reads env text w) : SameVoucher v w := by
  obtain ⟨v', e, hs⟩ := encoded_read (richEnv env) (rich_noOom env) hv ht ha hp h hl
  rw [(deserialize_mono env (richEnv env) (rich_noOom env) rfl text (by omega) w hr.2).1] at e
  cases e
  exact hs

/-- The same when only a part of the encoding has been signed, which only happens to very long ones. -/
theorem handed_reads (env : Env) {v : Voucher} (hv : VoucherOk v) (ht : Times4 v)
    (ha : ArraysFull v) (hp : SerialText v) {text part : Bytes} (h : Encoded v text) (hh : Handed text part)
    (hl : part.length < 2 ^ 31) {w : Voucher} (hr : Reads env part w) : SameVoucher v w := by
  have := encoded_cut env hv (times4_ok ht) hp (encoded_unique env.lib hv ht h) hh.1 hr.2
  subst this
  exact encoded_reads env hv ht ha hp h hl hr

/-- Two readers of the same text with the same conventions for times find the same voucher. -/
theorem reads_same (env env' : Env) (hlib : env.lib = env'.lib) {text : Bytes} (hl : text.length < 2 ^ 31)
    {v w : Voucher} (hv : Reads env text v) (hw : Reads env' text w) : v = w := by
  have h1 := (deserialize_mono env (richEnv env) (rich_noOom env) rfl text (by omega) v hv.2).1
  have h2 := (deserialize_mono env' (richEnv env) (rich_noOom env) hlib.symm text (by omega) w hw.2).1
  rw [h1] at h2
  cases h2
  rfl

theorem reads_full {env : Env} {text : Bytes} (hl : text.length < 2 ^ 31) {v : Voucher} (h : Reads env text v) :
    ArraysFull v := by
  intro a x hx
  have := (deserialize_mono env (richEnv env) (rich_noOom env) rfl text (by omega) v h.2).2 a x hx
  refine ⟨this.1, ?_⟩
  have h2 := this.2
  unfold sizeMax
  omega

/-- A byte string that can be stored and read back: not empty, below the size limit
(/repo/src/voucher/array.c:100-119). -/
def Proper (b : Bytes) : Prop := b ≠ [] ∧ b.length < sizeMax / 4

theorem proper_of {b : Bytes} (h : Proper b) :
    (BinArr.of b) ≠ ⟨some [], 0⟩ ∧ (Props.content (BinArr.of b)).length < sizeMax / 4 :=
  ⟨(fun e => h.1 (by simpa [BinArr.of] using congrArg BinArr.array e)), h.2⟩

theorem of_inj {a b : Bytes} (h : BinArr.of a = BinArr.of b) : a = b := by
  simpa [BinArr.of] using congrArg BinArr.array h

theorem empty_proper : BinArr.empty ≠ ⟨some [], 0⟩ ∧ (Props.content BinArr.empty).length < sizeMax / 4 :=
  ⟨by decide, by decide⟩

/-! ## The three vouchers of a run -/

theorem registrarVoucher_times {t : Tm} {s i c : Bytes} {pv : Voucher} (ht : FourDigits t) :
    Times4 (registrarVoucher t s i c pv) := by
  intro a u h
  cases a <;> simp only [getTime, registrarVoucher, reduceCtorEq, Option.some.injEq] at h <;> subst h
  · exact .inr ht
  · exact .inl rfl
  · exact .inl rfl

theorem registrarVoucher_full {t : Tm} {s i c : Bytes} {pv : Voucher} (hi : Proper i) (hc : Proper c)
    (hp : ArraysFull pv) : ArraysFull (registrarVoucher t s i c pv) := by
  intro a x h
  cases a <;> simp only [getArray, registrarVoucher, reduceCtorEq, Option.some.injEq] at h <;> subst h
  · exact proper_of hi
  · exact empty_proper
  · exact hp .nonce _ rfl
  · exact proper_of hc
  · exact empty_proper

theorem registrarVoucher_plain {t : Tm} {s i c : Bytes} {pv : Voucher} (hs : StringText s) :
    SerialText (registrarVoucher t s i c pv) := by
  intro s' h
  simp only [getStr, registrarVoucher, Option.some.injEq] at h
  subst h
  exact hs

theorem pledgeVoucher_times {t : Tm} {s r : Bytes} {n : Option BinArr} (ht : FourDigits t) :
    Times4 (pledgeVoucher t s n r) := by
  intro a u h
  cases a <;> simp only [getTime, pledgeVoucher, reduceCtorEq, Option.some.injEq] at h <;> subst h
  · exact .inr ht
  · exact .inl rfl
  · exact .inl rfl

theorem pledgeVoucher_full {t : Tm} {s r : Bytes} {n : Option Bytes} (hr : Proper r) (hn : ∀ b, n = some b → Proper b) :
    ArraysFull (pledgeVoucher t s (n.map .of) r) := by
  intro a x h
  cases a <;> simp only [getArray, pledgeVoucher, reduceCtorEq, Option.some.injEq] at h <;> subst h
  · exact empty_proper
  · exact empty_proper
  · cases n with
    | none => exact empty_proper
    | some b => exact proper_of (hn b rfl)
  · exact empty_proper
  · exact proper_of hr

theorem pledgeVoucher_plain {t : Tm} {s r : Bytes} {n : Option BinArr} (hs : StringText s) :
    SerialText (pledgeVoucher t s n r) := by
  intro s' h
  simp only [getStr, pledgeVoucher, Option.some.injEq] at h
  subst h
  exact hs

theorem issuedVoucher_times {t : Tm} {s p : Bytes} {n : BinArr} (ht : FourDigits t) :
    Times4 (issuedVoucher s n p t) := by
  intro a u h
  cases a <;> simp only [getTime, issuedVoucher, reduceCtorEq, Option.some.injEq] at h <;> subst h
  · exact .inl rfl
  · exact .inr ht
  · exact .inl rfl

theorem issuedVoucher_full {t : Tm} {s p : Bytes} {v : Voucher} (hp : Proper p) (hv : ArraysFull v) :
    ArraysFull (issuedVoucher s v.nonce p t) := by
  intro a x h
  cases a <;> simp only [getArray, issuedVoucher, reduceCtorEq, Option.some.injEq] at h <;> subst h
  · exact empty_proper
  · exact proper_of hp
  · exact hv .nonce _ rfl
  · exact empty_proper
  · exact empty_proper

theorem issuedVoucher_plain {t : Tm} {s p : Bytes} {n : BinArr} (hs : StringText s) :
    SerialText (issuedVoucher s n p t) := by
  intro s' h
  simp only [getStr, issuedVoucher, Option.some.injEq] at h
  subst h
  exact hs

/-! ## Length of the text -/

theorem commaJoin_length (K : Nat) : ∀ l : List Bytes, (∀ x ∈ l, x.length ≤ K) →
    (commaJoin l).length ≤ l.length * (K + 1) := by
  intro l
  fun_induction commaJoin l with
  | case1 => intro _; simp
  | case2 x =>
    intro h
    have := h x (by simp)
    simp only [List.length_cons, List.length_nil]
    omega
  | case3 x y r ih =>
    intro h
    have h1 := h x (by simp)
    have h2 := ih (fun z hz => h z (by simp only [List.mem_cons] at hz ⊢; exact .inr hz))
    have hc : (str ",").length = 1 := by decide
    simp only [List.length_append, hc, List.length_cons, Nat.add_mul, Nat.one_mul] at h2 ⊢
    omega

theorem rfc3339_length (d : DateTime) : (rfc3339 d).length ≤ 100 := by
  have two_len : ∀ n, (two n).length = 2 := fun n => by simp [two]
  have h1 : (str "-").length = 1 := by decide
  have h2 : (str "T").length = 1 := by decide
  have h3 : (str ":").length = 1 := by decide
  have h4 : (str "Z").length = 1 := by decide
  simp only [rfc3339, List.length_append, two_len, h1, h2, h3, h4]
  omega

theorem rfc4648_length (b : Bytes) : (rfc4648 b).length ≤ 2 * b.length + 4 := by
  rw [← Base64.enc_eq_rfc, Base64.enc_length]
  omega

theorem isValue_length {v : Voucher} (hv : VoucherOk v) (ht : Times4 v) {B : Nat}
    (hB : ∀ a x, getArray v a = some x → (Props.content x).length ≤ B) {a : Attr} (hp : present v a = true)
    {x : FlatValue} (hx : IsValue v a x) : x.render.length ≤ 2 * B + 135 := by
  have q : ∀ s : Bytes, (FlatValue.render (.text s)).length = s.length + 2 := by
    intro s
    have hq : (str "\"").length = 1 := by decide
    simp only [FlatValue.render, quoted, List.length_append, hq]
    omega
  have time : ∀ t, getTime v a = some t → timeSet t = true → IsTime t x → x.render.length ≤ 2 * B + 135 := by
    intro t h1 h2 h3
    rcases ht a t h1 with h | ⟨d, k1, k2, k3⟩
    · rw [h2] at h; cases h
    · obtain ⟨s, rfl, hs⟩ := h3
      rw [q, hs d k1 k2 k3]
      have := rfc3339_length d
      omega
  have bytes : ∀ y, getArray v a = some y → IsBytes y x → x.render.length ≤ 2 * B + 135 := by
    rintro y h1 ⟨b, rfl, rfl⟩
    have h2 := hB a _ h1
    have h3 := rfc4648_length b
    rw [q]
    simp only [Props.content, Option.getD_some] at h2
    omega
  cases a <;> simp only [present] at hp <;> simp only [IsValue] at hx
  case createdOn => exact time _ rfl hp hx
  case expiresOn => exact time _ rfl hp hx
  case lastRenewalDate => exact time _ rfl hp hx
  case assertion =>
    have h1 : (str "verified").length = 8 := by decide
    have h2 : (str "logged").length = 6 := by decide
    have h3 : (str "proximity").length = 9 := by decide
    rcases hx with ⟨-, rfl⟩ | ⟨-, rfl⟩ | ⟨-, rfl⟩ <;> rw [q] <;> omega
  case serialNumber =>
    obtain ⟨s, h1, rfl⟩ := hx
    have := (hv.1.2 s (by simp [getStr, h1])).1
    rw [q]
    omega
  case revocationChecks =>
    subst hx
    have h1 : (str "true").length = 4 := by decide
    have h2 : (str "false").length = 5 := by decide
    simp only [FlatValue.render]
    split <;> omega
  case idevidIssuer => exact bytes _ rfl hx
  case pinnedDomainCert => exact bytes _ rfl hx
  case nonce => exact bytes _ rfl hx
  case priorSigned => exact bytes _ rfl hx
  case proximityCert => exact bytes _ rfl hx

theorem encoded_length {v : Voucher} (hv : VoucherOk v) (ht : Times4 v) {B : Nat}
    (hB : ∀ a x, getArray v a = some x → (Props.content x).length ≤ B) {text : Bytes} (h : Encoded v text) :
    text.length ≤ 22 * B + 3000 := by
  obtain ⟨val, h1, rfl⟩ := h
  have hq : (str "\"").length = 1 := by decide
  have hcol : (str ":").length = 1 := by decide
  have ho : (str "{").length = 1 := by decide
  have hcl : (str "}").length = 1 := by decide
  have hroot : (str "ietf-voucher:voucher").length = 20 := by decide
  have hsch : ∀ p ∈ schema, p.2.length ≤ 30 := by decide
  have hlen : (schema.filter fun p => present v p.1).length ≤ 11 := List.length_filter_le _ schema
  have hm := commaJoin_length (2 * B + 135 + 33) ((voucherDoc v val).members.map FlatMember.render) (by
    intro x hx
    simp only [voucherDoc, FlatDoc.compact, List.map_map, List.mem_map, Function.comp] at hx
    obtain ⟨p, hp, rfl⟩ := hx
    obtain ⟨p1, p2⟩ := List.mem_filter.1 hp
    have := isValue_length hv ht hB p2 (h1 p.1 p2)
    have := hsch p p1
    simp only [FlatMember.render, quoted, List.length_append, List.length_nil, hq, hcol]
    omega)
  have hn : ((voucherDoc v val).members.map FlatMember.render).length ≤ 11 := by
    simpa [voucherDoc, FlatDoc.compact] using hlen
  have hmul := Nat.mul_le_mul_right (2 * B + 135 + 33 + 1) hn
  simp only [FlatDoc.render, List.length_append, ho, hcl, hcol]
  simp only [voucherDoc, FlatDoc.compact, quoted, List.length_append, List.length_nil, hq, hroot] at hm hmul ⊢
  omega

/-- What a signed voucher message contains. -/
theorem signed_content {O : Ossl} (hf : Faithful O) {cert key : Option BinArr} {add : Option CertList} {v : Voucher}
    {cms : Bytes} (h : SignedVoucher O cert key add v cms) : ∃ m text, O.d2iCms cms = some m ∧ Encoded v text ∧ Handed text (O.content m) := by
  obtain ⟨_, _, x, k, cs, text, part, -, -, -, -, -, he, hh, hs⟩ := h
  obtain ⟨m, hm, hc⟩ := hf x k cs part cms hs
  exact ⟨m, text, hm, he, by rw [hc]; exact hh⟩

/-- A verified reader of a signed voucher message finds the voucher. -/
theorem signed_read {O : Ossl} (hsm : Small O) (hf : Faithful O) {cert key : Option BinArr} {add : Option CertList}
    {v w : Voucher} {cms text : Bytes} {certs store : Option CertList} {env : Env} (h : SignedVoucher O cert key add v cms)
    (hA : Authentic O certs store cms text) (hR : Reads env text w) (hv : VoucherOk v) (ht : Times4 v)
    (ha : ArraysFull v) (hp : SerialText v) : SameVoucher v w := by
  obtain ⟨m, t, hm, he, hh⟩ := signed_content hf h
  have hl := authentic_small hsm hA
  obtain ⟨m', hm', rfl, -⟩ := hA
  rw [hm] at hm'
  cases hm'
  exact handed_reads env hv ht ha hp he hh hl hR

end Brski.Props
