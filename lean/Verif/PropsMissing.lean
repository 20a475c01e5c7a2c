import Verif.PropsEnd
import Verif.PropsPledge

/-!
# C107: a setting that is missing is noticed
-/

namespace Brski.Props
open Brski.Spec Brski.Server Brski.Pledge Outcome Crypto Voucher Request Base64 BoolTime VoucherJson

/-- A file name was removed from the configuration, or not (specification for
/repo/src/brski/config.c:148-420,551-585: members without text are NULL). -/
def Dropped (a b : FileRes) : Prop := b = a ∨ b = .unset

/-- The same for a text (/repo/src/brski/config.c:148-420). -/
def DroppedText (a b : Option Bytes) : Prop := b = a ∨ b = none

/-- The settings of the MASA that may be missing (/repo/src/brski/masa/masa_config.h:15-40). -/
structure DroppedMasa (e e' : MasaEnv) : Prop where
  ldevid : Dropped e.ldevid e'.ldevid
  cert : Dropped e.signCert e'.signCert
  key : Dropped e.signKey e'.signKey
  time : DroppedText e.expiresOn e'.expiresOn
  rest : e' = { e with ldevid := e'.ldevid, signCert := e'.signCert, signKey := e'.signKey, expiresOn := e'.expiresOn }

/-- The settings of the registrar that may be missing (/repo/src/brski/registrar/registrar_config.h:13-35,
/repo/src/brski/masa/masa_config.h:17). -/
structure DroppedReg (e e' : RegEnv) : Prop where
  tls : Dropped e.tlsCert e'.tlsCert
  cert : Dropped e.signCert e'.signCert
  key : Dropped e.signKey e'.signKey
  host : DroppedText e.host e'.host
  path : DroppedText e.keyPath e'.keyPath
  rest : e' = { e with tlsCert := e'.tlsCert, signCert := e'.signCert, signKey := e'.signKey, host := e'.host,
                       keyPath := e'.keyPath }

/-- The settings for enrolments that may be missing (/repo/src/brski/registrar/registrar_config.h:20-21). -/
structure DroppedEnrol {O : Ossl} (e e' : EnrollEnv O) : Prop where
  cert : Dropped e.caCert e'.caCert
  key : Dropped e.caKey e'.caKey
  rest : e' = { e with caCert := e'.caCert, caKey := e'.caKey }

/-- The settings of the pledge that may be missing (/repo/src/brski/pledge/pledge_config.h:15-40,
/repo/src/brski/registrar/registrar_config.h:15). -/
structure DroppedPledge (e e' : PledgeEnv) : Prop where
  cert : Dropped e.signCert e'.signCert
  key : Dropped e.signKey e'.signKey
  address : DroppedText e.address e'.address
  tlsKey : DroppedText e.keyPath e'.keyPath
  tlsCert : DroppedText e.certPath e'.certPath
  rest : e' = { e with signCert := e'.signCert, signKey := e'.signKey, address := e'.address, keyPath := e'.keyPath,
                       certPath := e'.certPath }

/-- **C107** as stated: a call that is defined with some configuration is still defined when settings are missing
(specification for /repo/src/brski/masa/masa_api.cpp:57-183,
/repo/src/brski/registrar/registrar_api.cpp:90-304,354-432, /repo/src/brski/pledge/pledge_request.cpp:92-202). -/
def C107_statement : Prop :=
  (∀ (O : Ossl) (e e' : MasaEnv) (body : Bytes) (h : Heap), DroppedMasa e e' → h.Wf →
    (∃ r, masaRequestVoucher O e body h none = .ok r) → ∃ r, masaRequestVoucher O e' body h none = .ok r) ∧
  (∀ (O : Ossl) (e e' : RegEnv) (body : Bytes) (h : Heap), DroppedReg e e' → h.Wf →
    (∃ r, registrarRequestVoucher O e body h = .ok r) → ∃ r, registrarRequestVoucher O e' body h = .ok r) ∧
  (∀ (O : Ossl) (e e' : EnrollEnv O) (client : Option O.Cert) (body : Bytes) (h : Heap), DroppedEnrol e e' → h.Wf →
    (∃ r, simpleEnroll O e client body h = .ok r) → ∃ r, simpleEnroll O e' client body h = .ok r) ∧
  (∀ (O : Ossl) (e e' : PledgeEnv) (net : Net) (h : Heap), DroppedPledge e e' → h.Wf →
    (∃ r, postVoucher O e net h = .ok r) → ∃ r, postVoucher O e' net h = .ok r)

/-- Of the files in the order in which they are read the first one that does not give anything has no name
(specification for /repo/src/voucher/crypto_ossl.c:286-360). -/
def Stops (fs : List FileRes) : Prop := ∃ l r, fs = l ++ .unset :: r ∧ ∀ f ∈ l, ∃ b, f = .der b

theorem stops_cons (f : FileRes) (fs : List FileRes) : Stops (f :: fs) ↔ f = .unset ∨ (∃ b, f = .der b) ∧ Stops fs := by
  constructor
  · rintro ⟨l, r, e, hl⟩
    cases l with
    | nil => cases e; exact .inl rfl
    | cons x l =>
      simp only [List.cons_append, List.cons.injEq] at e
      obtain ⟨rfl, e⟩ := e
      exact .inr ⟨hl f (by simp), l, r, e, fun g hg => hl g (by simp [hg])⟩
  · rintro (rfl | ⟨hf, l, r, rfl, hl⟩)
    · exact ⟨[], fs, rfl, by simp⟩
    · refine ⟨f :: l, r, rfl, fun g hg => ?_⟩
      rcases List.mem_cons.1 hg with rfl | hg
      · exact hf
      · exact hl g hg

theorem not_stops_nil : ¬ Stops [] := by
  rintro ⟨l, r, e, -⟩
  cases l <;> cases e

instance decStops : (fs : List FileRes) → Decidable (Stops fs)
  | [] => isFalse not_stops_nil
  | .unset :: fs => isTrue ((stops_cons _ _).2 (.inl rfl))
  | .bad :: fs => isFalse fun h => by
      rcases (stops_cons _ _).1 h with h | ⟨⟨b, h⟩, -⟩ <;> cases h
  | .der b :: fs => match decStops fs with
    | isTrue h => isTrue ((stops_cons _ _).2 (.inr ⟨⟨b, rfl⟩, h⟩))
    | isFalse h => isFalse fun h' => by
        rcases (stops_cons _ _).1 h' with h' | ⟨-, h'⟩
        · cases h'
        · exact h h'

theorem bind_const_ub {α β : Type} (o : Outcome α) : (o.bind fun _ => (.ub : Outcome β)) = .ub := by cases o <;> rfl

theorem Dropped.keep {a b : FileRes} (h : Dropped a b) (hb : b ≠ .unset) : a = b := (h.resolve_right hb).symm

theorem not_stops_one {a : FileRes} (h : ¬ Stops [a]) : a ≠ .unset := fun e => h ((stops_cons _ _).2 (.inl e))

theorem not_stops_hd {a : FileRes} {l : List FileRes} (h : ¬ Stops (a :: l)) : a ≠ .unset :=
  fun e => h ((stops_cons _ _).2 (.inl e))

theorem not_stops_tl {b : Bytes} {l : List FileRes} (h : ¬ Stops (.der b :: l)) : ¬ Stops l :=
  fun e => h ((stops_cons _ _).2 (.inr ⟨⟨b, rfl⟩, e⟩))

theorem masa_same (O : Ossl) (e : MasaEnv) {l c k : FileRes} (hl : Dropped e.ldevid l) (hc : Dropped e.signCert c)
    (hk : Dropped e.signKey k) (hs : ¬ Stops [l, c, k]) (body : Bytes) (h : Heap) (ctx : Option Nat) :
    masaRequestVoucher O { e with ldevid := l, signCert := c, signKey := k } body h ctx =
      masaRequestVoucher O e body h ctx := by
  have h1 := hl.keep (not_stops_hd hs)
  cases l with
  | unset => exact absurd rfl (not_stops_hd hs)
  | bad => unfold masaRequestVoucher; simp only [h1, readFile, bind'_ok]
  | der a =>
    have hs2 := not_stops_tl hs
    have h2 := hc.keep (not_stops_hd hs2)
    cases c with
    | unset => exact absurd rfl (not_stops_hd hs2)
    | bad => unfold masaRequestVoucher; simp only [h1, h2, readFile, bind'_ok]
    | der b =>
      have h3 := hk.keep (not_stops_hd (not_stops_tl hs2))
      rw [← h1, ← h2, ← h3]

/-- **C107** at the MASA, what holds: a missing `expiresOn` is refused; a missing file name is either not looked at,
so that everything is as with it, or handed to `fopen`. -/
theorem C107_masa_partial (O : Ossl) (e e' : MasaEnv) (hd : DroppedMasa e e') (body : Bytes) (h : Heap) (ctx : Option Nat) :
    (e'.expiresOn = none → masaRequestVoucher O e' body h ctx = masaFail h ctx []) ∧
    (e'.expiresOn.bind (str2time e'.lib) ≠ none → Stops [e'.ldevid, e'.signCert, e'.signKey] →
      masaRequestVoucher O e' body h ctx = .ub) ∧
    (e'.expiresOn = e.expiresOn → ¬ Stops [e'.ldevid, e'.signCert, e'.signKey] →
      masaRequestVoucher O e' body h ctx = masaRequestVoucher O e body h ctx) := by
  refine ⟨fun ht => ?_, fun ht hs => ?_, fun ht hs => ?_⟩
  · unfold masaRequestVoucher; rw [ht]; rfl
  · unfold masaRequestVoucher
    cases hx : e'.expiresOn.bind (str2time e'.lib) with
    | none => exact absurd hx ht
    | some t =>
      simp only
      cases decodeBody e'.al e'.blk h body with
      | ub => rfl
      | ok b =>
        rw [stops_cons, stops_cons, stops_cons] at hs
        rcases hs with h1 | ⟨⟨b1, h1⟩, h2 | ⟨⟨b2, h2⟩, h3 | ⟨-, h4⟩⟩⟩
        · simp only [h1, readFile, Outcome.bind]
        · simp only [h1, h2, readFile, Outcome.bind]
        · simp only [h1, h2, h3, readFile, Outcome.bind]
        · exact absurd h4 not_stops_nil
  · have := masa_same O e hd.ldevid hd.cert hd.key hs body h ctx
    rw [hd.rest, ht]
    exact this

theorem reg_same (O : Ossl) (e : RegEnv) {l c k : FileRes} (hl : Dropped e.tlsCert l) (hc : Dropped e.signCert c)
    (hk : Dropped e.signKey k) (hs : ¬ Stops [l, c, k]) (body : Bytes) (h : Heap) :
    registrarRequestVoucher O { e with tlsCert := l, signCert := c, signKey := k } body h =
      registrarRequestVoucher O e body h := by
  have h1 := hl.keep (not_stops_hd hs)
  cases l with
  | unset => exact absurd rfl (not_stops_hd hs)
  | bad => unfold registrarRequestVoucher; simp only [h1, readFile, bind'_ok]
  | der a =>
    have hs2 := not_stops_tl hs
    have h2 := hc.keep (not_stops_hd hs2)
    cases c with
    | unset => exact absurd rfl (not_stops_hd hs2)
    | bad => unfold registrarRequestVoucher; simp only [h1, h2, readFile, bind'_ok]
    | der b =>
      have h3 := hk.keep (not_stops_hd (not_stops_tl hs2))
      rw [← h1, ← h2, ← h3]

/-- **C107** at the registrar, what holds for the files: a missing name is either not looked at, so that everything is
as with it, or handed to `fopen`. -/
theorem C107_registrar_partial (O : Ossl) (e e' : RegEnv) (hd : DroppedReg e e') (hh : e'.host = e.host)
    (hp : e'.keyPath = e.keyPath) (body : Bytes) (h : Heap) :
    (e'.known = true → e'.serial ≠ none → e'.issuer ≠ none → e'.now ≠ none →
      Stops [e'.tlsCert, e'.signCert, e'.signKey] → registrarRequestVoucher O e' body h = .ub) ∧
    (¬ Stops [e'.tlsCert, e'.signCert, e'.signKey] →
      registrarRequestVoucher O e' body h = registrarRequestVoucher O e body h) := by
  refine ⟨fun k1 k2 k3 k4 hs => ?_, fun hs => ?_⟩
  · unfold registrarRequestVoucher
    cases x2 : e'.serial with
    | none => exact absurd x2 k2
    | some sr => cases x3 : e'.issuer with
      | none => exact absurd x3 k3
      | some is => cases x4 : e'.now with
        | none => exact absurd x4 k4
        | some t =>
          cases x5 : e'.mem with
          | false => simp [k1]
          | true =>
            simp only [k1, if_true]
            cases decodeBody e'.al e'.blk ((h.alloc is).1.alloc []).1 body with
            | ub => rfl
            | ok b =>
              rw [stops_cons, stops_cons, stops_cons] at hs
              rcases hs with h1 | ⟨⟨b1, h1⟩, h2 | ⟨⟨b2, h2⟩, h3 | ⟨-, h4⟩⟩⟩
              · simp only [h1, readFile, Outcome.bind]
              · simp only [h1, h2, readFile, Outcome.bind]
              · simp only [h1, h2, h3, readFile, Outcome.bind]
              · exact absurd h4 not_stops_nil
  · have := reg_same O e hd.tls hd.cert hd.key hs body h
    rw [hd.rest, hh, hp]
    exact this

/-- Of two outcomes the first is undefined or they are the same. -/
def UbOr {α : Type} (o o' : Outcome α) : Prop := o = .ub ∨ o = o'

theorem UbOr.refl {α : Type} (o : Outcome α) : UbOr o o := .inr rfl

theorem UbOr.bind {α β : Type} (o : Outcome α) {f g : α → Outcome β} (h : ∀ a, UbOr (f a) (g a)) :
    UbOr (o.bind f) (o.bind g) := by
  cases o with
  | ub => exact .inl rfl
  | ok a => exact h a

theorem address_post (e : RegEnv) {host key : Option Bytes} (hn : host = none ∨ key = none)
    (m : Bytes → Option (Nat × Bytes)) (v : Bytes) :
    UbOr (postVoucherRequest { e with host := host, keyPath := key } v) (postVoucherRequest { e with masa := m } v) := by
  unfold postVoucherRequest
  refine UbOr.bind _ fun s => ?_
  cases s with
  | none => exact .refl _
  | some s => exact .inl (if_pos hn)

theorem address_forward (O : Ossl) (e : RegEnv) {host key : Option Bytes} (hn : host = none ∨ key = none)
    (m : Bytes → Option (Nat × Bytes)) (t : Tm) (s i : Bytes) (req : BinArr) (h : Heap) (o : List (Option Nat)) :
    UbOr (regForward O { e with host := host, keyPath := key } t s i req h o)
      (regForward O { e with masa := m } t s i req h o) := by
  unfold regForward
  refine UbOr.bind _ fun r => ?_
  cases r with
  | none => exact .refl _
  | some v =>
    rcases address_post e hn m v with hp | hp
    · left; simp only [hp]; rfl
    · right; simp only [hp]

/-- **C107** at the registrar, the address of the MASA and the name of the key file: without one of them every answer
that is given at all is the one given with them, and does not depend on the MASA.  (The requests for which it would
be asked are undefined.) -/
theorem C107_address_partial (O : Ossl) (e : RegEnv) (host key : Option Bytes) (hn : host = none ∨ key = none)
    (body : Bytes) (h : Heap) (r : Reply)
    (hr : registrarRequestVoucher O { e with host := host, keyPath := key } body h = .ok r)
    (m : Bytes → Option (Nat × Bytes)) : registrarRequestVoucher O { e with masa := m } body h = .ok r := by
  suffices key : UbOr (registrarRequestVoucher O { e with host := host, keyPath := key } body h)
      (registrarRequestVoucher O { e with masa := m } body h) by
    rcases key with h' | h'
    · rw [h'] at hr; cases hr
    · rw [← h']; exact hr
  unfold registrarRequestVoucher
  dsimp only
  by_cases h1 : e.known = true
  · simp only [h1, if_true]
    cases e.serial with
    | none => exact .refl _
    | some s => cases e.issuer with
      | none => exact .refl _
      | some i =>
        by_cases h2 : e.mem = true
        · simp only [h2, if_true]
          refine UbOr.bind _ fun b => ?_
          cases e.now with
          | none => exact .refl _
          | some t =>
            refine UbOr.bind _ fun f => ?_
            rcases f with ⟨f, _ | f'⟩
            · exact .refl _
            refine UbOr.bind _ fun c => ?_
            rcases c with ⟨c, _ | c'⟩
            · exact .refl _
            refine UbOr.bind _ fun k => ?_
            rcases k with ⟨k, _ | k'⟩
            · exact .refl _
            simp only
            split
            · exact address_forward O e hn m _ _ _ _ _ _
            · exact .refl _
        · dsimp only
          rw [if_neg h2, if_neg h2]
          exact .refl _
  · rw [if_neg h1, if_neg h1]
    exact .refl _

theorem enrol_same (O : Ossl) (e : EnrollEnv O) {c k : FileRes} (hc : Dropped e.caCert c) (hk : Dropped e.caKey k)
    (hs : ¬ Stops [c, k]) (client : Option O.Cert) (body : Bytes) (h : Heap) :
    simpleEnroll O { e with caCert := c, caKey := k } client body h = simpleEnroll O e client body h := by
  have h1 := hc.keep (not_stops_hd hs)
  cases c with
  | unset => exact absurd rfl (not_stops_hd hs)
  | bad => unfold simpleEnroll; simp only [h1, readFile, bind'_ok]
  | der a =>
    have h2 := hk.keep (not_stops_hd (not_stops_tl hs))
    rw [← h1, ← h2]

/-- **C107** for enrolments, what holds: a missing name is either not looked at, so that everything is as with it, or
handed to `fopen`. -/
theorem C107_enrol_partial (O : Ossl) (e e' : EnrollEnv O) (hd : DroppedEnrol e e') (client : Option O.Cert)
    (body : Bytes) (h : Heap) :
    ((∀ b, decodeBody e'.al e'.blk h body = .ok b → b.ret ≠ none) → Stops [e'.caCert, e'.caKey] →
      simpleEnroll O e' client body h = .ub) ∧
    (¬ Stops [e'.caCert, e'.caKey] → simpleEnroll O e' client body h = simpleEnroll O e client body h) := by
  refine ⟨fun hb hs => ?_, fun hs => ?_⟩
  · unfold simpleEnroll
    cases hx : decodeBody e'.al e'.blk h body with
    | ub => rfl
    | ok b =>
      have hb := hb b hx
      cases hr : b.ret with
      | none => exact absurd hr hb
      | some n =>
        rw [stops_cons, stops_cons] at hs
        rcases hs with h1 | ⟨⟨b1, h1⟩, h2 | ⟨-, h4⟩⟩
        · simp only [bind'_ok, hr, h1, readFile, Outcome.bind]
        · simp only [bind'_ok, hr, h1, h2, readFile, Outcome.bind]
        · exact absurd h4 not_stops_nil
  · have := enrol_same O e hd.cert hd.key hs client body h
    rw [hd.rest]
    exact this

theorem pledge_same (O : Ossl) (e : PledgeEnv) {c k : FileRes} (hc : Dropped e.signCert c) (hk : Dropped e.signKey k)
    (hs : ¬ Stops [c, k]) (reg : Bytes) (h : Heap) :
    requestArray O { e with signCert := c, signKey := k } reg h = requestArray O e reg h := by
  have h1 := hc.keep (not_stops_hd hs)
  cases c with
  | unset => exact absurd rfl (not_stops_hd hs)
  | bad => unfold requestArray; simp only [h1, readFile, bind'_ok, requestTime]
  | der a =>
    have h2 := hk.keep (not_stops_hd (not_stops_tl hs))
    rw [← h1, ← h2]

/-- **C107** at the pledge, what holds: without the address of the registrar, the name of the key file or that of the
certificate file for TLS the call fails and nothing is sent; the name of a file for signing that is missing is either
not looked at, so that everything is as with it, or handed to `fopen`. -/
theorem C107_pledge_partial (O : Ossl) (e e' : PledgeEnv) (hd : DroppedPledge e e') (net : Net) (h : Heap) :
    (e'.address = none ∨ e'.keyPath = none ∨ e'.certPath = none → postVoucher O e' net h = .ok ⟨h, none, []⟩) ∧
    (requestTime e' ≠ none → ∀ reg, (∀ n, readNonce (e'.nonceMem 0) (e'.nonceAl 0) e'.blk e'.nonce h = .ok n → n.ok = true) →
      Stops [e'.signCert, e'.signKey] → requestArray O e' reg h = .ub) ∧
    (e'.address = e.address → e'.keyPath = e.keyPath → e'.certPath = e.certPath → ¬ Stops [e'.signCert, e'.signKey] →
      postVoucher O e' net h = postVoucher O e net h) := by
  refine ⟨fun hn => if_pos hn, fun ht reg hb hs => ?_, fun ha hk hc hs => ?_⟩
  · unfold requestArray
    cases hx : requestTime e' with
    | none => exact absurd hx ht
    | some t =>
      cases hy : readNonce (e'.nonceMem 0) (e'.nonceAl 0) e'.blk e'.nonce h with
      | ub => rfl
      | ok n =>
        have hb := hb n hy
        rw [stops_cons, stops_cons] at hs
        rcases hs with h1 | ⟨⟨b1, h1⟩, h2 | ⟨-, h4⟩⟩
        · simp only [bind'_ok, hb, if_true, h1, readFile, Outcome.bind]
        · simp only [bind'_ok, hb, if_true, h1, h2, readFile, Outcome.bind]
        · exact absurd h4 not_stops_nil
  · have hq : ∀ reg h, requestText O { e with signCert := e'.signCert, signKey := e'.signKey } reg h = requestText O e reg h := by
      intro reg h
      unfold requestText
      rw [pledge_same O e hd.cert hd.key hs reg h]
    rw [hd.rest, ha, hk, hc]
    unfold postVoucher
    simp only [hq]
    rfl

/-- Calls that are undefined without a setting and fine with it: the four files of the four calls and the address. -/
theorem C107_violated_each :
    masaRequestVoucher toy { demoMasa with ldevid := .unset } (rfc4648 demoRequest) Heap.empty none = .ub ∧
    registrarRequestVoucher toy { (demoReg fun _ => none) with tlsCert := .unset } (rfc4648 demoPledgeCms) Heap.empty = .ub ∧
    registrarRequestVoucher toy { (demoReg fun _ => none) with host := none } (rfc4648 demoPledgeCms) Heap.empty = .ub ∧
    simpleEnroll toy { demoEnroll (fun _ => none) with caKey := .unset } none (rfc4648 [5]) Heap.empty = .ub ∧
    postVoucher toy { demoPledge with signCert := .unset } (demoNet [7] [66] demoVoucherText []) Heap.empty = .ub := by
  have st : ∀ l, Stops (.unset :: l) := fun l => (stops_cons _ _).2 (.inl rfl)
  refine ⟨?_, ?_, ?_, ?_, ?_⟩
  · exact (C107_masa_partial toy demoMasa { demoMasa with ldevid := .unset } ⟨.inr rfl, .inl rfl, .inl rfl, .inl rfl, rfl⟩
      _ _ _).2.1 (by decide +kernel) (st _)
  · exact (C107_registrar_partial toy (demoReg fun _ => none) { demoReg (fun _ => none) with tlsCert := .unset }
      ⟨.inr rfl, .inl rfl, .inl rfl, .inl rfl, .inl rfl, rfl⟩ rfl rfl _ _).1 rfl nofun nofun nofun (st _)
  · cases hx : registrarRequestVoucher toy { demoReg (fun _ => none) with host := none } (rfc4648 demoPledgeCms) Heap.empty with
    | ub => rfl
    | ok r =>
      exfalso
      have hm := C107_address_partial toy (demoReg fun _ => none) none (demoReg fun _ => none).keyPath (.inl rfl) _ _ r hx
      obtain ⟨r1, a1, -, c1⟩ := demoReg_runs 200 [1]
      obtain ⟨r2, a2, -, c2⟩ := demoReg_runs 200 [2]
      have b1 := hm fun _ => some (200, [1])
      have b2 := hm fun _ => some (200, [2])
      cases a1.symm.trans b1
      cases a2.symm.trans b2
      rw [c1] at c2
      exact absurd c2 (by decide)
  · refine (C107_enrol_partial toy (demoEnroll fun _ => none) { demoEnroll (fun _ => none) with caKey := .unset }
      ⟨.inl rfl, .inr rfl, rfl⟩ none _ _).1 ?_ ((stops_cons _ _).2 (.inr ⟨⟨_, rfl⟩, st _⟩))
    have hb : base64str2array zeroAllocator [0, 0, 0, 0] (cstr (rfc4648 [5])) = .ok (some 1, .owned [5]) := by decide +kernel
    intro b hb'
    simp only [decodeBody, demoEnroll, hb, bind'_ok] at hb'
    cases hb'
    nofun
  · have hv : ranView (postVoucher toy { demoPledge with signCert := .unset } (demoNet [7] [66] demoVoucherText [])
        Heap.empty) = none := by decide +kernel
    cases hx : postVoucher toy { demoPledge with signCert := .unset } (demoNet [7] [66] demoVoucherText []) Heap.empty with
    | ub => rfl
    | ok r => rw [hx] at hv; cases hv

/-- The same calls are fine with the setting. -/
theorem C107_settings :
    (∃ r, masaRequestVoucher toy demoMasa (rfc4648 demoRequest) Heap.empty none = .ok r ∧ r.status = 200) ∧
    (∃ r, registrarRequestVoucher toy (demoReg fun _ => some (200, [1])) (rfc4648 demoPledgeCms) Heap.empty = .ok r ∧
      r.status = 200) ∧
    (∃ r, simpleEnroll toy (demoEnroll fun _ => none) none (rfc4648 [5]) Heap.empty = .ok r ∧ r.status = 200) ∧
    (∃ r, postVoucher toy demoPledge (demoNet [7] [66] demoVoucherText []) Heap.empty = .ok r ∧ r.pinned ≠ none) := by
  refine ⟨(demoMasa_runs none).imp fun _ h => ⟨h.1, h.2.1⟩, (demoReg_runs 200 [1]).imp fun _ h => ⟨h.1, h.2.1⟩,
    (demo_enrolled _ none).imp fun _ h => ⟨h.1, h.2.1⟩, ?_⟩
  have hv := demo_run
  cases hx : postVoucher toy demoPledge (demoNet [7] [66] demoVoucherText []) Heap.empty with
  | ub => rw [hx] at hv; cases hv
  | ok r =>
    refine ⟨r, rfl, fun hp => ?_⟩
    rw [hx] at hv
    simp [ranView, hp] at hv

/-- non-vacuity of the equalities: behind a file that cannot be read a missing name is not looked at. -/
example : ¬ Stops [.der [1], .bad, .unset] ∧ Stops [.der [1], .unset, .bad] := by decide

/-- non-vacuity of C107_pledge_partial: without the address nothing is sent. -/
example : postVoucher toy { demoPledge with address := none } (demoNet [7] [66] demoVoucherText []) Heap.empty =
    .ok ⟨Heap.empty, none, []⟩ :=
  (C107_pledge_partial toy demoPledge { demoPledge with address := none } ⟨.inl rfl, .inl rfl, .inr rfl, .inl rfl, .inl rfl, rfl⟩
    _ _).1 (.inl rfl)

/-- non-vacuity of C107_address_partial: a request from a client without serial number is refused without the address
as well. -/
example : ∃ r, registrarRequestVoucher toy { demoReg (fun _ => none) with serial := none, host := none } [] Heap.empty =
    .ok r ∧ r.status = 400 := ⟨_, rfl, rfl⟩

/-- The code violates C107. -/
theorem C107_violated : ¬ C107_statement := by
  rintro ⟨h, -, -, -⟩
  obtain ⟨r, hr⟩ := h toy demoMasa { demoMasa with ldevid := .unset } (rfc4648 demoRequest) Heap.empty
    ⟨.inr rfl, .inl rfl, .inl rfl, .inl rfl, rfl⟩ Heap.wf_empty ((demoMasa_runs none).imp fun _ h => h.1)
  rw [C107_violated_each.1] at hr
  cases hr

end Brski.Props
