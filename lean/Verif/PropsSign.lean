import Verif.Sign
import Verif.Flow

/-!
# C98, C99, C101: what is signed, and texts that are cut short
-/

namespace Brski.Props
open Outcome Brski.Voucher VoucherJson Crypto BoolTime Spec Request Sign

/-! ## C98 -/

/-- **C98**: whatever the length of the data and the kind of the key, the message that the signing functions return encloses
exactly the data (for an OpenSSL whose messages enclose what was given to `CMS_sign`). -/
def C98_statement : Prop :=
  ∀ (O : Ossl) (_ : Faithful O) (readKey : Bytes → Option O.Key) (data : Bytes) (cert key : BinArr) (certs : Option CertList)
    (cms : Bytes), BinArr.Wf cert → BinArr.Wf key → signCmsBy O readKey data cert key certs = .ok (some cms) →
    ∃ m, O.d2iCms cms = some m ∧ O.content m = data

theorem signCmsBy_inv (O : Ossl) (readKey : Bytes → Option O.Key) (data : Bytes) (cert key : BinArr)
    (certs : Option CertList) (cms : Bytes) (hc : BinArr.Wf cert) (hk : BinArr.Wf key)
    (h : signCmsBy O readKey data cert key certs = .ok (some cms)) :
    ∃ c k x y cs, cert = .of c ∧ key = .of k ∧ O.d2iX509 c = some x ∧ readKey k = some y ∧ Extra O certs cs ∧
      O.cmsSign x y cs (bioWrite data) = some cms := by
  unfold signCmsBy at h
  rcases wf_cases hc with rfl | ⟨c, rfl⟩
  · simp [BinArr.empty] at h
  rcases wf_cases hk with rfl | ⟨k, rfl⟩
  · simp [BinArr.empty] at h
  rw [if_neg (by simp [BinArr.of]), arrBytes_of, arrBytes_of, bind'_ok, bind'_ok] at h
  cases h1 : readKey k with
  | none => rw [h1] at h; simp at h
  | some y =>
    cases h2 : O.d2iX509 c with
    | none => rw [h1, h2] at h; simp at h
    | some x =>
      cases h3 : optStack O certs with
      | none => rw [h1, h2, h3] at h; simp at h
      | some cs =>
        rw [h1, h2, h3] at h
        exact ⟨c, k, x, y, cs, rfl, rfl, h2, h1, (optStack_iff O certs cs).1 h3, by simpa using h⟩

/-- **C98**, the part that holds: data of less than 2 GiB are enclosed as they are. -/
theorem C98_partial (O : Ossl) (hf : Faithful O) (readKey : Bytes → Option O.Key) (data : Bytes) (cert key : BinArr)
    (certs : Option CertList) (cms : Bytes) (hc : BinArr.Wf cert) (hk : BinArr.Wf key) (hl : data.length < 2 ^ 31)
    (h : signCmsBy O readKey data cert key certs = .ok (some cms)) :
    ∃ m, O.d2iCms cms = some m ∧ O.content m = data := by
  obtain ⟨_, _, x, y, cs, -, -, -, -, -, hs⟩ := signCmsBy_inv O readKey data cert key certs cms hc hk h
  rw [(bioWrite_handed data).2 hl] at hs
  exact hf x y cs data cms hs

/-- **C98**, longer data: of `2^32 * k + n` bytes with `n < 2^31` the first `n` are enclosed, otherwise none, and the call
succeeds all the same. -/
theorem C98_long (O : Ossl) (hf : Faithful O) (readKey : Bytes → Option O.Key) (data : Bytes) (cert key : BinArr)
    (certs : Option CertList) (cms : Bytes) (hc : BinArr.Wf cert) (hk : BinArr.Wf key)
    (h : signCmsBy O readKey data cert key certs = .ok (some cms)) :
    ∃ m, O.d2iCms cms = some m ∧
      (∀ k n, data.length = 2 ^ 32 * k + n → n < 2 ^ 31 → O.content m = data.take n) ∧
      (∀ k n, data.length = 2 ^ 32 * k + n → 2 ^ 31 ≤ n → n < 2 ^ 32 → O.content m = []) := by
  obtain ⟨_, _, x, y, cs, -, -, -, -, -, hs⟩ := signCmsBy_inv O readKey data cert key certs cms hc hk h
  obtain ⟨m, hm, hc⟩ := hf x y cs _ cms hs
  refine ⟨m, hm, fun k n hd hn => ?_, fun k n hd h1 h2 => ?_⟩
  · rw [hc, bioWrite]
    have : data.length % 4294967296 = n := by omega
    simp only [this]
    rw [if_pos (by omega)]
  · rw [hc, bioWrite]
    have : data.length % 4294967296 = n := by omega
    simp only [this]
    rw [if_neg (by omega)]

/-- non-vacuity of C98: a message of three bytes, signed and found again. -/
example : signCmsBy toy toy.d2iKey [1, 2, 3] (.of [7]) (.of [7]) none = .ok (some [7, 1, 2, 3]) ∧ Faithful toy ∧
    toy.d2iCms [7, 1, 2, 3] = some ((7, [1, 2, 3]) : UInt8 × Bytes) :=
  ⟨by decide +kernel, toy_faithful, rfl⟩

theorem toy_sign_long (data : Bytes) (h : data.length = 2 ^ 31) :
    signCmsBy toy toy.d2iKey data (.of [7]) (.of [7]) none = .ok (some [7]) := by
  have hb : bioWrite data = [] := by
    unfold bioWrite
    simp only [h]
    rw [if_neg (by decide)]
  unfold signCmsBy
  rw [if_neg (by simp [BinArr.of]), arrBytes_of, bind'_ok, bind'_ok, hb]
  decide +kernel

/-- **C98** is violated: of 2 GiB of data nothing is signed, and the call succeeds. -/
theorem C98_violated : ¬ C98_statement := by
  intro h
  have hlen : (List.replicate (2 ^ 31) (65 : UInt8)).length = 2 ^ 31 := List.length_replicate
  generalize List.replicate (2 ^ 31) (65 : UInt8) = data at hlen
  obtain ⟨m, h1, h2⟩ := h toy toy_faithful toy.d2iKey data (.of [7]) (.of [7]) none [7] (wf_of _) (wf_of _)
    (toy_sign_long data hlen)
  have hm : toy.d2iCms [7] = some ((7, []) : UInt8 × Bytes) := rfl
  rw [hm] at h1
  cases h1
  have : (toy.content ((7, []) : UInt8 × Bytes)).length = data.length := by rw [h2]
  rw [hlen] at this
  exact absurd this (by decide)

/-- A voucher with a large pledge request in it, as a registrar makes from a large message it received
(/repo/src/voucher/request.c:190-197). -/
def bigVoucher (b : Bytes) : Voucher := { Voucher.init with prior := .of b }

theorem bigVoucher_text (lib : TimeLib) (b : Bytes) :
    (docOf lib (bigVoucher b)).render.length = 4 * ((b.length + 2) / 3) + 98 := by
  have hr : (rfc4648 b).length = 4 * ((b.length + 2) / 3) := by rw [← Base64.enc_eq_rfc, Base64.enc_length]
  have hf : attrOrder.filter (present (bigVoucher b)) = [.revocationChecks, .priorSigned] := by
    have h0 : present (bigVoucher b) .priorSigned = true := by
      simp [present, bigVoucher, BinArr.of]
    have h1 : ∀ a, a ≠ .priorSigned → present (bigVoucher b) a = present Voucher.init a := by
      intro a ha; cases a <;> first | rfl | exact absurd rfl ha
    have h2 : attrOrder.filter (present (bigVoucher b)) =
        attrOrder.filter (fun a => present Voucher.init a || a == .priorSigned) := by
      refine List.filter_congr fun a _ => ?_
      by_cases ha : a = .priorSigned
      · subst ha; rw [h0]; simp
      · rw [h1 a ha]
        have : (a == Attr.priorSigned) = false := by simpa using ha
        rw [this, Bool.or_false]
    rw [h2]
    decide
  rw [docOf_members, hf]
  have hv : flatVal lib (bigVoucher b) .priorSigned = some (.text (rfc4648 b)) := rfl
  have hv' : flatVal lib (bigVoucher b) .revocationChecks = some (.bare (str "false")) := rfl
  have e1 : rootName.length = 20 := by decide
  have e2 : (attrName .revocationChecks).length = 29 := by decide
  have e3 : (attrName .priorSigned).length = 28 := by decide
  have e4 : (str "false").length = 5 := by decide
  have e5 : (str "{").length = 1 := by decide
  have e6 : (str "}").length = 1 := by decide
  have e7 : (str ":").length = 1 := by decide
  have e8 : (str "\"").length = 1 := by decide
  have e9 : (str ",").length = 1 := by decide
  simp only [List.map_cons, List.map_nil, hv, hv', Option.getD_some, FlatDoc.compact, FlatDoc.render, commaJoin,
    FlatMember.render, FlatValue.render, quoted, List.length_append, List.length_nil, e1, e2, e3, e4, e5, e6, e7, e8, e9, hr]
  omega

/-- **C98** is violated for vouchers as well: a voucher with a pledge request of 1.5 GiB is turned into a message with nothing
in it, which no reader accepts. -/
theorem C98_voucher (env env' : Env) (hal : env.NoOom) (ok : Nat → Bool) (b : Bytes) (hb : b.length = 3 * 2 ^ 29)
    (store : Option CertList) :
    signCmsVoucher toy env (bigVoucher b) (some (.of [7])) (some (.of [7])) none = .ok (some [7]) ∧
    toy.d2iCms [7] = some ((7, []) : UInt8 × Bytes) ∧
    verifyCmsVoucher toy env' ok (some (.of [7])) none store false = .ok none := by
  refine ⟨?_, rfl, ?_⟩
  · have hv : VoucherOk (bigVoucher b) := by
      refine ⟨valuesOk_of_eq voucherOk_init.1 rfl rfl, ?_⟩
      obtain ⟨h1, h2, h3, -, h5⟩ := voucherOk_init.2
      exact ⟨h1, h2, h3, wf_of b, h5⟩
    have ht : TimesOk (bigVoucher b) := by
      intro a t h
      left
      cases a <;> simp [getTime, bigVoucher, Voucher.init] at h <;> subst h <;> decide
    have ha : ArraysFull (bigVoucher b) := by
      intro a x h
      cases a <;> simp [getArray, bigVoucher, Voucher.init] at h <;> subst h <;>
        first
        | exact ⟨by decide, by decide⟩
        | (refine ⟨fun e => ?_, ?_⟩
           · have := congrArg BinArr.length e
             simp [BinArr.of, hb] at this
           · show b.length < _
             rw [hb]; decide)
    unfold signCmsVoucher
    simp only
    rw [serialize_full env hal _ hv ht ha, bind'_ok]
    have hl := bigVoucher_text env.lib b
    rw [hb] at hl
    generalize (docOf env.lib (bigVoucher b)).render = data at hl
    have hbw : bioWrite data = [] := by
      unfold bioWrite
      simp only [hl]
      rw [if_neg (by decide)]
    simp only [signCms, signCmsBy]
    rw [if_neg (by simp [BinArr.of]), arrBytes_of, bind'_ok, bind'_ok, hbw]
    decide +kernel
  · unfold verifyCmsVoucher verifyCms
    simp only
    rw [if_neg (by simp [BinArr.of]), arrBytes_of, bind'_ok, bind'_ok]
    have hm : toy.d2iCms [7] = some ((7, []) : UInt8 × Bytes) := rfl
    simp only [hm]
    cases h1 : optStack toy none with
    | none => rfl
    | some cs =>
      simp only
      cases h2 : optStore toy ok store with
      | none => rfl
      | some st =>
        simp only
        cases cmsVerify toy (7, []) cs st && ok 1000000 <;> rfl

/-- non-vacuity of C98_voucher: there are blocks of that size. -/
example : ∃ b : Bytes, b.length = 3 * 2 ^ 29 ∧ Env.plain.NoOom := ⟨List.replicate _ 0, List.length_replicate, plain_noOom⟩

/-! ## C99 -/

/-- **C99**: a voucher document (in any layout, with any members) that has been cut short is refused, wherever it is cut; only
white space at its end may be missing. -/
theorem C99_cut_refused (env : Env) (d : FlatDoc) (hd : d.Ok) (p x : Bytes) (h : d.render = p ++ x)
    (hx : d.w5.length < x.length) : deserialize env p = .ok none := cut_refused env d hd p x h hx

/-- **C99**, what the library writes: no proper beginning of the text of a voucher is accepted, whatever happens to memory. -/
theorem C99_vouchers (env env' : Env) (v : Voucher) (hb : Built v) (ht : TimesOk v) (hp : SerialText v) (t : Bytes)
    (h : serialize env v = .ok (some t)) (p x : Bytes) (hpx : t = p ++ x) (hx : x ≠ []) :
    deserialize env' p = .ok none := by
  have hv := built_ok hb
  rcases serialize_ok env v hv.1 hv.2 with e | ⟨-, e⟩
  · rw [e] at h; cases h
  · rw [e] at h
    cases h
    exact cut_refused env' _ (docOf_ok hv ht hp) p x hpx (by
      show 0 < _
      cases x with
      | nil => exact absurd rfl hx
      | cons => simp)

/-- non-vacuity of C99: a document with a member, cut before its last character, inside a string, and not cut. -/
example : let d := FlatDoc.compact rootName [(str "nonce", .text (str "AAAA"))]
    d.Ok ∧ d.render = str "{\"ietf-voucher:voucher\":{\"nonce\":\"AAAA\"}" ++ str "}" ∧
    deserialize Env.plain (str "{\"ietf-voucher:voucher\":{\"nonce\":\"AA") = .ok none ∧
    (match deserialize Env.plain d.render with | .ok (some v) => v.nonce | _ => .empty) = .of [0, 0, 0] := by
  refine ⟨FlatDoc.Plain.ok ?_, by decide +kernel, by decide +kernel, by decide +kernel⟩
  decide +kernel

/-! ## C101 -/

/-- **C101**: the signing functions for the two kinds of keys do what the general one does with a key that is read alike. -/
def C101_statement : Prop :=
  ∀ (O : Ossl) (readKey : Bytes → Option O.Key) (L : Log.Settings) (env : Env) (v : Voucher) (cert key : Option BinArr)
    (certs : Option CertList), VoucherOk v → (∀ k, key = some (.of k) → readKey k = O.d2iKey k) → ArgWf cert → ArgWf key →
    signEccmsVoucher O readKey L env v cert key certs = signCmsVoucher O env v cert key certs ∧
    signRsacmsVoucher O readKey env v cert key certs = signCmsVoucher O env v cert key certs

theorem signCmsBy_congr (O : Ossl) (f g : Bytes → Option O.Key) (data : Bytes) (cert key : BinArr) (certs : Option CertList)
    (hk : BinArr.Wf key) (h : ∀ k, key = .of k → f k = g k) :
    signCmsBy O f data cert key certs = signCmsBy O g data cert key certs := by
  rcases wf_cases hk with rfl | ⟨k, rfl⟩
  · simp [signCmsBy, BinArr.empty]
  · unfold signCmsBy
    rw [arrBytes_of, bind'_ok, bind'_ok, h k rfl]

/-- **C101**, the function for RSA keys. -/
theorem C101_rsa (O : Ossl) (readKey : Bytes → Option O.Key) (env : Env) (v : Voucher) (cert key : Option BinArr)
    (certs : Option CertList) (hv : VoucherOk v) (h : ∀ k, key = some (.of k) → readKey k = O.d2iKey k) (hk : ArgWf key) :
    signRsacmsVoucher O readKey env v cert key certs = signCmsVoucher O env v cert key certs := by
  unfold signRsacmsVoucher signCmsVoucher signCms
  cases cert with
  | none => rfl
  | some cert =>
    cases key with
    | none => rfl
    | some key =>
      simp only
      rcases serialize_encoded env v hv with e | ⟨t, -, e⟩
      · rw [e, bind'_ok, bind'_ok]
      · rw [e, bind'_ok, bind'_ok]
        exact signCmsBy_congr O _ _ t cert key certs (hk _ rfl) (fun k hk' => h k (by rw [hk']))

/-- **C101**, the part that holds for keys of elliptic curves: if trace messages are suppressed or the voucher can be
serialised. -/
theorem C101_partial (O : Ossl) (readKey : Bytes → Option O.Key) (L : Log.Settings) (env : Env) (v : Voucher)
    (cert key : Option BinArr) (certs : Option CertList) (hv : VoucherOk v)
    (h : ∀ k, key = some (.of k) → readKey k = O.d2iKey k) (hk : ArgWf key)
    (hL : 0 < L.level ∨ L.quiet = true ∨ serialize env v ≠ .ok none) :
    signEccmsVoucher O readKey L env v cert key certs = signCmsVoucher O env v cert key certs := by
  rw [← C101_rsa O readKey env v cert key certs hv h hk]
  unfold signEccmsVoucher signRsacmsVoucher
  cases cert with
  | none => rfl
  | some cert =>
    cases key with
    | none => rfl
    | some key =>
      simp only
      rcases serialize_encoded env v hv with e | ⟨t, -, e⟩
      · rw [e, bind'_ok, bind'_ok]
        have : Log.checkLevel L 0 false = true := by
          unfold Log.checkLevel
          rcases hL with hL | hL | hL
          · simp [hL]
          · simp [hL]
          · exact absurd e hL
        rw [logTrace, if_pos this, bind'_ok]
      · rw [e, bind'_ok, bind'_ok]
        have : logTrace L (some t) = .ok () := by
          unfold logTrace
          split <;> rfl
        rw [this, bind'_ok]

/-- **C101** is violated: with trace messages, as at the start of the program, a voucher that cannot be serialised is handed
to `printf` as a NULL pointer. -/
theorem C101_violated : ¬ C101_statement := by
  intro h
  have e := (h toy toy.d2iKey Log.defaults ⟨Env.plain.lib, fun _ => ⟨fun _ => none, by simp⟩, Env.plain.blk, Env.plain.blk_len⟩
    Voucher.init (some (.of [7])) (some (.of [7])) none voucherOk_init (fun _ _ => rfl)
    (fun y hy => by cases hy; exact wf_of _) (fun y hy => by cases hy; exact wf_of _)).1
  revert e
  decide +kernel

/-- non-vacuity of C101: a voucher is signed by the function for elliptic curves, as by the general one. -/
example : signEccmsVoucher toy toy.d2iKey Log.defaults Env.plain Voucher.init (some (.of [7])) (some (.of [7])) none =
      signCmsVoucher toy Env.plain Voucher.init (some (.of [7])) (some (.of [7])) none ∧
    (match signCmsVoucher toy Env.plain Voucher.init (some (.of [7])) (some (.of [7])) none with
      | .ok (some _) => true | _ => false) = true ∧
    serialize Env.plain Voucher.init ≠ .ok none := by
  refine ⟨by decide +kernel, by decide +kernel, by decide +kernel⟩

end Brski.Props
