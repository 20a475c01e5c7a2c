import Verif.PropsX509b
import Verif.PropsUtils

/-!
# C88, C89, C90: what the CA signs, random numbers, and the certificate a pledge generates
-/

namespace Brski.Props
open Outcome Names BoolTime X509

/-! ## C88 -/

/-- The values of the extension basic constraints that make a certificate one of a CA: a sequence that begins with the boolean
true (specification, RFC 5280, 4.2.1.9). -/
def CaValue (v : Bytes) : Prop := ∃ n rest, v = 48 :: n :: 1 :: 1 :: 255 :: rest

/-- **C88** as stated: what `crypto_sign_cert` is willing to sign carries a signature by the key it is for, and is not a certificate
of a CA. -/
def C88_statement : Prop :=
  ∀ (L : Lib) (ok : Bool) (key ca cert der : Bytes) (x : X509.Cert L.Pub L.Sig), X509.signCert L ok key ca cert = some der →
    L.d2i cert = some x →
    (∃ p s, x.tbs.pub = some p ∧ x.sig = some s ∧ L.verify p x.tbs s = true) ∧ ∀ v, (basicConstraints, v) ∈ x.tbs.exts → ¬ CaValue v

/-- A certificate of a CA for the key 9 of somebody else, signed by nobody. -/
def rogueCert : X509.Cert Nat Nat := ⟨⟨2, 7, 5, 105, [], [⟨13, some (str "x")⟩], [(87, [48, 3, 1, 1, 255])], some 9⟩, none⟩

/-- What the CA makes of it; the CA's own certificate has the same subject, which does not matter. -/
def rogueIssued : X509.Cert Nat Nat := ⟨{ rogueCert.tbs with issuer := [⟨13, some (str "x")⟩] }, some 4⟩

theorem rogue_signed : X509.signCert (certPair rogueCert rogueIssued) true [0, 4] [48, 0] [48, 0] = some [48, 1] := by decide +kernel

/-- The code violates C88: a certificate of a CA without a signature is signed. -/
theorem C88_violated : ¬ C88_statement := by
  intro h
  obtain ⟨⟨p, s, -, h2, -⟩, -⟩ := h _ _ _ _ _ _ rogueCert rogue_signed rfl
  cases h2

/-- The same for the second part. -/
theorem C88_violated_ca : ∃ (L : Lib) (key ca cert der : Bytes) (y : X509.Cert L.Pub L.Sig), X509.signCert L true key ca cert = some der ∧
    L.d2i der = some y ∧ ∃ v, (basicConstraints, v) ∈ y.tbs.exts ∧ CaValue v :=
  ⟨certPair rogueCert rogueIssued, [0, 4], [48, 0], [48, 0], [48, 1], rogueIssued, rogue_signed, rfl, [48, 3, 1, 1, 255],
    by decide +kernel, 3, [], rfl⟩

/-- The code violates C88 in general: with a key that can sign, the CA signs every certificate that can be read, with any
contents and any signature or none, and keeps extensions, serial number and public key. -/
theorem C88_violated_all (L : Lib) (key ca cert : Bytes) (k : L.Key) (c x : X509.Cert L.Pub L.Sig) (hk : L.anyKey key = some k)
    (hc : L.d2i ca = some c) (hx : L.d2i cert = some x) (hs : ∀ t, ∃ s, L.sign k t = some s ∧ L.verify (L.pub k) t s = true) :
    ∃ y, X509.signCert L true key ca cert = L.i2d y ∧ y.tbs.exts = x.tbs.exts ∧ y.tbs.serial = x.tbs.serial ∧ y.tbs.pub = x.tbs.pub := by
  obtain ⟨s, h1, h2⟩ := hs { x.tbs with issuer := c.tbs.subject }
  exact ⟨_, C87_complete L key ca cert k c x s hk hc hx h1 h2, rfl, rfl, rfl⟩

/-- Non-vacuity of C87_issued, C87_complete and C88_violated_all: the library above signs whatever is submitted. -/
example : ∃ k c x y, (certPair rogueCert rogueIssued).anyKey [0, 4] = some k ∧ (certPair rogueCert rogueIssued).d2i [48, 0] = some c ∧
    (certPair rogueCert rogueIssued).d2i [48, 0] = some x ∧ (certPair rogueCert rogueIssued).i2d y = some [48, 1] ∧
    IssuedFor (certPair rogueCert rogueIssued) c x y k :=
  C87_issued _ _ _ _ _ _ rogue_signed

example : X509.signCert (certPair rogueCert rogueIssued) true [0, 4] [48, 0] [48, 0] =
    (certPair rogueCert rogueIssued).i2d ⟨{ rogueCert.tbs with issuer := rogueCert.tbs.subject }, some (4 : Nat)⟩ :=
  C87_complete (certPair rogueCert rogueIssued) _ _ _ (4 : Nat) rogueCert rogueCert (4 : Nat) rfl rfl rfl rfl rfl

/-- **C88** for the certificates `crypto_generate_eccert` makes: they carry a signature by their own key, and the constraints
asked for.  Missing: nothing makes the CA check this. -/
theorem C88_partial (L : Lib) (hf : CertFaithful L) (read : Bytes → Option L.Key) (ok : Step → Bool) (now : Nat → Int) (m : Meta)
    (key cert : Bytes) (h : genCert L read ok now m key = some cert)
    (hm : ∀ c e, m.constraints = some c → L.constraints (cstr c) = some e → ¬ CaValue e) :
    ∃ x, L.d2i cert = some x ∧ (∃ p s, x.tbs.pub = some p ∧ x.sig = some s ∧ L.verify p x.tbs s = true) ∧
      ∀ v, (basicConstraints, v) ∈ x.tbs.exts → ¬ CaValue v := by
  obtain ⟨k, t, s, -, hc, hv, hd⟩ := C85_contents L read ok now m key cert h
  refine ⟨⟨t, some s⟩, hf _ _ hd, ⟨_, s, hc.pub, rfl, hv⟩, fun v hm' => ?_⟩
  rcases hc.exts with ⟨-, e⟩ | ⟨c, e, h1, h2, h3⟩
  · rw [e] at hm'; cases hm'
  · rw [h3, List.mem_singleton] at hm'
    cases hm'
    exact hm c v h1 h2

/-- Non-vacuity of C88_partial. -/
example : genCert (certPair accentedCert plainCert) (certPair accentedCert plainCert).rsaKey (fun _ => true) (fun _ => 5) plainMeta [7, 3] =
    some [48, 1] ∧ ¬ CaValue [48, 0] := ⟨by decide +kernel, by rintro ⟨n, r, h⟩; cases h⟩

/-! ## C89: random bytes -/

/-- A generator that gives as many bytes as it is asked for, or fails. -/
def Generator (rng : Nat → Option Bytes) : Prop := ∀ n r, rng n = some r → r.length = n

/-- **C89** as stated: after success the buffer holds exactly the bytes of the generator, for the length of the buffer. -/
def C89_statement : Prop :=
  ∀ (rng : Nat → Option Bytes) (buf b : Bytes), Generator rng → getRand rng buf = (b, true) → rng buf.length = some b

/-- A generator of bytes 7. -/
def sevens : Nat → Option Bytes := fun n => some (List.replicate n 7)

/-- For every multiple of 2^32 bytes nothing is written and success is returned. -/
theorem C89_violated_all (rng : Nat → Option Bytes) (buf : Bytes) (h0 : buf ≠ []) (h : buf.length % 2 ^ 32 = 0) (hr : rng 0 ≠ none) :
    getRand rng buf = (buf, true) := by
  have h0' : ¬ buf.length = 0 := fun e => h0 (List.length_eq_zero_iff.1 e)
  have h' : buf.length % 4294967296 = 0 := by simpa using h
  unfold getRand
  rw [if_neg h0', h']
  simp only [show 0 < 2147483648 by decide, if_true]
  cases hr' : rng 0 with
  | none => exact absurd hr' hr
  | some r => simp

/-- The code violates C89, for 2^32 bytes. -/
theorem C89_violated : ¬ C89_statement := by
  intro h
  have key : ∀ n, n ≠ 0 → n % 2 ^ 32 = 0 → False := by
    intro n h0 hn
    have hl : (List.replicate n (0 : UInt8)).length = n := List.length_replicate
    have hg := C89_violated_all sevens (List.replicate n 0) (fun e => h0 (by rw [← hl, e]; rfl)) (by rw [hl]; exact hn) nofun
    have h1 := h sevens _ _ (fun n r hr => by cases hr; exact List.length_replicate) hg
    rw [hl] at h1
    have h3 : (7 : UInt8) ∈ List.replicate n 0 := Option.some.inj h1 ▸ List.mem_replicate.2 ⟨h0, rfl⟩
    exact absurd (List.mem_replicate.1 h3).2 (by decide)
  exact key (2 ^ 32) (by decide) (by decide)

/-- **C89**, exactly: after success the first bytes, as many as remain of the length in 32 bits, are those of the generator, and
all others are as before; lengths that are negative in 32 bits are refused. -/
theorem C89_partial_exact (rng : Nat → Option Bytes) (buf b : Bytes) (hg : Generator rng) :
    getRand rng buf = (b, true) ↔ buf ≠ [] ∧ buf.length % 2 ^ 32 < 2 ^ 31 ∧ ∃ r, rng (buf.length % 2 ^ 32) = some r ∧
      b = r ++ buf.drop (buf.length % 2 ^ 32) := by
  unfold getRand
  rw [show (2 : Nat) ^ 32 = 4294967296 by decide, show (2 : Nat) ^ 31 = 2147483648 by decide]
  by_cases h0 : buf.length = 0
  · rw [List.length_eq_zero_iff] at h0
    simp [h0]
  · rw [if_neg h0]
    have hne : buf ≠ [] := fun e => h0 (by rw [e]; rfl)
    simp only
    by_cases hn : buf.length % 4294967296 < 2147483648
    · rw [if_pos hn]
      cases hr : rng (buf.length % 4294967296) with
      | none => simp
      | some r =>
        have ht : r.take (buf.length % 4294967296) = r := List.take_of_length_le (by rw [hg _ _ hr]; exact Nat.le_refl _)
        simp only [Prod.mk.injEq, and_true, ht]
        exact ⟨fun e => ⟨hne, hn, r, rfl, e.symm⟩, fun ⟨_, _, _, e1, e2⟩ => by cases e1; exact e2.symm⟩
    · rw [if_neg hn]
      simp [hn]

/-- **C89** for buffers below 2^31 bytes. -/
theorem C89_partial (rng : Nat → Option Bytes) (buf b : Bytes) (hg : Generator rng) (hl : buf.length < 2 ^ 31) :
    getRand rng buf = (b, true) ↔ buf ≠ [] ∧ rng buf.length = some b := by
  rw [C89_partial_exact rng buf b hg, Nat.mod_eq_of_lt (by omega)]
  simp only [List.drop_length, List.append_nil]
  exact ⟨fun ⟨h1, _, r, h2, h3⟩ => ⟨h1, h3 ▸ h2⟩, fun ⟨h1, h2⟩ => ⟨h1, hl, b, h2, rfl⟩⟩

/-- Non-vacuity. -/
example : getRand sevens [1, 2, 3] = ([7, 7, 7], true) ∧ Generator sevens :=
  ⟨by decide, fun n r hr => by cases hr; exact List.length_replicate⟩

/-! ## C90: the numbers of a pledge's certificates -/

/-- **C90** as stated: pledges whose generators of random bytes differ give certificates that differ in serial
number or subject. -/
def C90_statement : Prop :=
  ∀ (L : Lib) (e e' : GenEnv) (k k' c c' : Bytes) (x x' : X509.Cert L.Pub L.Sig), e.rng 8 ≠ e'.rng 8 →
    generate L e = .ok (some (some k, some c)) → generate L e' = .ok (some (some k', some c')) →
    L.i2d x = some c → L.i2d x' = some c' → (x.tbs.serial, x.tbs.subject) ≠ (x'.tbs.serial, x'.tbs.subject)

theorem mod_lemma (X P r c : Nat) (hc : X % 4 = c % 4) (hr : r < P) : (X * P + r) % (4 * P) = c % 4 * P + r := by
  have hX : X = 4 * (X / 4) + c % 4 := by omega
  have h4 : c % 4 < 4 := Nat.mod_lt _ (by decide)
  have hlt : c % 4 * P + r < 4 * P := by
    calc c % 4 * P + r < c % 4 * P + P := by omega
      _ = (c % 4 + 1) * P := by rw [Nat.add_mul, Nat.one_mul]
      _ ≤ 4 * P := Nat.mul_le_mul_right _ h4
  have : X * P + r = 4 * P * (X / 4) + (c % 4 * P + r) := by
    conv => lhs; rw [hX]
    rw [Nat.add_mul, Nat.add_assoc, Nat.mul_assoc, Nat.mul_assoc, Nat.mul_comm P]
  rw [this, Nat.mul_add_mod, Nat.mod_eq_of_lt hlt]

theorem rand_fold (M N K a b c d e : Nat) (hM : M = 4 * K) (hN : N = 4 * (M * M)) (he : e < M) (hd : d < M) :
    (((((0 * M + a) % N * M + b) % N * M + c) % N * M + d) % N * M + e) % N = c % 4 * (M * M) + (d * M + e) := by
  have step : ∀ x y, (x % N * M + y) % N = (x * M + y) % N := fun x y => by
    rw [Nat.add_mod, Nat.mod_mul_mod, ← Nat.add_mod]
  have eq : ((((0 * M + a) * M + b) * M + c) * M + d) * M + e = (a * M * M + b * M + c) * (M * M) + (d * M + e) := by
    simp only [Nat.add_mul, Nat.zero_mul, Nat.zero_add, Nat.mul_assoc, Nat.add_assoc]
  have hc : (a * M * M + b * M + c) % 4 = c % 4 := by
    rw [show a * M * M + b * M + c = 4 * (a * M * K + b * K) + c by
      rw [hM, Nat.mul_add, Nat.mul_left_comm 4 (a * (4 * K)) K, Nat.mul_left_comm 4 b K], Nat.mul_add_mod]
  have hr : d * M + e < M * M := by
    calc d * M + e < d * M + M := by omega
      _ = (d + 1) * M := by rw [Nat.add_mul, Nat.one_mul]
      _ ≤ M * M := Nat.mul_le_mul_right _ hd
  rw [step (0 * M + a), step ((0 * M + a) * M + b), step (((0 * M + a) * M + b) * M + c),
    step ((((0 * M + a) * M + b) * M + c) * M + d), eq, hN]
  exact mod_lemma _ _ _ _ hc hr

theorem fold5 (M N K : Nat) (f : Nat → Nat) (hM : M = 4 * K) (hN : N = 4 * (M * M)) (hf : ∀ k, f k < M) :
    (List.range 5).foldl (fun v k => (v * M + f k) % N) 0 = f 2 % 4 * (M * M) + (f 3 * M + f 4) :=
  rand_fold M N K (f 0) (f 1) (f 2) (f 3) (f 4) hM hN (hf 4) (hf 3)

/-- **C90**, the number exactly: two bits of the third, and the fourth and fifth pseudo-random number (below 2^31) after seeding
the generator with the second. -/
theorem C90_number (rnd : Nat → Nat → Nat) (hr : ∀ s k, rnd s k < 2147483648) (time : Nat) :
    genRand64 rnd time = rnd (time % 4294967296) 2 % 4 * (2147483648 * 2147483648) +
      (rnd (time % 4294967296) 3 * 2147483648 + rnd (time % 4294967296) 4) :=
  fold5 2147483648 18446744073709551616 536870912 (rnd (time % 4294967296)) (by decide) (by decide) (hr _)

/-- What `generate_sign_cert` gives: nothing, or the key and the certificate for it, with the number of C90 and the first 15
hexadecimal digits of the random bytes as serial number in the name. -/
theorem generate_inv (L : Lib) (e : GenEnv) (hg : Generator e.rng) (hb : e.rands.length = 17) :
    generate L e = .ok none ∨ ∃ r, e.rng 8 = some r ∧ r.length = 8 ∧ generate L e = .ok (some (e.key, e.key.bind fun k =>
      genCert L L.ecKey e.ok e.now (pledgeMeta (genRand64 e.rnd e.time) ((hexText true r).take 15)) k)) := by
  unfold generate
  simp only
  cases hr : getRand e.rng (List.replicate 8 0) with
  | mk b ok =>
    cases ok with
    | false => exact .inl rfl
    | true =>
      have h8 := ((C89_partial e.rng _ b hg (by decide)).1 hr).2
      have hbl : b.length = 8 := hg 8 b h8
      obtain ⟨d, h1, -, -, h2⟩ := C49_partial_exact e.rands 16 b true (by decide) (by omega) (fun e => by rw [e] at hbl; cases hbl)
      simp only [if_true, h1, bind'_ok, h2]
      split
      · exact .inr ⟨b, h8, hbl, rfl⟩
      · exact .inl rfl

/-- The instance: a pledge at time 3 with a poor generator of pseudo-random numbers, whose random bytes are given. -/
def pledgeAt (r : Bytes) : GenEnv :=
  ⟨fun s k => s + k, 3, fun n => if n = 8 then some r else none, List.replicate 17 0, fun _ => true, some [6, 9], fun _ => true, fun _ => 5⟩

/-- The certificate both of two pledges make. -/
def pledgeCert : X509.Cert Nat Nat :=
  ⟨⟨2, 4611686018427387904 + 12884901888 + 7, 5, 253402300799, [], [⟨14, some (str "IE")⟩, ⟨13, some (str "ldevid-cert")⟩,
    ⟨105, some (str "010203040506070")⟩], [(87, [48, 0])], some 9⟩, some 9⟩

theorem pledges_alike : generate (certPair pledgeCert pledgeCert) (pledgeAt [1, 2, 3, 4, 5, 6, 7, 8]) =
      .ok (some (some [6, 9], some [48, 0])) ∧
    generate (certPair pledgeCert pledgeCert) (pledgeAt [1, 2, 3, 4, 5, 6, 7, 9]) = .ok (some (some [6, 9], some [48, 0])) := by
  constructor <;> decide +kernel

/-- The code violates C90: number and name are the same. -/
theorem C90_violated : ¬ C90_statement := fun h =>
  h (certPair pledgeCert pledgeCert) _ _ _ _ _ _ pledgeCert pledgeCert (by decide) pledges_alike.1 pledges_alike.2 (by decide) (by decide) rfl

/-- The code violates C90 for any two pledges that generate in the same second: the serial numbers are the same, whatever the
random bytes are. -/
theorem C90_violated_all (L : Lib) (hf : CertFaithful L) (e e' : GenEnv) (hg : Generator e.rng) (hg' : Generator e'.rng)
    (hb : e.rands.length = 17) (hb' : e'.rands.length = 17) (ht : e.time = e'.time) (hr : e.rnd = e'.rnd) (k k' c c' : Bytes)
    (h : generate L e = .ok (some (some k, some c))) (h' : generate L e' = .ok (some (some k', some c'))) :
    ∃ x x', L.d2i c = some x ∧ L.d2i c' = some x' ∧ x.tbs.serial = x'.tbs.serial := by
  have serial : ∀ (e : GenEnv) (k c : Bytes), Generator e.rng → e.rands.length = 17 → generate L e = .ok (some (some k, some c)) →
      ∃ x, L.d2i c = some x ∧ x.tbs.serial = genRand64 e.rnd e.time := by
    intro e k c hg hb h
    rcases generate_inv L e hg hb with h0 | ⟨r, -, -, h0⟩
    · rw [h0] at h; cases h
    · rw [h0] at h
      simp only [Outcome.ok.injEq, Option.some.injEq, Prod.mk.injEq] at h
      obtain ⟨h1, h2⟩ := h
      rw [h1, Option.bind_some] at h2
      obtain ⟨_, t, s, -, hc, -, hd⟩ := C85_contents L _ _ _ _ _ _ h2
      exact ⟨_, hf _ _ hd, hc.serial⟩
  obtain ⟨x, h1, h2⟩ := serial e k c hg hb h
  obtain ⟨x', h3, h4⟩ := serial e' k' c' hg' hb' h'
  exact ⟨x, x', h1, h3, by rw [h2, h4, ht, hr]⟩

theorem hexDigit_inj {a b : Nat} (ha : a < 16) (hb : b < 16) (h : Utils.hexDigit true a = Utils.hexDigit true b) : a = b := by
  have : ∀ x y : Fin 16, Utils.hexDigit true x.val = Utils.hexDigit true y.val → x = y := by decide +kernel
  exact congrArg Fin.val (this ⟨a, ha⟩ ⟨b, hb⟩ h)

/-- The first 15 digits leave out the lower half of the eighth byte. -/
theorem hex15_iff (r r' : Bytes) (h : r.length = 8) (h' : r'.length = 8) :
    (hexText true r).take 15 = (hexText true r').take 15 ↔
      r.take 7 = r'.take 7 ∧ (r.getD 7 0).toNat / 16 = (r'.getD 7 0).toNat / 16 := by
  match r, r', h, h' with
  | [a0, a1, a2, a3, a4, a5, a6, a7], [b0, b1, b2, b3, b4, b5, b6, b7], _, _ =>
    simp only [hexText_cons, List.take_succ_cons, List.take_zero, List.cons.injEq, and_true]
    have hi : ∀ x y : UInt8, Utils.hexDigit true (x.toNat / 16) = Utils.hexDigit true (y.toNat / 16) ↔ x.toNat / 16 = y.toNat / 16 :=
      fun x y => ⟨hexDigit_inj (by have := x.toNat_lt; omega) (by have := y.toNat_lt; omega), fun e => by rw [e]⟩
    have lo : ∀ x y : UInt8, Utils.hexDigit true (x.toNat % 16) = Utils.hexDigit true (y.toNat % 16) ↔ x.toNat % 16 = y.toNat % 16 :=
      fun x y => ⟨hexDigit_inj (by omega) (by omega), fun e => by rw [e]⟩
    have eq : ∀ x y : UInt8, x = y ↔ x.toNat / 16 = y.toNat / 16 ∧ x.toNat % 16 = y.toNat % 16 := fun x y =>
      ⟨fun e => by rw [e]; exact ⟨rfl, rfl⟩, fun ⟨e1, e2⟩ => UInt8.toNat_inj.1 (by omega)⟩
    simp only [hi, lo, List.getD_cons_succ, List.getD_cons_zero, eq, and_assoc]

theorem hex_ascii (r : Bytes) : ∀ b ∈ hexText true r, b < 128 := by
  have hd : ∀ n : Fin 16, Utils.hexDigit true n.val < 128 := by decide +kernel
  induction r with
  | nil => intro b h; cases h
  | cons c r ih =>
    have hc := c.toNat_lt
    rw [hexText_cons]
    intro b h
    rcases List.mem_cons.1 h with rfl | h
    · exact hd ⟨c.toNat / 16, by omega⟩
    · rcases List.mem_cons.1 h with rfl | h
      · exact hd ⟨c.toNat % 16, by omega⟩
      · exact ih b h

/-- The name in a certificate a pledge generates. -/
theorem generated_name (L : Lib) (e : GenEnv) (hg : Generator e.rng) (hb : e.rands.length = 17) (k c : Bytes)
    (h : generate L e = .ok (some (some k, some c))) : ∃ r x nid, e.rng 8 = some r ∧ r.length = 8 ∧ L.i2d x = some c ∧
      L.object (str "serialNumber") = some nid ∧ x.tbs.subject[2]? = some (⟨nid, some ((hexText true r).take 15)⟩ : Entry) := by
  rcases generate_inv L e hg hb with h0 | ⟨r, h1, h2, h0⟩
  · rw [h0] at h; cases h
  · rw [h0] at h
    simp only [Outcome.ok.injEq, Option.some.injEq, Prod.mk.injEq] at h
    obtain ⟨h3, h4⟩ := h
    rw [h3, Option.bind_some] at h4
    obtain ⟨_, t, s, -, hc, -, hd⟩ := C85_contents L _ _ _ _ _ _ h4
    obtain ⟨k', v', nid, e1, e2, -, e3⟩ := hc.subject.2 2 (some (str "serialNumber"), some ((hexText true r).take 15)) rfl
    cases e1
    have hz : 0 ∉ (hexText true r).take 15 := fun hm => hexText_no_zero true r ((List.take_sublist 15 _).mem hm)
    rw [cstr_same (by decide +kernel)] at e2
    rw [cstr_same hz, fromLatin1_ascii fun b hm => hex_ascii r b ((List.take_sublist 15 _).mem hm)] at e3
    exact ⟨r, _, nid, h1, h2, hd, e2, e3⟩

/-- **C90**, the part that holds: random bytes that differ in the first seven bytes or the upper half of the eighth give
certificates with different subjects.  Missing: the lower half of the eighth byte, and the serial number. -/
theorem C90_partial (L : Lib) (hf : CertFaithful L) (e e' : GenEnv) (hg : Generator e.rng) (hg' : Generator e'.rng)
    (hb : e.rands.length = 17) (hb' : e'.rands.length = 17) (k k' c c' r r' : Bytes) (x x' : X509.Cert L.Pub L.Sig)
    (h : generate L e = .ok (some (some k, some c))) (h' : generate L e' = .ok (some (some k', some c'))) (hr : e.rng 8 = some r)
    (hr' : e'.rng 8 = some r') (hx : L.i2d x = some c) (hx' : L.i2d x' = some c')
    (hne : r.take 7 ≠ r'.take 7 ∨ (r.getD 7 0).toNat / 16 ≠ (r'.getD 7 0).toNat / 16) : x.tbs.subject ≠ x'.tbs.subject := by
  intro he
  obtain ⟨r1, x1, nid, h1, h2, h3, h4, h5⟩ := generated_name L e hg hb k c h
  obtain ⟨r2, x2, nid', h1', h2', h3', h4', h5'⟩ := generated_name L e' hg' hb' k' c' h'
  rw [hr] at h1; cases h1
  rw [hr'] at h1'; cases h1'
  have i1 := (hf _ _ hx).symm.trans (hf _ _ h3)
  have i2 := (hf _ _ hx').symm.trans (hf _ _ h3')
  cases i1
  cases i2
  rw [he, h5'] at h5
  simp only [Option.some.injEq, Entry.mk.injEq] at h5
  have := (hex15_iff r' r h2' h2).1 h5.2
  exact hne.elim (fun hn => hn this.1.symm) (fun hn => hn this.2.symm)

/-- The certificate of a third pledge. -/
def otherCert : X509.Cert Nat Nat :=
  ⟨{ pledgeCert.tbs with subject := [⟨14, some (str "IE")⟩, ⟨13, some (str "ldevid-cert")⟩, ⟨105, some (str "010203040506071")⟩] }, some 9⟩

theorem pledgeAt_generator {r : Bytes} (h : r.length = 8) : Generator (pledgeAt r).rng := by
  intro n b hb
  simp only [pledgeAt] at hb
  split at hb
  · next e => cases hb; rw [h, e]
  · cases hb

/-- Non-vacuity of C90_partial and C90_violated_all. -/
example : pledgeCert.tbs.subject ≠ otherCert.tbs.subject :=
  C90_partial (certPair pledgeCert otherCert) (certPair_faithful _ _) (pledgeAt [1, 2, 3, 4, 5, 6, 7, 8]) (pledgeAt [1, 2, 3, 4, 5, 6, 7, 16])
    (pledgeAt_generator rfl) (pledgeAt_generator rfl) rfl rfl [6, 9] [6, 9] [48, 0] [48, 1] _ _ pledgeCert otherCert (by decide +kernel)
    (by decide +kernel) rfl rfl (by decide +kernel) (by decide +kernel) (by decide)

/-- Both sides occur. -/
example : (hexText true [1, 2, 3, 4, 5, 6, 7, 8]).take 15 = (hexText true [1, 2, 3, 4, 5, 6, 7, 15]).take 15 ∧
    (hexText true [1, 2, 3, 4, 5, 6, 7, 8]).take 15 ≠ (hexText true [1, 2, 3, 4, 5, 6, 7, 16]).take 15 := by decide +kernel

end Brski.Props
