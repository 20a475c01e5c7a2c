import Verif.X509

/-!
# C85, C87: the contents of generated and issued certificates
-/

namespace Brski.Props
open Outcome Names BoolTime X509

/-! ## Specification -/

/-- The UTF-8 text of a value given in Latin-1 (specification, by Lean's own encoder). -/
def fromLatin1 (v : Bytes) : Bytes := v.flatMap fun b => String.utf8EncodeChar (Char.ofNat b.toNat)

/-- A name made of the pairs of a list: one entry for each pair, in the same order (specification). -/
def NamedBy (L : Lib) (ps : List (Option Bytes × Option Bytes)) (n : List Entry) : Prop :=
  n.length = ps.length ∧ ∀ (i : Nat) p, ps[i]? = some p → ∃ k v nid, p = (some k, some v) ∧ L.object (cstr k) = some nid ∧
    L.fits nid (cstr v) = true ∧ n[i]? = some (⟨nid, some (fromLatin1 (cstr v))⟩ : Entry)

/-- The end of the validity the metadata ask for (specification): the absolute time if there is one, otherwise relative to now. -/
def EndsAt (L : Lib) (m : Meta) (now t : Int) : Prop :=
  (∃ a, m.absolute = some a ∧ m.notAfter = 0 ∧ L.time (cstr a) = some t) ∨ (m.absolute = none ∧ t = now + m.notAfter)

/-- The extensions the metadata ask for (specification). -/
def Extended (L : Lib) (m : Meta) (es : List (Nat × Bytes)) : Prop :=
  (m.constraints = none ∧ es = []) ∨ ∃ c e, m.constraints = some c ∧ L.constraints (cstr c) = some e ∧ es = [(87, e)]

/-- The contents of a certificate with the given metadata for the key `k` (specification). -/
structure Carries (L : Lib) (m : Meta) (now : Nat → Int) (k : L.Key) (t : Tbs L.Pub) : Prop where
  version : t.version = 2
  serial : t.serial = m.serial
  begins : t.notBefore = now 0 + m.notBefore
  ends : EndsAt L m (now 1) t.notAfter
  issuer : NamedBy L (m.issuer.getD []) t.issuer
  subject : NamedBy L (m.subject.getD []) t.subject
  exts : Extended L m t.exts
  pub : t.pub = some (L.pub k)

/-! ## The steps -/

theorem latin_utf8 (b : UInt8) : latin b = String.utf8EncodeChar (Char.ofNat b.toNat) := by
  have h : ∀ n : Fin 256, latin (UInt8.ofNat n.val) = String.utf8EncodeChar (Char.ofNat (UInt8.ofNat n.val).toNat) := by decide +kernel
  have := h ⟨b.toNat, b.toNat_lt⟩
  simpa using this

theorem latinText_eq (v : Bytes) : latinText v = fromLatin1 v := by
  unfold latinText fromLatin1
  congr 1
  funext b
  exact latin_utf8 b

theorem addEntry_some {L : Lib} {ok : Bool} {n n' : List Entry} {k v : Bytes} :
    addEntry L ok n k v = some n' ↔ ∃ nid, ok = true ∧ L.object k = some nid ∧ L.fits nid v = true ∧
      n' = n ++ [⟨nid, some (fromLatin1 v)⟩] := by
  unfold addEntry
  cases ho : L.object k with
  | none => simp
  | some nid =>
    simp only [latinText_eq, Option.some.injEq]
    constructor
    · intro h
      split at h
      · next hc =>
        rw [Bool.and_eq_true] at hc
        cases h
        exact ⟨nid, hc.1, rfl, hc.2, rfl⟩
      · cases h
    · rintro ⟨_, rfl, rfl, h2, rfl⟩
      rw [Bool.true_and, if_pos h2]

theorem addPairs_some {L : Lib} {ok : Nat → Bool} : ∀ (ps : List (Option Bytes × Option Bytes)) (i : Nat) (n n' : List Entry),
    addPairs L ok i ps n = some n' ↔ ∃ es, n' = n ++ es ∧ NamedBy L ps es ∧ ∀ j < ps.length, ok (i + j) = true
  | [], i, n, n' => by
    simp only [addPairs, Option.some.injEq]
    constructor
    · rintro rfl
      exact ⟨[], by simp, ⟨rfl, by simp⟩, by simp⟩
    · rintro ⟨es, rfl, ⟨h, -⟩, -⟩
      rw [List.length_nil, List.length_eq_zero_iff] at h
      rw [h, List.append_nil]
  | p :: ps, i, n, n' => by
    have key : ∀ {k v nid es}, p = (some k, some v) → L.object (cstr k) = some nid → L.fits nid (cstr v) = true → NamedBy L ps es →
        NamedBy L (p :: ps) (⟨nid, some (fromLatin1 (cstr v))⟩ :: es) := by
      rintro k v nid es rfl h1 h2 ⟨h3, h4⟩
      refine ⟨by simp [h3], fun j q hq => ?_⟩
      cases j with
      | zero => cases hq; exact ⟨k, v, nid, rfl, h1, h2, rfl⟩
      | succ j => exact h4 j q hq
    have back : ∀ {es}, NamedBy L (p :: ps) es → ∃ k v nid es', p = (some k, some v) ∧ L.object (cstr k) = some nid ∧
        L.fits nid (cstr v) = true ∧ es = ⟨nid, some (fromLatin1 (cstr v))⟩ :: es' ∧ NamedBy L ps es' := by
      rintro es ⟨h1, h2⟩
      obtain ⟨k, v, nid, h3, h4, h5, h6⟩ := h2 0 p rfl
      cases es with
      | nil => cases h6
      | cons e es => cases h6; exact ⟨k, v, nid, es, h3, h4, h5, rfl, by simpa using h1, fun j q hq => h2 (j + 1) q hq⟩
    obtain ⟨ko, vo⟩ := p
    cases ko with
    | none =>
      simp only [addPairs, reduceCtorEq, false_iff, not_exists, not_and]
      intro es _ h
      obtain ⟨k, v, _, _, h, -⟩ := back h
      cases h
    | some k =>
      cases vo with
      | none =>
        simp only [addPairs, reduceCtorEq, false_iff, not_exists, not_and]
        intro es _ h
        obtain ⟨k, v, _, _, h, -⟩ := back h
        cases h
      | some v =>
        simp only [addPairs]
        have h0 := @addEntry_some L (ok i) n
        constructor
        · intro h
          cases ha : addEntry L (ok i) n (cstr k) (cstr v) with
          | none => rw [ha] at h; cases h
          | some n1 =>
            rw [ha] at h
            obtain ⟨nid, a1, a2, a3, rfl⟩ := h0.1 ha
            obtain ⟨es, rfl, b1, b2⟩ := (addPairs_some ps (i + 1) _ n').1 h
            refine ⟨_ :: es, by simp, key rfl a2 a3 b1, fun j hj => ?_⟩
            cases j with
            | zero => exact a1
            | succ j => rw [show i + (j + 1) = i + 1 + j by omega]; exact b2 j (by simpa using hj)
        · rintro ⟨es, rfl, b1, b2⟩
          obtain ⟨k', v', nid, es', e1, e2, e3, rfl, e4⟩ := back b1
          cases e1
          rw [h0.2 ⟨nid, by simpa using b2 0 (by simp), e2, e3, rfl⟩]
          simp only
          refine (addPairs_some ps (i + 1) _ _).2 ⟨es', by simp, e4, fun j hj => ?_⟩
          rw [show i + 1 + j = i + (j + 1) by omega]
          exact b2 (j + 1) (by simpa using hj)

theorem makeName_some {L : Lib} {ok : Step → Bool} {b : Bool} {ps : List (Option Bytes × Option Bytes)} {n : List Entry} :
    makeName L ok b ps = some n ↔ NamedBy L ps n ∧ ok (.newName b) = true ∧ ok (.setName b) = true ∧
      ∀ j < ps.length, ok (.entry b j) = true := by
  have h := @addPairs_some L (fun i => ok (.entry b i)) ps 0 []
  unfold makeName
  constructor
  · intro hn
    split at hn
    · next h1 =>
      split at hn
      · cases hn
      · next n1 h2 =>
        split at hn
        · next h3 =>
          cases hn
          obtain ⟨es, e1, e2, e3⟩ := (h n).1 h2
          rw [List.nil_append] at e1
          subst e1
          exact ⟨e2, h1, h3, fun j hj => by simpa using e3 j hj⟩
        · cases hn
    · cases hn
  · rintro ⟨h1, h2, h3, h4⟩
    rw [if_pos h2, (h n).2 ⟨n, rfl, h1, fun j hj => by simpa using h4 j hj⟩]
    simp only
    rw [if_pos h3]

theorem setAfter_some {L : Lib} {ok : Step → Bool} {now : Int} {m : Meta} {t t' : Tbs L.Pub} (h : setAfter L ok now m t = some t') :
    ∃ e, EndsAt L m now e ∧ t' = { t with notAfter := e } := by
  unfold setAfter at h
  cases ha : m.absolute with
  | none =>
    rw [ha] at h
    simp only at h
    split at h
    · cases h; exact ⟨_, .inr ⟨ha, rfl⟩, rfl⟩
    · cases h
  | some a =>
    rw [ha] at h
    simp only at h
    split at h
    · cases h
    · next h0 =>
      split at h
      · cases ht : L.time (cstr a) with
        | none => rw [ht] at h; cases h
        | some e =>
          rw [ht] at h
          simp only at h
          split at h
          · cases h; exact ⟨e, .inl ⟨a, ha, by simpa using h0, ht⟩, rfl⟩
          · cases h
      · cases h

theorem setAfter_full {L : Lib} {ok : Step → Bool} (hok : ∀ s, ok s = true) {now e : Int} {m : Meta} (t : Tbs L.Pub)
    (h : EndsAt L m now e) : setAfter L ok now m t = some { t with notAfter := e } := by
  unfold setAfter
  rcases h with ⟨a, h1, h2, h3⟩ | ⟨h1, rfl⟩
  · simp [h1, h2, h3, hok]
  · simp [h1, hok]

theorem setExt_some {L : Lib} {ok : Step → Bool} {m : Meta} {t t' : Tbs L.Pub} (h : setExt L ok m t = some t') :
    ∃ es, Extended L m es ∧ t' = { t with exts := t.exts ++ es } := by
  unfold setExt at h
  cases hc : m.constraints with
  | none => rw [hc] at h; cases h; exact ⟨[], .inl ⟨hc, rfl⟩, by simp⟩
  | some c =>
    rw [hc] at h
    simp only at h
    cases he : L.constraints (cstr c) with
    | none => rw [he] at h; cases h
    | some e =>
      rw [he] at h
      simp only at h
      split at h
      · cases h; exact ⟨_, .inr ⟨c, e, hc, he, rfl⟩, rfl⟩
      · cases h

theorem setExt_full {L : Lib} {ok : Step → Bool} (hok : ∀ s, ok s = true) {m : Meta} (t : Tbs L.Pub) {es : List (Nat × Bytes)}
    (h : Extended L m es) : setExt L ok m t = some { t with exts := t.exts ++ es } := by
  unfold setExt
  rcases h with ⟨h1, rfl⟩ | ⟨c, e, h1, h2, rfl⟩
  · simp [h1]
  · simp [h1, h2, hok, basicConstraints]

/-- The part of the contents that `set_certificate_meta` is responsible for. -/
structure MetaIn (L : Lib) (m : Meta) (now : Nat → Int) (t : Tbs L.Pub) : Prop where
  version : t.version = 2
  serial : t.serial = m.serial
  begins : t.notBefore = now 0 + m.notBefore
  ends : EndsAt L m (now 1) t.notAfter
  issuer : NamedBy L (m.issuer.getD []) t.issuer
  subject : NamedBy L (m.subject.getD []) t.subject
  exts : Extended L m t.exts

theorem namedBy_nil (L : Lib) : NamedBy L [] [] := ⟨rfl, by simp⟩

/-- The contents with version, number and dates. -/
def dated (L : Lib) (m : Meta) (now : Nat → Int) (e : Int) (i u : List Entry) : Tbs L.Pub :=
  ⟨2, m.serial, now 0 + m.notBefore, e, i, u, [], none⟩

/-- `set_certificate_meta` after the dates. -/
theorem setMeta_eq {L : Lib} {ok : Step → Bool} {now : Nat → Int} {m : Meta} : setMeta L ok now m (empty L).tbs =
    if ok .version then
      if ok .newInt && ok .setInt && ok .setSerial then
        if ok .before then
          (setAfter L ok (now 1) m (dated L m now 0 [] [])).bind fun t =>
          (match m.issuer with
            | none => some t
            | some ps => (makeName L ok false ps).map fun n => { t with issuer := n }).bind fun t =>
          (match m.subject with
            | none => some t
            | some ps => (makeName L ok true ps).map fun n => { t with subject := n }).bind fun t =>
          setExt L ok m t
        else none
      else none
    else none := by
  unfold setMeta setSerial
  cases (ok .newInt && ok .setInt && ok .setSerial) <;> rfl

theorem setMeta_some {L : Lib} {ok : Step → Bool} {now : Nat → Int} {m : Meta} {t : Tbs L.Pub}
    (h : setMeta L ok now m (empty L).tbs = some t) : MetaIn L m now t := by
  rw [setMeta_eq] at h
  split at h
  · split at h
    · split at h
      · rw [Option.bind_eq_some_iff] at h
        obtain ⟨t2, h2, h⟩ := h
        obtain ⟨e, he, rfl⟩ := setAfter_some h2
        rw [Option.bind_eq_some_iff] at h
        obtain ⟨t3, h3, h⟩ := h
        rw [Option.bind_eq_some_iff] at h
        obtain ⟨t4, h4, h⟩ := h
        obtain ⟨es, hes, rfl⟩ := setExt_some h
        have i3 : ∃ i, NamedBy L (m.issuer.getD []) i ∧ t3 = dated L m now e i [] := by
          cases hm : m.issuer with
          | none => rw [hm] at h3; cases h3; exact ⟨[], namedBy_nil L, rfl⟩
          | some ps =>
            rw [hm] at h3
            simp only [Option.map_eq_some_iff] at h3
            obtain ⟨n, hn, rfl⟩ := h3
            exact ⟨n, (makeName_some.1 hn).1, rfl⟩
        obtain ⟨i, i3, rfl⟩ := i3
        have i4 : ∃ u, NamedBy L (m.subject.getD []) u ∧ t4 = dated L m now e i u := by
          cases hm : m.subject with
          | none => rw [hm] at h4; cases h4; exact ⟨[], namedBy_nil L, rfl⟩
          | some ps =>
            rw [hm] at h4
            simp only [Option.map_eq_some_iff] at h4
            obtain ⟨n, hn, rfl⟩ := h4
            exact ⟨n, (makeName_some.1 hn).1, rfl⟩
        obtain ⟨u, i4, rfl⟩ := i4
        exact ⟨rfl, rfl, rfl, he, i3, i4, hes⟩
      · cases h
    · cases h
  · cases h

theorem setMeta_full {L : Lib} {ok : Step → Bool} (hok : ∀ s, ok s = true) {now : Nat → Int} {m : Meta} {t : Tbs L.Pub}
    (h : MetaIn L m now t) : setMeta L ok now m (empty L).tbs = some { t with pub := none } := by
  obtain ⟨v, s, b, e, i, u, x⟩ := h
  rw [setMeta_eq]
  simp only [hok, if_true, Bool.and_self, setAfter_full hok _ e, Option.bind_some]
  have hi : (match m.issuer with
        | none => some (dated L m now t.notAfter [] [])
        | some ps => (makeName L ok false ps).map fun n => dated L m now t.notAfter n []) = some (dated L m now t.notAfter t.issuer []) := by
    cases hm : m.issuer with
    | none =>
      rw [hm] at i
      have : t.issuer.length = 0 := i.1
      rw [List.length_eq_zero_iff] at this
      rw [this]
    | some ps =>
      rw [hm, Option.getD_some] at i
      simp only
      rw [makeName_some.2 ⟨i, hok _, hok _, fun _ _ => hok _⟩]
      rfl
  have hu : (match m.subject with
        | none => some (dated L m now t.notAfter t.issuer [])
        | some ps => (makeName L ok true ps).map fun n => dated L m now t.notAfter t.issuer n) =
      some (dated L m now t.notAfter t.issuer t.subject) := by
    cases hm : m.subject with
    | none =>
      rw [hm] at u
      have : t.subject.length = 0 := u.1
      rw [List.length_eq_zero_iff] at this
      rw [this]
    | some ps =>
      rw [hm, Option.getD_some] at u
      simp only
      rw [makeName_some.2 ⟨u, hok _, hok _, fun _ _ => hok _⟩]
      rfl
  refine (congrArg (fun o => Option.bind o _) hi).trans ?_
  rw [Option.bind_some]
  refine (congrArg (fun o => Option.bind o _) hu).trans ?_
  rw [Option.bind_some, setExt_full hok _ x]
  simp only [dated, List.nil_append, v, s, b]

theorem signSha_some {L : Lib} {x y : X509.Cert L.Pub L.Sig} {k : L.Key} :
    signSha L x k = some y ↔ ∃ s, L.sign k x.tbs = some s ∧ L.verify (L.pub k) x.tbs s = true ∧ y = ⟨x.tbs, some s⟩ := by
  unfold signSha
  cases hs : L.sign k x.tbs with
  | none => simp
  | some s =>
    simp only [Option.some.injEq]
    constructor
    · intro h
      split at h
      · next hv => cases h; exact ⟨s, rfl, hv, rfl⟩
      · cases h
    · rintro ⟨_, rfl, hv, rfl⟩
      rw [if_pos hv]

/-! ## C85 -/

/-- **C85**: a certificate generated from metadata has version 3, the serial number, the dates, the names (pair for pair in
order, values taken as Latin-1), the basic constraints and nothing else, the public key of the given key, and a signature
that this key verifies. -/
theorem C85_contents (L : Lib) (read : Bytes → Option L.Key) (ok : Step → Bool) (now : Nat → Int) (m : Meta) (key der : Bytes)
    (h : genCert L read ok now m key = some der) :
    ∃ k t s, read key = some k ∧ Carries L m now k t ∧ L.verify (L.pub k) t s = true ∧ L.i2d ⟨t, some s⟩ = some der := by
  unfold genCert at h
  split at h
  · simp only [Option.bind_eq_some_iff] at h
    obtain ⟨t, h1, k, h2, h⟩ := h
    split at h
    · rw [Option.bind_eq_some_iff] at h
      obtain ⟨x, h3, h4⟩ := h
      obtain ⟨s, -, e2, rfl⟩ := signSha_some.1 h3
      obtain ⟨a, b, c, d, e, f, g⟩ := setMeta_some h1
      exact ⟨k, { t with pub := some (L.pub k) }, s, h2, ⟨a, b, c, d, e, f, g, rfl⟩, e2, h4⟩
    · cases h
  · cases h

/-- **C85**, completeness: when nothing fails below and there are contents the metadata ask for, the certificate is made with
exactly these. -/
theorem C85_complete (L : Lib) (read : Bytes → Option L.Key) (ok : Step → Bool) (hok : ∀ s, ok s = true) (now : Nat → Int) (m : Meta)
    (key : Bytes) (k : L.Key) (hk : read key = some k) (t : Tbs L.Pub) (ht : Carries L m now k t) (s : L.Sig)
    (hs : L.sign k t = some s) (hv : L.verify (L.pub k) t s = true) : genCert L read ok now m key = L.i2d ⟨t, some s⟩ := by
  obtain ⟨a, b, c, d, e, f, g, p⟩ := ht
  unfold genCert
  have ht' : ({ ({ t with pub := none } : Tbs L.Pub) with pub := some (L.pub k) }) = t := by rw [← p]
  simp only [hok, if_true, setMeta_full hok (⟨a, b, c, d, e, f, g⟩ : MetaIn L m now t), Option.bind_some, hk, ht']
  rw [(signSha_some (x := ⟨t, none⟩)).2 ⟨s, hs, hv, rfl⟩, Option.bind_some]

/-- **C85**: there is at most one such content, so the certificate is determined by metadata, clock and key. -/
theorem C85_unique (L : Lib) (m : Meta) (now : Nat → Int) (k : L.Key) (t t' : Tbs L.Pub) (h : Carries L m now k t)
    (h' : Carries L m now k t') : t = t' := by
  have names : ∀ {ps n n'}, NamedBy L ps n → NamedBy L ps n' → n = n' := by
    intro ps n n' ⟨h1, h2⟩ ⟨h3, h4⟩
    apply List.ext_getElem?
    intro i
    cases hp : ps[i]? with
    | none =>
      have := List.getElem?_eq_none_iff.1 hp
      rw [List.getElem?_eq_none_iff.2 (by omega), List.getElem?_eq_none_iff.2 (by omega)]
    | some p =>
      obtain ⟨k, v, nid, rfl, e1, -, e2⟩ := h2 i p hp
      obtain ⟨k', v', nid', e3, e4, -, e5⟩ := h4 i _ hp
      cases e3
      rw [e1] at e4
      cases e4
      rw [e2, e5]
  obtain ⟨a, b, c, d, e, f, g, p⟩ := h
  obtain ⟨a', b', c', d', e', f', g', p'⟩ := h'
  have hd : t.notAfter = t'.notAfter := by
    rcases d with ⟨x, d1, d2, d3⟩ | ⟨d1, d2⟩ <;> rcases d' with ⟨y, d4, d5, d6⟩ | ⟨d4, d5⟩
    · rw [d1] at d4; cases d4; rw [d3] at d6; exact Option.some.inj d6
    · rw [d1] at d4; cases d4
    · rw [d1] at d4; cases d4
    · rw [d2, d5]
  have hg : t.exts = t'.exts := by
    rcases g with ⟨g1, g2⟩ | ⟨x, y, g1, g2, g3⟩ <;> rcases g' with ⟨g4, g5⟩ | ⟨x', y', g4, g5, g6⟩
    · rw [g2, g5]
    · rw [g1] at g4; cases g4
    · rw [g1] at g4; cases g4
    · rw [g1] at g4; cases g4; rw [g2] at g5; cases g5; rw [g3, g6]
  cases t
  cases t'
  simp only at a b c a' b' c' hd hg p p' e e' f f'
  rw [a, a', b, b', c, c', hd, hg, p, p', names e e', names f f']

/-! ## C87: issued certificates -/

/-- A certificate issued for another one (specification): the issuer is the subject of the CA's certificate, everything else is
as submitted, and the CA's key verifies the signature. -/
structure IssuedFor (L : Lib) (ca x y : X509.Cert L.Pub L.Sig) (k : L.Key) : Prop where
  version : y.tbs.version = x.tbs.version
  serial : y.tbs.serial = x.tbs.serial
  dates : y.tbs.notBefore = x.tbs.notBefore ∧ y.tbs.notAfter = x.tbs.notAfter
  subject : y.tbs.subject = x.tbs.subject
  exts : y.tbs.exts = x.tbs.exts
  pub : y.tbs.pub = x.tbs.pub
  issuer : y.tbs.issuer = ca.tbs.subject
  signed : ∃ s, y.sig = some s ∧ L.verify (L.pub k) y.tbs s = true

/-- **C87**: what `crypto_sign_cert` returns is the encoding of a certificate issued for the submitted one. -/
theorem C87_issued (L : Lib) (ok : Bool) (key ca cert der : Bytes) (h : X509.signCert L ok key ca cert = some der) :
    ∃ k c x y, L.anyKey key = some k ∧ L.d2i ca = some c ∧ L.d2i cert = some x ∧ L.i2d y = some der ∧ IssuedFor L c x y k := by
  unfold X509.signCert at h
  simp only [Option.bind_eq_some_iff] at h
  obtain ⟨k, h1, c, h2, x, h3, h⟩ := h
  split at h
  · rw [Option.bind_eq_some_iff] at h
    obtain ⟨y, h4, h5⟩ := h
    obtain ⟨s, -, e2, rfl⟩ := signSha_some.1 h4
    exact ⟨k, c, x, _, h1, h2, h3, h5, ⟨rfl, rfl, ⟨rfl, rfl⟩, rfl, rfl, rfl, rfl, s, rfl, e2⟩⟩
  · cases h

/-- **C87**, completeness: whatever is submitted is signed, if the CA's key can sign and verify it. -/
theorem C87_complete (L : Lib) (key ca cert : Bytes) (k : L.Key) (c x : X509.Cert L.Pub L.Sig) (s : L.Sig) (hk : L.anyKey key = some k)
    (hc : L.d2i ca = some c) (hx : L.d2i cert = some x) (hs : L.sign k { x.tbs with issuer := c.tbs.subject } = some s)
    (hv : L.verify (L.pub k) { x.tbs with issuer := c.tbs.subject } s = true) :
    X509.signCert L true key ca cert = L.i2d ⟨{ x.tbs with issuer := c.tbs.subject }, some s⟩ := by
  unfold X509.signCert
  simp only [hk, hc, hx, Option.bind_some, if_true]
  rw [(signSha_some (x := ⟨{ x.tbs with issuer := c.tbs.subject }, x.sig⟩)).2 ⟨s, hs, hv, rfl⟩, Option.bind_some]

end Brski.Props
