import Verif.PropsX509
import Verif.PropsNames

/-!
# C86: reading back the metadata of a generated certificate
-/

namespace Brski.Props
open Outcome Names BoolTime X509 DlList Config

/-- What `crypto_getcert_meta` sees of a certificate (/repo/src/voucher/crypto_ossl.c:706-735). -/
def namesOf {P S : Type} (x : X509.Cert P S) : Names.Cert := ⟨some x.tbs.serial, some x.tbs.issuer, some x.tbs.subject⟩

/-- An encoding can be read back (precondition on OpenSSL). -/
def CertFaithful (L : Lib) : Prop := ∀ x der, L.i2d x = some der → L.d2i der = some x

/-- The keys of `NNAMES` are the short names of these objects (precondition on OpenSSL). -/
def KnowsNames (L : Lib) : Prop := ∀ k ∈ knownNames, L.object (str k.2) = some k.1

/-- A list of pairs with known keys, each at most once, and values that are C strings (specification). -/
def Usual (ps : List (Option Bytes × Option Bytes)) : Prop :=
  (∀ p ∈ ps, ∃ k ∈ knownNames, ∃ v, p = (some (str k.2), some v) ∧ 0 ∉ v) ∧ (ps.map (·.1)).Nodup

/-- The same pairs, each once (specification). -/
def SamePairs (read : List (List Bytes)) (ps : List (Option Bytes × Option Bytes)) : Prop :=
  read.Nodup ∧ ∀ q, q ∈ read ↔ ∃ k v, q = [k, v] ∧ (some k, some v) ∈ ps

/-- `crypto_getcert_meta` with new lists gives this serial number and these pairs, when it gets memory (specification). -/
def ReadsBack (mem : Mem) {P S : Type} (x : X509.Cert P S) (serial : Nat) (issuer subject : List (Option Bytes × Option Bytes)) : Prop :=
  ∃ m1 l1 m2 l2 m3 c1 c2, initList (fun _ => true) mem = .ok (m1, some l1) ∧ initList (fun _ => true) m1 = .ok (m2, some l2) ∧
    getMeta plenty plenty m2 (some (namesOf x)) (some l1) (some l2) = .ok (m3, serial, true) ∧
    contents m3 l1 = .ok c1 ∧ SamePairs (c1.map (·.1)) issuer ∧ contents m3 l2 = .ok c2 ∧ SamePairs (c2.map (·.1)) subject

/-- **C86** as stated: the metadata read from a generated certificate are those it was generated from. -/
def C86_statement : Prop :=
  ∀ (L : Lib) (read : Bytes → Option L.Key) (ok : Step → Bool) (now : Nat → Int) (m : Meta) (key der : Bytes) (mem : Mem),
    CertFaithful L → KnowsNames L → m.serial < 2 ^ 64 → Usual (m.issuer.getD []) → Usual (m.subject.getD []) → Wf mem →
    genCert L read ok now m key = some der →
    ∃ x, L.d2i der = some x ∧ ReadsBack mem x m.serial (m.issuer.getD []) (m.subject.getD [])

/-- Values of ASCII characters (specification). -/
def AsciiValues (ps : List (Option Bytes × Option Bytes)) : Prop := ∀ p ∈ ps, ∀ v, p.2 = some v → ∀ b ∈ v, b < 128

theorem fromLatin1_ascii : ∀ {v : Bytes}, (∀ b ∈ v, b < 128) → fromLatin1 v = v := by
  intro v
  rw [← latinText_eq]
  unfold latinText
  induction v with
  | nil => intro; rfl
  | cons b v ih =>
    intro h
    rw [List.flatMap_cons, ih fun c hc => h c (.tail _ hc), latin, if_pos (h b (.head _))]
    rfl

/-- A text with another character gets longer. -/
theorem fromLatin1_longer {v : Bytes} : v.length ≤ (fromLatin1 v).length ∧ ((∃ b ∈ v, 128 ≤ b) → v.length < (fromLatin1 v).length) := by
  rw [← latinText_eq]
  unfold latinText
  induction v with
  | nil => exact ⟨Nat.le_refl _, by simp⟩
  | cons b v ih =>
    rw [List.flatMap_cons, List.length_append, List.length_cons]
    have h1 : 1 ≤ (latin b).length := by unfold latin; split <;> simp
    have h2 : 128 ≤ b → 2 ≤ (latin b).length := by
      intro h
      unfold latin
      rw [if_neg (by simpa using h)]
      simp
    refine ⟨by omega, ?_⟩
    rintro ⟨c, hc, h⟩
    rcases List.mem_cons.1 hc with rfl | hc
    · have := h2 h; omega
    · have := ih.2 ⟨c, hc, h⟩; omega

theorem cstr_same {v : Bytes} (h : 0 ∉ v) : cstr v = v := by
  unfold cstr
  induction v with
  | nil => rfl
  | cons c v ih =>
    rw [List.takeWhile_cons_of_pos (by simpa using fun e : c = 0 => h (e ▸ .head _)), ih fun hm => h (.tail _ hm)]

theorem known_inj {k k' : Nat × String} (h : k ∈ knownNames) (h' : k' ∈ knownNames) (e : str k.2 = str k'.2 ∨ k.1 = k'.1) : k = k' := by
  have : ∀ a ∈ knownNames, ∀ b ∈ knownNames, str a.2 = str b.2 ∨ a.1 = b.1 → a = b := by decide +kernel
  exact this k h k' h' e

theorem known_no_nul {k : Nat × String} (h : k ∈ knownNames) : 0 ∉ str k.2 := by
  have : ∀ a ∈ knownNames, 0 ∉ str a.2 := by decide +kernel
  exact this k h

/-- The entry of a key in a name made of usual pairs. -/
theorem firstText_usual {L : Lib} (hk : KnowsNames L) {ps : List (Option Bytes × Option Bytes)} {n : List Entry} (hu : Usual ps)
    (hn : NamedBy L ps n) {k : Nat × String} (hm : k ∈ knownNames) (t : Bytes) :
    firstText n k.1 = some t ↔ ∃ v, (some (str k.2), some v) ∈ ps ∧ t = fromLatin1 v := by
  -- what is at each place
  have at' : ∀ (i : Nat) p, ps[i]? = some p → ∃ k' ∈ knownNames, ∃ v, p = (some (str k'.2), some v) ∧
      n[i]? = some (⟨k'.1, some (fromLatin1 v)⟩ : Entry) := by
    intro i p hp
    obtain ⟨k', hk', v, rfl, hv⟩ := hu.1 p (List.mem_of_getElem? hp)
    obtain ⟨a, b, nid, e1, e2, -, e3⟩ := hn.2 i _ hp
    cases e1
    rw [cstr_same (known_no_nul hk'), hk k' hk'] at e2
    cases e2
    rw [cstr_same hv] at e3
    exact ⟨k', hk', v, rfl, e3⟩
  have there : ∀ e ∈ n, ∃ k' ∈ knownNames, ∃ v, (some (str k'.2), some v) ∈ ps ∧ e = ⟨k'.1, some (fromLatin1 v)⟩ := by
    intro e he
    obtain ⟨i, hi⟩ := List.getElem?_of_mem he
    have hlt : i < ps.length := by rw [← hn.1]; exact (List.getElem?_eq_some_iff.1 hi).1
    obtain ⟨k', hk', v, e1, e2⟩ := at' i ps[i] (List.getElem?_eq_getElem hlt)
    rw [hi] at e2
    cases e2
    exact ⟨k', hk', v, e1 ▸ List.getElem_mem hlt, rfl⟩
  have once : ∀ v v', (some (str k.2), some v) ∈ ps → (some (str k.2), some v') ∈ ps → v = v' := by
    intro v v' h1 h2
    obtain ⟨i, hi⟩ := List.getElem?_of_mem h1
    obtain ⟨j, hj⟩ := List.getElem?_of_mem h2
    have hi' : (ps.map (·.1))[i]? = some (some (str k.2)) := by rw [List.getElem?_map, hi]; rfl
    have hj' : (ps.map (·.1))[j]? = some (some (str k.2)) := by rw [List.getElem?_map, hj]; rfl
    obtain ⟨a1, a2⟩ := List.getElem?_eq_some_iff.1 hi'
    obtain ⟨b1, b2⟩ := List.getElem?_eq_some_iff.1 hj'
    have : i = j := (List.getElem_inj hu.2).1 (a2.trans b2.symm)
    subst this
    rw [hi] at hj
    cases hj
    rfl
  unfold firstText firstEntry
  constructor
  · intro h
    rw [Option.bind_eq_some_iff] at h
    obtain ⟨e, h1, h2⟩ := h
    obtain ⟨k', hk', v, a1, rfl⟩ := there e (List.mem_of_find?_eq_some h1)
    have h3 := List.find?_some h1
    simp only [decide_eq_true_eq] at h3
    cases known_inj hk' hm (.inr h3)
    cases h2
    exact ⟨v, a1, rfl⟩
  · rintro ⟨v, hv, rfl⟩
    obtain ⟨i, hi⟩ := List.getElem?_of_mem hv
    obtain ⟨k', hk', v', e1, e2⟩ := at' i _ hi
    simp only [Prod.mk.injEq, Option.some.injEq] at e1
    obtain ⟨e1, rfl⟩ := e1
    cases known_inj hm hk' (.inl e1)
    cases hf : n.find? fun e => decide (e.nid = k.1) with
    | none =>
      rw [List.find?_eq_none] at hf
      exact absurd (hf _ (List.mem_of_getElem? e2)) (by simp)
    | some e =>
      obtain ⟨k'', hk'', w, a1, rfl⟩ := there e (List.mem_of_find?_eq_some hf)
      have h3 := List.find?_some hf
      simp only [decide_eq_true_eq] at h3
      cases known_inj hk'' hm (.inr h3)
      rw [once v w hv a1]
      rfl

theorem fromLatin1_no_nul {v : Bytes} (h : 0 ∉ v) : 0 ∉ fromLatin1 v := by
  rw [← latinText_eq]
  unfold latinText
  rw [List.mem_flatMap]
  rintro ⟨b, hb, h0⟩
  have : ∀ n : Fin 256, n.val ≠ 0 → 0 ∉ latin (UInt8.ofNat n.val) := by decide +kernel
  have h1 := this ⟨b.toNat, b.toNat_lt⟩ (fun e => h (by
    have : b = 0 := UInt8.toNat_inj.1 e
    exact this ▸ hb))
  rw [UInt8.ofNat_toNat] at h1
  exact h1 h0

/-- The pairs listed for a name made of usual pairs. -/
theorem listed_usual {L : Lib} (hk : KnowsNames L) {ps : List (Option Bytes × Option Bytes)} {n : List Entry} (hu : Usual ps)
    (hn : NamedBy L ps n) (a b : Bytes) : (a, b) ∈ listed n ↔ ∃ v, (some a, some v) ∈ ps ∧ b = fromLatin1 v := by
  unfold listed
  rw [List.mem_filterMap]
  constructor
  · rintro ⟨k, hm, h⟩
    rw [Option.map_eq_some_iff] at h
    obtain ⟨t, h1, h2⟩ := h
    obtain ⟨v, h3, rfl⟩ := (firstText_usual hk hu hn hm t).1 h1
    cases h2
    obtain ⟨_, _, v', e, hv⟩ := hu.1 _ h3
    obtain rfl : v = v' := by simpa using congrArg (·.2) e
    refine ⟨v, h3, ?_⟩
    exact cstr_same (fromLatin1_no_nul hv)
  · rintro ⟨v, hv, rfl⟩
    obtain ⟨k, hm, v', e, h0⟩ := hu.1 _ hv
    cases e
    refine ⟨k, hm, ?_⟩
    rw [(firstText_usual hk hu hn hm _).2 ⟨v, hv, rfl⟩, Option.map_some]
    rw [show upToNul (fromLatin1 v) = fromLatin1 v from cstr_same (fromLatin1_no_nul h0)]

theorem readable_usual {L : Lib} {ps : List (Option Bytes × Option Bytes)} {n : List Entry} (hn : NamedBy L ps n) : Readable n := by
  intro k _ e he
  obtain ⟨i, hi⟩ := List.getElem?_of_mem (List.mem_of_find?_eq_some he)
  have hlt : i < ps.length := by rw [← hn.1]; exact (List.getElem?_eq_some_iff.1 hi).1
  obtain ⟨_, _, _, -, -, -, e2⟩ := hn.2 i ps[i] (List.getElem?_eq_getElem hlt)
  rw [hi] at e2
  cases e2
  simp

theorem getMeta_number {alI alS : Nat → Oracle} {m m' : Mem} {c : Names.Cert} {i s : Option Nat} {n : Nat} {b : Bool}
    (h : getMeta alI alS m (some c) i s = .ok (m', n, b)) : n = number64 c.number := by
  unfold getMeta at h
  simp only at h
  cases hi : c.issuer with
  | none => rw [hi] at h; cases h; rfl
  | some es =>
    rw [hi] at h
    simp only at h
    cases hk : getKeyvalue alI m es i with
    | ub => rw [hk] at h; cases h
    | ok r =>
      rw [hk, bind'_ok] at h
      split at h
      · cases hs : c.subject with
        | none => rw [hs] at h; cases h; rfl
        | some ss =>
          rw [hs] at h
          simp only at h
          cases hk' : getKeyvalue alS r.1 ss s with
          | ub => rw [hk'] at h; cases h
          | ok r' => rw [hk', bind'_ok] at h; cases h; rfl
      · cases h; rfl

/-- The values as they come back (specification). -/
def recoded (ps : List (Option Bytes × Option Bytes)) : List (Option Bytes × Option Bytes) :=
  ps.map fun p => (p.1, p.2.map fromLatin1)

theorem samePairs_listed {L : Lib} (hk : KnowsNames L) {ps : List (Option Bytes × Option Bytes)} {n : List Entry} (hu : Usual ps)
    (hn : NamedBy L ps n) : SamePairs ((listed n).map fun p => [p.1, p.2]) (recoded ps) := by
  refine ⟨?_, fun q => ?_⟩
  · have h := (C51_order n).2
    generalize listed n = l at h
    induction l with
    | nil => exact List.nodup_nil
    | cons p l ih =>
      rw [List.map_cons, List.nodup_cons] at h ⊢
      refine ⟨fun hm => h.1 ?_, ih h.2⟩
      obtain ⟨q, h1, h2⟩ := List.mem_map.1 hm
      exact List.mem_map.2 ⟨q, h1, by simpa using congrArg (·.head?) h2⟩
  · rw [List.mem_map]
    constructor
    · rintro ⟨⟨a, b⟩, h1, rfl⟩
      obtain ⟨v, h2, rfl⟩ := (listed_usual hk hu hn a b).1 h1
      exact ⟨a, _, rfl, List.mem_map.2 ⟨_, h2, rfl⟩⟩
    · rintro ⟨k, v, rfl, h⟩
      obtain ⟨⟨a, b⟩, h1, h2⟩ := List.mem_map.1 h
      simp only [Prod.mk.injEq, Option.map_eq_some_iff] at h2
      obtain ⟨rfl, w, rfl, rfl⟩ := h2
      exact ⟨(k, _), (listed_usual hk hu hn k _).2 ⟨w, h1, rfl⟩, rfl⟩

/-- **C86**, exactly: everything is read back, with values encoded from Latin-1 to UTF-8. -/
theorem C86_exact (L : Lib) (read : Bytes → Option L.Key) (ok : Step → Bool) (now : Nat → Int) (m : Meta) (key der : Bytes) (mem : Mem)
    (hf : CertFaithful L) (hk : KnowsNames L) (hs : m.serial < 2 ^ 64) (hi : Usual (m.issuer.getD [])) (hu : Usual (m.subject.getD []))
    (hw : Wf mem) (h : genCert L read ok now m key = some der) :
    ∃ x, L.d2i der = some x ∧ ReadsBack mem x m.serial (recoded (m.issuer.getD [])) (recoded (m.subject.getD [])) := by
  obtain ⟨k, t, s, -, hc, -, hd⟩ := C85_contents L read ok now m key der h
  refine ⟨⟨t, some s⟩, hf _ _ hd, ?_⟩
  obtain ⟨m1, l1, m2, l2, m3, n, c1, c2, e1, e2, e3, e4, e5, e6, e7⟩ := C51_list mem hw (some t.serial) t.issuer t.subject
    (readable_usual hc.issuer) (readable_usual hc.subject)
  have hnum := getMeta_number e3
  have : n = m.serial := by
    rw [hnum, hc.serial]
    rcases C51_number (m.serial : Int) with ⟨h1, -⟩ | ⟨-, h1⟩
    · rw [h1]; rfl
    · omega
  subst this
  exact ⟨m1, l1, m2, l2, m3, c1, c2, e1, e2, e3, e4, e5 ▸ samePairs_listed hk hi hc.issuer, e6, e7 ▸ samePairs_listed hk hu hc.subject⟩

theorem recoded_ascii {ps : List (Option Bytes × Option Bytes)} (h : AsciiValues ps) : recoded ps = ps := by
  unfold recoded
  conv => rhs; rw [← List.map_id ps]
  refine List.map_congr_left fun p hp => ?_
  obtain ⟨a, b⟩ := p
  cases b with
  | none => rfl
  | some v =>
    simp only [Option.map_some, id]
    rw [fromLatin1_ascii (h _ hp v rfl)]

/-- **C86** for values of ASCII characters.  Missing: other values, which come back changed. -/
theorem C86_partial (L : Lib) (read : Bytes → Option L.Key) (ok : Step → Bool) (now : Nat → Int) (m : Meta) (key der : Bytes) (mem : Mem)
    (hf : CertFaithful L) (hk : KnowsNames L) (hs : m.serial < 2 ^ 64) (hi : Usual (m.issuer.getD [])) (hu : Usual (m.subject.getD []))
    (hai : AsciiValues (m.issuer.getD [])) (hau : AsciiValues (m.subject.getD []))
    (hw : Wf mem) (h : genCert L read ok now m key = some der) :
    ∃ x, L.d2i der = some x ∧ ReadsBack mem x m.serial (m.issuer.getD []) (m.subject.getD []) := by
  have := C86_exact L read ok now m key der mem hf hk hs hi hu hw h
  rwa [recoded_ascii hai, recoded_ascii hau] at this

/-! ## An instance -/

/-- A library that knows two certificates; a signature is the number of the key. -/
def certPair (a b : X509.Cert Nat Nat) : Lib where
  Key := Nat
  Pub := Nat
  Sig := Nat
  pub := id
  sign := fun k _ => some k
  verify := fun p _ s => s == p
  object := fun t => (nnames.find? fun n => n.2 = t).map (·.1)
  fits := fun _ v => v ≠ []
  time := fun t => if t = str "99991231235959Z" then some 253402300799 else none
  constraints := fun t => if t = str "CA:false" then some [48, 0] else if t = str "CA:true" then some [48, 3, 1, 1, 255] else none
  ecKey := fun b => match b with | [6, k] => some k.toNat | _ => none
  rsaKey := fun b => match b with | [7, k] => some k.toNat | _ => none
  anyKey := fun b => match b with | [_, k] => some k.toNat | _ => none
  i2d := fun x => if x = a then some [48, 0] else if x = b then some [48, 1] else none
  d2i := fun d => if d = [48, 0] then some a else if d = [48, 1] then some b else none

theorem certPair_faithful (a b : X509.Cert Nat Nat) : CertFaithful (certPair a b) := by
  intro x der h
  simp only [certPair] at h ⊢
  split at h
  · next e => cases h; rw [e]; rfl
  · split at h
    · next e => cases h; rw [e]; rfl
    · cases h

theorem certPair_names (a b : X509.Cert Nat Nat) : KnowsNames (certPair a b) := by
  show ∀ k ∈ knownNames, (nnames.find? fun n => n.2 = str k.2).map (·.1) = some k.1
  decide +kernel

/-- Metadata with a value outside ASCII: `é` in UTF-8. -/
def accented : Meta := ⟨7, 0, 100, none, some [], some [(some (str "CN"), some [195, 169]), (some (str "C"), some (str "IE"))], some (str "CA:true")⟩

/-- The certificate made of it at the time 5 with key 9. -/
def accentedCert : X509.Cert Nat Nat :=
  ⟨⟨2, 7, 5, 105, [], [⟨13, some [195, 131, 194, 169]⟩, ⟨14, some (str "IE")⟩], [(87, [48, 3, 1, 1, 255])], some 9⟩, some 9⟩

theorem accented_made : genCert (certPair accentedCert accentedCert) (certPair accentedCert accentedCert).ecKey (fun _ => true) (fun _ => 5)
    accented [6, 9] = some [48, 0] := by decide +kernel

theorem accented_usual : Usual (accented.subject.getD []) := by
  refine ⟨fun p hp => ?_, by decide⟩
  simp only [accented, Option.getD_some, List.mem_cons, List.not_mem_nil, or_false] at hp
  rcases hp with rfl | rfl
  · exact ⟨(13, "CN"), by decide, _, rfl, by decide⟩
  · exact ⟨(14, "C"), by decide, _, rfl, by decide⟩

/-- The code violates C86: UTF-8 text is encoded a second time. -/
theorem C86_violated : ¬ C86_statement := by
  intro h
  have hf := certPair_faithful accentedCert accentedCert
  have hk := certPair_names accentedCert accentedCert
  have hu0 : Usual (accented.issuer.getD []) := ⟨by simp [accented], by simp [accented]⟩
  obtain ⟨x, h1, m1, l1, m2, l2, m3, c1, c2, e1, e2, e3, e4, e5, e6, e7⟩ := h _ _ _ _ accented [6, 9] [48, 0] noMem hf hk (by decide) hu0
    accented_usual wf_noMem accented_made
  obtain ⟨x', h1', m1', l1', m2', l2', m3', c1', c2', e1', e2', e3', e4', e5', e6', e7'⟩ := C86_exact _ _ _ _ accented [6, 9] [48, 0] noMem hf
    hk (by decide) hu0 accented_usual wf_noMem accented_made
  rw [h1] at h1'; cases h1'
  rw [e1] at e1'; cases e1'
  rw [e2] at e2'; cases e2'
  rw [e3] at e3'; cases e3'
  rw [e6] at e6'; cases e6'
  have : [str "CN", [195, 169]] ∈ c2.map (·.1) := (e7.2 _).2 ⟨str "CN", [195, 169], rfl, by simp [accented]⟩
  obtain ⟨k, v, e, hm⟩ := (e7'.2 _).1 this
  cases e
  revert hm
  decide +kernel

/-- **C86**: every usual value outside ASCII comes back longer than it was. -/
theorem C86_violated_all (v : Bytes) (h : ∃ b ∈ v, 128 ≤ b) : fromLatin1 v ≠ v := by
  intro e
  have := fromLatin1_longer.2 h
  rw [e] at this
  exact Nat.lt_irrefl _ this

/-- Non-vacuity of C85_contents and C86_exact: a certificate is made. -/
example : ∃ x, (certPair accentedCert accentedCert).d2i [48, 0] = some x ∧
    ReadsBack noMem x 7 [] [(some (str "CN"), some [195, 131, 194, 169]), (some (str "C"), some (str "IE"))] := by
  have := C86_exact _ _ _ _ accented [6, 9] [48, 0] noMem (certPair_faithful accentedCert accentedCert)
    (certPair_names accentedCert accentedCert) (by decide) ⟨by simp [accented], by simp [accented]⟩ accented_usual wf_noMem accented_made
  exact this

/-- Non-vacuity of C85_complete: contents that carry the metadata exist, and the certificate is their encoding. -/
example : ∃ t s, Carries (certPair accentedCert accentedCert) accented (fun _ => 5) (9 : Nat) t ∧
    genCert (certPair accentedCert accentedCert) (certPair accentedCert accentedCert).ecKey (fun _ => true) (fun _ => 5) accented [6, 9] =
      (certPair accentedCert accentedCert).i2d ⟨t, some s⟩ := by
  obtain ⟨k, t, s, h1, h2, h3, h4⟩ := C85_contents _ _ _ _ _ _ _ accented_made
  cases h1
  exact ⟨t, (9 : Nat), h2, C85_complete _ _ _ (fun _ => rfl) _ _ _ _ rfl _ h2 _ rfl rfl⟩

/-- Metadata of ASCII texts with an issuer. -/
def plainMeta : Meta :=
  ⟨8, -1, 0, some (str "99991231235959Z"), some [(some (str "O"), some (str "x"))], some [(some (str "serialNumber"), some (str "S1"))], none⟩

/-- The certificate made of it. -/
def plainCert : X509.Cert Nat Nat :=
  ⟨⟨2, 8, 4, 253402300799, [⟨17, some (str "x")⟩], [⟨105, some (str "S1")⟩], [], some 3⟩, some 3⟩

/-- Non-vacuity of C86_partial, with the reader of RSA keys. -/
example : ∃ x, (certPair accentedCert plainCert).d2i [48, 1] = some x ∧
    ReadsBack noMem x 8 [(some (str "O"), some (str "x"))] [(some (str "serialNumber"), some (str "S1"))] := by
  have hu : ∀ (k : Nat × String) (v : Bytes), k ∈ knownNames → 0 ∉ v → Usual [(some (str k.2), some v)] := fun k v hk hv =>
    ⟨fun p hp => ⟨k, hk, v, List.mem_singleton.1 hp, hv⟩, by simp⟩
  exact C86_partial (certPair accentedCert plainCert) (certPair accentedCert plainCert).rsaKey (fun _ => true) (fun _ => 5) plainMeta [7, 3]
    [48, 1] noMem (certPair_faithful _ _) (certPair_names _ _) (by decide) (hu (17, "O") _ (by decide) (by decide))
    (hu (105, "serialNumber") _ (by decide) (by decide)) (by unfold AsciiValues; decide +kernel) (by unfold AsciiValues; decide +kernel)
    wf_noMem (by decide +kernel)

end Brski.Props
