import Verif.JsonDeser

/-!
# Lemmas about the serialiser
-/

namespace Brski.VoucherJson
open Outcome Spec Jsmn Brski.Voucher BoolTime Props

theorem escapestr_eq (s : Bytes) : escapestr s = quoted s := rfl

/-! ## No NUL in the texts -/

theorem natDec_plain (n : Nat) : ∀ c ∈ natDec n, isPlain c := by
  induction n using Nat.strongRecOn with
  | ind n ih =>
    have hdig : ∀ k, k < 10 → isPlain (dig k) := by
      intro k hk
      have : ∀ k : Nat, k < 10 → (dig k ≠ 0 ∧ dig k ≠ 34 ∧ dig k ≠ 92) := by decide
      exact this k hk
    rw [natDec]
    split
    · intro c hc
      simp only [List.mem_singleton] at hc
      subst hc
      exact hdig n (by assumption)
    · intro c hc
      rcases List.mem_append.1 hc with hc | hc
      · exact ih (n / 10) (by omega) c hc
      · simp only [List.mem_singleton] at hc
        subst hc
        exact hdig _ (by omega)

theorem numPad_plain (w : Nat) (v : Int) : ∀ c ∈ numPad w v, isPlain c := by
  intro c hc
  unfold numPad at hc
  simp only [List.mem_append] at hc
  rcases hc with (hc | hc) | hc
  · split at hc
    · simp only [List.mem_singleton] at hc; subst hc; unfold isPlain; decide
    · simp at hc
  · have := List.eq_of_mem_replicate hc; subst this; unfold isPlain; decide
  · exact natDec_plain _ c hc

theorem time2str_plain {lib : TimeLib} {t : Tm} {s : Bytes} (h : time2str lib t = some s) :
    ∀ c ∈ s, isPlain c := by
  unfold time2str at h
  dsimp only at h
  generalize (if lib.padYear = true then 4 else 1) = w at h
  split at h
  · cases h
    intro c hc
    have hs : ∀ k : UInt8, k ≠ 0 ∧ k ≠ 34 ∧ k ≠ 92 → c = k → isPlain c := fun k hk e => e ▸ hk
    simp only [List.mem_append, List.mem_singleton, or_assoc] at hc
    rcases hc with hc | hc | hc | hc | hc | hc | hc | hc | hc | hc | hc | hc
    all_goals first
      | exact numPad_plain _ _ c hc
      | exact hs _ (by decide) hc
  · cases h

theorem rfc4648_chars (b : Bytes) : ∀ c ∈ rfc4648 b, isB64Char c = true := by
  rw [← Base64.enc_eq_rfc]
  exact List.filter_eq_self.1 (Base64.enc_valid b)

theorem b64_plain : ∀ c : UInt8, isB64Char c = true → isPlain c := by
  unfold isPlain
  exact Base64.forall_uint8 (by decide +kernel)

theorem rfc4648_plain (b : Bytes) : ∀ c ∈ rfc4648 b, isPlain c :=
  fun c hc => b64_plain c (rfc4648_chars b c hc)

theorem not_nul_of_text {s : Bytes} (h : StringText s) : (0 : UInt8) ∉ s := by
  have hex : ∀ c : UInt8, isHexDigit c → c ≠ 0 := by unfold isHexDigit; decide +kernel
  have esc : ∀ c : UInt8, isEscaped c → c ≠ 0 := by unfold isEscaped; decide +kernel
  induction h with
  | nil => simp
  | plain hc _ ih => simp only [List.mem_cons, not_or]; exact ⟨fun e => hc.1 e.symm, ih⟩
  | escape hc _ ih => simp only [List.mem_cons, not_or]; exact ⟨by decide, fun e => esc _ hc e.symm, ih⟩
  | unicode h1 h2 h3 h4 _ ih =>
    simp only [List.mem_cons, not_or]
    exact ⟨by decide, by decide, fun e => hex _ h1 e.symm, fun e => hex _ h2 e.symm, fun e => hex _ h3 e.symm,
      fun e => hex _ h4 e.symm, ih⟩

theorem not_nul_of_plain {s : Bytes} (h : ∀ c ∈ s, isPlain c) : (0 : UInt8) ∉ s :=
  fun h0 => (h 0 h0).1 rfl

/-! ## Values -/

/-- Text of an attribute; `none` when a time cannot be formatted. -/
def flatVal (lib : TimeLib) (v : Voucher) : Attr → Option FlatValue
  | .createdOn => (time2str lib v.createdOn).map .text
  | .expiresOn => (time2str lib v.expiresOn).map .text
  | .lastRenewalDate => (time2str lib v.lastRenewal).map .text
  | .assertion => if v.assertion = 1 then some (.text (str "verified"))
      else if v.assertion = 2 then some (.text (str "logged"))
      else if v.assertion = 3 then some (.text (str "proximity")) else none
  | .serialNumber => v.serial.map .text
  | .idevidIssuer => some (.text (rfc4648 (content v.idevidIssuer)))
  | .pinnedDomainCert => some (.text (rfc4648 (content v.pinned)))
  | .nonce => some (.text (rfc4648 (content v.nonce)))
  | .priorSigned => some (.text (rfc4648 (content v.prior)))
  | .proximityCert => some (.text (rfc4648 (content v.proximity)))
  | .revocationChecks => some (.bare (bool2str v.revocation))
  | .other => none

theorem arrBytes_ok {a : BinArr} (h : BinArr.Wf a) : arrBytes a = .ok (content a) := by
  obtain ⟨arr, len⟩ := a
  cases arr with
  | none => simp only [BinArr.Wf] at h; simp [arrBytes, content, h]
  | some b => simp only [BinArr.Wf] at h; simp [arrBytes, content, h]

theorem serArray_ok (env : Env) (k : Nat) (a : BinArr) (h : BinArr.Wf a) :
    serArray env k a = .ok none ∨
    serArray env k a = .ok (some (quoted (rfc4648 (content a)))) := by
  unfold serArray
  rw [arrBytes_ok h, bind'_ok]
  rcases Base64.genEncode_spec (env.mem k) (content a) with e | ⟨o, e, h1, h2⟩
  · left; unfold Base64.array2base64str; rw [e]; rfl
  · right
    unfold Base64.array2base64str
    rw [e, bind'_ok]
    simp only
    have ho : o = rfc4648 (content a) ++ 0 :: o.drop ((rfc4648 (content a)).length + 1) := by
      have hlt : (rfc4648 (content a)).length < o.length := by
        by_cases hl : (rfc4648 (content a)).length < o.length
        · exact hl
        · rw [List.getElem?_eq_none (by omega)] at h2; cases h2
      rw [List.getElem?_eq_getElem hlt] at h2
      have := List.drop_eq_getElem_cons hlt
      simp only [Option.some.injEq] at h2
      rw [h2] at this
      rw [← this]
      conv => lhs; rw [← List.take_append_drop (rfc4648 (content a)).length o]
      rw [h1]
    rw [ho, cstring_ok _ _ (not_nul_of_plain (rfc4648_plain _)), bind'_ok, escapestr_eq]

theorem serArray_succ (env : Env) (k : Nat) (hal : Props.NoOom (env.mem k)) (a : BinArr)
    (h : BinArr.Wf a) (hl : (content a).length < sizeMax / 4) :
    serArray env k a = .ok (some (quoted (rfc4648 (content a)))) := by
  rcases serArray_ok env k a h with e | e
  · exfalso
    unfold serArray at e
    rw [arrBytes_ok h, bind'_ok] at e
    rcases Base64.genEncode_spec (env.mem k) (content a) with e' | ⟨o, e', h1, h2⟩
    · exact Base64.genEncode_succ (env.mem k) _ hl (hal _) e'
    · unfold Base64.array2base64str at e
      rw [e', bind'_ok] at e
      simp only at e
      cases hc : cstring o with
      | ub => rw [hc] at e; cases e
      | ok s => rw [hc, bind'_ok] at e; cases e
  · exact e

theorem assertion_cases {v : Voucher} (h : ValuesOk v) :
    v.assertion = 0 ∨ v.assertion = 1 ∨ v.assertion = 2 ∨ v.assertion = 3 := h.1 _ rfl

theorem serAttr_ok (env : Env) (k : Nat) (v : Voucher) (hv : ValuesOk v) (ha : ArraysOk v)
    (a : Attr) :
    serAttr env k v a = .ok none ∨
    ∃ x, flatVal env.lib v a = some x ∧ serAttr env k v a = .ok (some x.render) := by
  obtain ⟨h1, h2, h3, h4, h5⟩ := ha
  cases a <;> simp only [serAttr, flatVal, serTime]
  case createdOn => cases time2str env.lib v.createdOn with
    | none => left; rfl
    | some s => right; exact ⟨_, rfl, rfl⟩
  case expiresOn => cases time2str env.lib v.expiresOn with
    | none => left; rfl
    | some s => right; exact ⟨_, rfl, rfl⟩
  case lastRenewalDate => cases time2str env.lib v.lastRenewal with
    | none => left; rfl
    | some s => right; exact ⟨_, rfl, rfl⟩
  case assertion =>
    rcases assertion_cases hv with h | h | h | h <;> simp only [h]
    · left; trivial
    · right; exact ⟨_, rfl, rfl⟩
    · right; exact ⟨_, rfl, rfl⟩
    · right; exact ⟨_, rfl, rfl⟩
  case serialNumber => cases v.serial with
    | none => left; rfl
    | some s => right; exact ⟨_, rfl, rfl⟩
  case revocationChecks => right; exact ⟨_, rfl, rfl⟩
  case other => left; trivial
  case idevidIssuer =>
    rcases serArray_ok env k _ h1 with e | e
    · left; exact e
    · right; exact ⟨_, rfl, e⟩
  case pinnedDomainCert =>
    rcases serArray_ok env k _ h2 with e | e
    · left; exact e
    · right; exact ⟨_, rfl, e⟩
  case nonce =>
    rcases serArray_ok env k _ h3 with e | e
    · left; exact e
    · right; exact ⟨_, rfl, e⟩
  case priorSigned =>
    rcases serArray_ok env k _ h4 with e | e
    · left; exact e
    · right; exact ⟨_, rfl, e⟩
  case proximityCert =>
    rcases serArray_ok env k _ h5 with e | e
    · left; exact e
    · right; exact ⟨_, rfl, e⟩

/-- All arrays are below the size limit of the encoder. -/
def SizesOk (v : Voucher) : Prop :=
  ∀ a x, getArray v a = some x → (content x).length < sizeMax / 4

theorem serAttr_succ (env : Env) (k : Nat) (hal : Props.NoOom (env.mem k)) (v : Voucher)
    (ha : ArraysOk v) (hs : SizesOk v) (a : Attr) (x : FlatValue)
    (hx : flatVal env.lib v a = some x) : serAttr env k v a = .ok (some x.render) := by
  obtain ⟨h1, h2, h3, h4, h5⟩ := ha
  cases a <;> simp only [flatVal, Option.map_eq_some_iff, Option.some.injEq, reduceCtorEq] at hx <;>
    simp only [serAttr, serTime]
  case createdOn => obtain ⟨s, e, rfl⟩ := hx; rw [e]; rfl
  case expiresOn => obtain ⟨s, e, rfl⟩ := hx; rw [e]; rfl
  case lastRenewalDate => obtain ⟨s, e, rfl⟩ := hx; rw [e]; rfl
  case assertion =>
    split at hx
    · rename_i h; rw [h]; cases hx; rfl
    split at hx
    · rename_i h; rw [h]; cases hx; rfl
    split at hx
    · rename_i h; rw [h]; cases hx; rfl
    · cases hx
  case serialNumber => obtain ⟨s, e, rfl⟩ := hx; rw [e]; rfl
  case revocationChecks => subst hx; rfl
  case idevidIssuer => subst hx; exact serArray_succ env k hal _ h1 (hs .idevidIssuer _ rfl)
  case pinnedDomainCert => subst hx; exact serArray_succ env k hal _ h2 (hs .pinnedDomainCert _ rfl)
  case nonce => subst hx; exact serArray_succ env k hal _ h3 (hs .nonce _ rfl)
  case priorSigned => subst hx; exact serArray_succ env k hal _ h4 (hs .priorSigned _ rfl)
  case proximityCert => subst hx; exact serArray_succ env k hal _ h5 (hs .proximityCert _ rfl)

theorem flatVal_plain {lib : TimeLib} {v : Voucher} (hv : ValuesOk v) {a : Attr} {x : FlatValue}
    (hx : flatVal lib v a = some x) (hser : a = .serialNumber → ∀ s, v.serial = some s →
      ∀ c ∈ s, isPlain c) : x.Plain := by
  cases a <;> simp only [flatVal, Option.map_eq_some_iff, Option.some.injEq, reduceCtorEq] at hx
  case createdOn => obtain ⟨s, e, rfl⟩ := hx; exact time2str_plain e
  case expiresOn => obtain ⟨s, e, rfl⟩ := hx; exact time2str_plain e
  case lastRenewalDate => obtain ⟨s, e, rfl⟩ := hx; exact time2str_plain e
  case assertion =>
    repeat' split at hx
    all_goals first
      | (cases hx; simp only [FlatValue.Plain]; unfold isPlain; decide)
      | cases hx
  case serialNumber => obtain ⟨s, e, rfl⟩ := hx; exact hser rfl s e
  case revocationChecks =>
    subst hx
    cases v.revocation <;> simp only [FlatValue.Plain, bool2str] <;> unfold isBare <;> decide
  all_goals subst hx; exact rfc4648_plain _

theorem flatVal_text {lib : TimeLib} {v : Voucher} (hv : ValuesOk v) {a : Attr} {x : FlatValue}
    (hx : flatVal lib v a = some x) (hser : a = .serialNumber → ∀ s, v.serial = some s → StringText s) : x.Ok := by
  by_cases ha : a = .serialNumber
  · subst ha
    simp only [flatVal, Option.map_eq_some_iff] at hx
    obtain ⟨s, e, rfl⟩ := hx
    exact hser rfl s e
  · exact (flatVal_plain hv hx fun h => absurd h ha).ok

theorem flatVal_no_nul {lib : TimeLib} {v : Voucher} (hv : ValuesOk v) {a : Attr} {x : FlatValue}
    (hx : flatVal lib v a = some x) : (0 : UInt8) ∉ x.render := by
  by_cases ha : a = .serialNumber
  · subst ha
    simp only [flatVal, Option.map_eq_some_iff] at hx
    obtain ⟨s, e, rfl⟩ := hx
    have := (hv.2 s (by simp [getStr, e])).2
    simp [FlatValue.render, quoted, str, this]
  · have hok := flatVal_plain hv hx (fun h => absurd h ha)
    have hr := raw_no_nul hok.ok
    cases x with
    | text s => simpa [FlatValue.render, FlatValue.raw, quoted, str] using hr
    | bare s => exact hr

theorem present_eq (v : Voucher) (a : Attr) : attrNonempty v a = present v a := by
  have harr : ∀ x : BinArr, arrayNonempty (some x) = decide (x ≠ ⟨none, 0⟩) := by
    intro ⟨arr, len⟩
    unfold arrayNonempty
    cases arr <;> simp
  cases a <;> simp only [attrNonempty, present, timeNonempty_eq, timeSet, harr]

theorem toKeyvalue_ok (env : Env) (v : Voucher) (hv : ValuesOk v) (ha : ArraysOk v) (as : List Attr) :
    toKeyvalue env v as = .ok none ∨
    (∀ a ∈ as.filter (present v), (flatVal env.lib v a).isSome) ∧
    toKeyvalue env v as = .ok (some ((as.filter (present v)).map fun a =>
      (quoted (attrName a), ((flatVal env.lib v a).getD (.text [])).render))) := by
  induction as with
  | nil => right; simp [toKeyvalue]
  | cons a as ih =>
    simp only [toKeyvalue, present_eq]
    cases hp : present v a with
    | false =>
      simp only [List.filter_cons, hp, Bool.false_eq_true, if_false]
      exact ih
    | true =>
      simp only [List.filter_cons, hp, if_true]
      rcases serAttr_ok env as.length v hv ha a with e | ⟨x, hx, e⟩
      · left; rw [e]; rfl
      · rw [e, bind'_ok]
        simp only
        rcases ih with e2 | ⟨hs, e2⟩
        · left; rw [e2]; rfl
        · right
          rw [e2]
          refine ⟨?_, ?_⟩
          · intro b hb
            rcases List.mem_cons.1 hb with rfl | hb
            · rw [hx]; rfl
            · exact hs b hb
          · simp [hx, escapestr_eq]

theorem toKeyvalue_succ (env : Env) (hal : env.NoOom) (v : Voucher) (ha : ArraysOk v)
    (hs : SizesOk v) (as : List Attr)
    (ht : ∀ a ∈ as.filter (present v), (flatVal env.lib v a).isSome) :
    toKeyvalue env v as ≠ .ok none := by
  induction as with
  | nil => simp [toKeyvalue]
  | cons a as ih =>
    simp only [toKeyvalue, present_eq]
    cases hp : present v a with
    | false =>
      simp only [List.filter_cons, hp, Bool.false_eq_true, if_false] at ht ⊢
      exact ih ht
    | true =>
      simp only [List.filter_cons, hp, if_true] at ht ⊢
      obtain ⟨x, hx⟩ := Option.isSome_iff_exists.1 (ht a (by simp))
      rw [serAttr_succ env _ (hal _) v ha hs a x hx, bind'_ok]
      simp only
      have := ih (fun b hb => ht b (by simp [hb]))
      cases e : toKeyvalue env v as with
      | ub => simp
      | ok r =>
        cases r with
        | none => exact absurd e this
        | some l => simp

theorem attrName_no_nul (a : Attr) : (0 : UInt8) ∉ attrName a := by cases a <;> decide

theorem asString_ok (t : Bytes) (h : (0 : UInt8) ∉ t) :
    asString (.ok (some (t ++ [0]))) = .ok (some t) := by
  unfold asString
  rw [bind'_ok]
  simp only
  rw [cstring_ok t [] h, bind'_ok]

theorem jsonObject_no_nul (kvs : List (Bytes × Bytes))
    (h : ∀ kv ∈ kvs, (0 : UInt8) ∉ kv.1 ∧ (0 : UInt8) ∉ kv.2) : (0 : UInt8) ∉ jsonObject kvs := by
  have := body_nul kvs h
  rw [body_eq] at this
  simp only [jsonObject, List.mem_append, not_or]
  exact ⟨⟨by decide, this⟩, by decide⟩

theorem compact_render (name : Bytes) (ms : List (Bytes × FlatValue)) :
    (FlatDoc.compact name ms).render =
      jsonObject [(quoted name, jsonObject (ms.map fun m => (quoted m.1, m.2.render)))] := by
  simp only [FlatDoc.compact, FlatDoc.render, jsonObject, List.map_map, List.map_cons, List.map_nil,
    commaJoin, List.append_nil, List.nil_append, List.append_assoc]
  congr 5
  congr 1
  simp only [Function.comp_def, FlatMember.render, List.append_nil, List.nil_append,
    List.append_assoc]

/-- Document written for a voucher. -/
def docOf (lib : TimeLib) (v : Voucher) : FlatDoc :=
  voucherDoc v fun a => (flatVal lib v a).getD (.text [])

theorem docOf_members (lib : TimeLib) (v : Voucher) :
    docOf lib v = FlatDoc.compact rootName ((attrOrder.filter (present v)).map fun a =>
      (attrName a, (flatVal lib v a).getD (.text []))) := by
  have hs : schema = attrOrder.map fun a => (a, attrName a) := rfl
  unfold docOf voucherDoc
  rw [hs, List.filter_map, List.map_map]
  rfl

theorem serialize_ok (env : Env) (v : Voucher) (hv : ValuesOk v) (ha : ArraysOk v) :
    serialize env v = .ok none ∨
    (∀ a ∈ attrOrder.filter (present v), (flatVal env.lib v a).isSome) ∧
    serialize env v = .ok (some (docOf env.lib v).render) := by
  unfold serialize
  rcases toKeyvalue_ok env v hv ha attrOrder with e | ⟨hs, e⟩
  · left; rw [e]; rfl
  · rw [e, bind'_ok]
    simp only
    generalize hk : ((attrOrder.filter (present v)).map fun a =>
      (quoted (attrName a), ((flatVal env.lib v a).getD (.text [])).render)) = kvs
    have hn : ∀ kv ∈ kvs, (0 : UInt8) ∉ kv.1 ∧ (0 : UInt8) ∉ kv.2 := by
      rw [← hk]
      intro kv hkv
      obtain ⟨a, hm, rfl⟩ := List.mem_map.1 hkv
      obtain ⟨x, hx⟩ := Option.isSome_iff_exists.1 (hs a hm)
      refine ⟨?_, ?_⟩
      · have := attrName_no_nul a
        simp [quoted, str, this]
      · simp only [hx, Option.getD_some]
        exact flatVal_no_nul hv hx
    rcases keyvalue2json_spec (fun k => env.mem (k + 20)) kvs hn with ⟨e1, -⟩ | ⟨-, e1⟩
    · left; rw [e1]; rfl
    · rw [e1, asString_ok _ (jsonObject_no_nul kvs hn), bind'_ok]
      simp only
      have hn2 : ∀ kv ∈ [(escapestr rootName, jsonObject kvs)], (0 : UInt8) ∉ kv.1 ∧ (0 : UInt8) ∉ kv.2 := by
        intro kv hkv
        simp only [List.mem_singleton] at hkv
        subst hkv
        exact ⟨show (0 : UInt8) ∉ escapestr rootName by decide, jsonObject_no_nul kvs hn⟩
      rcases keyvalue2json_spec (fun k => env.mem (k + 60)) _ hn2 with ⟨e2, -⟩ | ⟨-, e2⟩
      · left; rw [e2]; rfl
      · right
        refine ⟨hs, ?_⟩
        rw [e2, asString_ok _ (jsonObject_no_nul _ hn2), docOf_members, compact_render, ← hk,
          escapestr_eq, List.map_map]
        rfl

theorem serialize_succ (env : Env) (hal : env.NoOom) (v : Voucher) (hv : ValuesOk v)
    (ha : ArraysOk v) (hs : SizesOk v)
    (ht : ∀ a ∈ attrOrder.filter (present v), (flatVal env.lib v a).isSome) :
    serialize env v = .ok (some (docOf env.lib v).render) := by
  rcases serialize_ok env v hv ha with e | ⟨-, e⟩
  · exfalso
    unfold serialize at e
    rcases toKeyvalue_ok env v hv ha attrOrder with e' | ⟨hs', e'⟩
    · exact toKeyvalue_succ env hal v ha hs attrOrder ht e'
    · rw [e', bind'_ok] at e
      simp only at e
      generalize hk : ((attrOrder.filter (present v)).map fun a =>
        (quoted (attrName a), ((flatVal env.lib v a).getD (.text [])).render)) = kvs at e
      have hn : ∀ kv ∈ kvs, (0 : UInt8) ∉ kv.1 ∧ (0 : UInt8) ∉ kv.2 := by
        rw [← hk]
        intro kv hkv
        obtain ⟨a, hm, rfl⟩ := List.mem_map.1 hkv
        obtain ⟨x, hx⟩ := Option.isSome_iff_exists.1 (hs' a hm)
        refine ⟨?_, ?_⟩
        · have := attrName_no_nul a
          simp [quoted, str, this]
        · simp only [hx, Option.getD_some]
          exact flatVal_no_nul hv hx
      have hne : kvs ≠ [] := by
        rw [← hk]
        intro h0
        have : Attr.revocationChecks ∈ attrOrder.filter (present v) :=
          List.mem_filter.2 ⟨by decide, rfl⟩
        rw [List.map_eq_nil_iff] at h0
        rw [h0] at this
        cases this
      rcases keyvalue2json_spec (fun k => env.mem (k + 20)) kvs hn with ⟨e1, h0 | ⟨i, n, h0⟩⟩ | ⟨-, e1⟩
      · exact hne h0
      · exact hal _ _ h0
      · rw [e1, asString_ok _ (jsonObject_no_nul kvs hn), bind'_ok] at e
        simp only at e
        have hn2 : ∀ kv ∈ [(escapestr rootName, jsonObject kvs)], (0 : UInt8) ∉ kv.1 ∧ (0 : UInt8) ∉ kv.2 := by
          intro kv hkv
          simp only [List.mem_singleton] at hkv
          subst hkv
          exact ⟨show (0 : UInt8) ∉ escapestr rootName by decide, jsonObject_no_nul kvs hn⟩
        rcases keyvalue2json_spec (fun k => env.mem (k + 60)) _ hn2 with ⟨e2, h0 | ⟨i, n, h0⟩⟩ | ⟨-, e2⟩
        · cases h0
        · exact hal _ _ h0
        · rw [e2, asString_ok _ (jsonObject_no_nul _ hn2)] at e
          cases e
  · exact e

end Brski.VoucherJson
