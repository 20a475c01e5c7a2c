import Verif.JsonSer

/-!
# Properties C11, C14–C21: voucher JSON text
-/

namespace Brski.Props
open Outcome Spec Jsmn Brski.Voucher BoolTime VoucherJson

/-! ## C11 -/

/-- Vouchers a program can hold: a new voucher, the result of an attribute call with any
arguments and any allocation outcomes, the result of parsing any text
(/repo/src/voucher/voucher.h:232-432). -/
inductive Built : Voucher → Prop where
  | init : Built Voucher.init
  | call {v v' : Voucher} {ret : Bool} (c : Call) (h : Built v) (hr : c.run v = .ok (v', ret)) :
      Built v'
  | parse {v : Voucher} (env : Env) (js : Bytes) (hl : js.length < 2 ^ 31)
      (hm : (env.mem 0).malloc 240 ≠ none) (hr : deserialize env js = .ok (some v)) : Built v

theorem built_ok {v : Voucher} (h : Built v) : VoucherOk v := by
  induction h with
  | init => exact voucherOk_init
  | call c h hr ih => exact call_voucherOk ih c hr
  | parse env js hl hm hr =>
    obtain ⟨r, e, hv⟩ := deserialize_safe env js (by omega) hm
    rw [e] at hr
    cases hr
    exact hv _ rfl

/-- **C11** Whatever mix of attribute calls and parsing produced a voucher, its assertion is
none, verified, logged or proximity, and its serial number is shorter than 128 bytes and free
of NUL bytes. -/
theorem C11_values (v : Voucher) (h : Built v) :
    (∀ n, getEnum v .assertion = some n → n = 0 ∨ n = 1 ∨ n = 2 ∨ n = 3) ∧
    (∀ s, getStr v .serialNumber = some (some s) → s.length < 128 ∧ (0 : UInt8) ∉ s) :=
  (built_ok h).1

/-- non-vacuity of C11: a parsed voucher with a serial number, changed by a call. -/
example : ∃ v, Built v ∧ v.serial = some (str "S1") ∧ v.assertion = 3 := by
  refine ⟨_, .call (.enum .assertion 3) (.parse Env.plain
    (str "{\"ietf-voucher:voucher\":{\"serial-number\":\"S1\"}}") (by decide) (by decide)
    (v := { Voucher.init with serial := some (str "S1") }) (by decide +kernel)) rfl, rfl, rfl⟩

/-! ## C20 -/

theorem flatVal_isValue {lib : TimeLib} {v : Voucher} (hv : VoucherOk v) {a : Attr} {x : FlatValue}
    (hp : present v a = true) (hx : flatVal lib v a = some x) : IsValue v a x := by
  have htime : ∀ t, (time2str lib t).map FlatValue.text = some x → IsTime t x := by
    intro t h
    obtain ⟨s, e, rfl⟩ := Option.map_eq_some_iff.1 h
    refine ⟨s, rfl, fun d hd hval hy => ?_⟩
    have := C07_text_is_rfc3339 lib t d hd hval (Or.inl hy)
    rw [e] at this
    exact Option.some.inj this
  have harr : ∀ y : BinArr, BinArr.Wf y → decide (y ≠ ⟨none, 0⟩) = true →
      x = .text (rfc4648 (content y)) → IsBytes y x := by
    intro ⟨arr, n⟩ hw hne hx
    cases arr with
    | none => simp only [BinArr.Wf] at hw; simp [hw] at hne
    | some b => simp only [BinArr.Wf] at hw; exact ⟨b, by rw [hw], hx⟩
  obtain ⟨hvv, h1, h2, h3, h4, h5⟩ := hv
  cases a <;> simp only [flatVal] at hx <;> simp only [present] at hp
  case createdOn => exact htime _ hx
  case expiresOn => exact htime _ hx
  case lastRenewalDate => exact htime _ hx
  case assertion =>
    simp only [IsValue]
    split at hx
    · cases hx; exact .inl ⟨by assumption, rfl⟩
    split at hx
    · cases hx; exact .inr (.inl ⟨by assumption, rfl⟩)
    split at hx
    · cases hx; exact .inr (.inr ⟨by assumption, rfl⟩)
    · cases hx
  case serialNumber =>
    obtain ⟨s, e, rfl⟩ := Option.map_eq_some_iff.1 hx
    exact ⟨s, e, rfl⟩
  case revocationChecks => cases hx; simp only [IsValue]; cases v.revocation <;> rfl
  case idevidIssuer => exact harr _ h1 hp (Option.some.inj hx).symm
  case pinnedDomainCert => exact harr _ h2 hp (Option.some.inj hx).symm
  case nonce => exact harr _ h3 hp (Option.some.inj hx).symm
  case priorSigned => exact harr _ h4 hp (Option.some.inj hx).symm
  case proximityCert => exact harr _ h5 hp (Option.some.inj hx).symm
  case other => cases hx

/-- **C20** The serialiser is defined for every voucher; whenever it returns a text, this is
one object with the single member `ietf-voucher:voucher` whose value is an object with exactly
the attributes that are set, each once, in schema order, each with its value text.  (For serial
numbers with quotes see C15.) -/
theorem C20_serialised_form (env : Env) (v : Voucher) (h : Built v) :
    serialize env v = .ok none ∨
    ∃ val : Attr → FlatValue, (∀ a, present v a = true → IsValue v a (val a)) ∧
      serialize env v = .ok (some (voucherDoc v val).render) := by
  have hv := built_ok h
  rcases serialize_ok env v hv.1 hv.2 with e | ⟨hs, e⟩
  · exact .inl e
  · right
    refine ⟨_, fun a ha => ?_, e⟩
    have hm : a ∈ attrOrder := by cases a <;> first | decide | cases ha
    obtain ⟨x, hx⟩ := Option.isSome_iff_exists.1 (hs a (List.mem_filter.2 ⟨hm, ha⟩))
    rw [hx]
    exact flatVal_isValue hv ha hx

/-- non-vacuity of C20. -/
example : Built { Voucher.init with assertion := 3, serial := some (str "S") } ∧
    serialize Env.plain { Voucher.init with assertion := 3, serial := some (str "S") } = .ok (some
      (str "{\"ietf-voucher:voucher\":{\"assertion\":\"proximity\",\"serial-number\":\"S\",\"domain-cert-revocation-checks\":false}}")) :=
  ⟨.call (ret := true) (.str .serialNumber (some (str "S")) zeroAllocator)
    (.call (.enum .assertion 3) .init rfl) (by decide +kernel), by decide +kernel⟩

/-- The time fields hold nothing or a real date and time (/repo/src/voucher/voucher.h:278-288). -/
def TimesOk (v : Voucher) : Prop :=
  ∀ a t, getTime v a = some t → timeSet t = false ∨ ∃ d : DateTime, tmHolds t d ∧ d.Valid

/-- Array attributes are absent or have at least one byte and are below the size limit of the
base64 encoder (/repo/src/voucher/voucher.h:313-322). -/
def ArraysFull (v : Voucher) : Prop :=
  ∀ a x, getArray v a = some x → x ≠ ⟨some [], 0⟩ ∧ (content x).length < sizeMax / 4

/-- The serial number is the text of a JSON string: without quotes and backslashes, but for the escapes of JSON
(/repo/src/voucher/voucher.h:301-311). -/
def SerialText (v : Voucher) : Prop :=
  ∀ s, getStr v .serialNumber = some (some s) → StringText s

theorem time_some {lib : TimeLib} {t : Tm} (h : timeSet t = false ∨ ∃ d : DateTime, tmHolds t d ∧ d.Valid)
    (hs : timeSet t = true) : ((time2str lib t).map FlatValue.text).isSome := by
  rcases h with h | ⟨d, hd, hval⟩
  · rw [hs] at h; cases h
  · obtain ⟨s, e, -⟩ := time2str_spec lib t d hd hval
    rw [e]; rfl

theorem flatVal_some {lib : TimeLib} {v : Voucher} (hv : VoucherOk v) (ht : TimesOk v) {a : Attr}
    (hp : present v a = true) : (flatVal lib v a).isSome := by
  cases a <;> simp only [present] at hp <;> simp only [flatVal]
  case createdOn => exact time_some (ht .createdOn _ rfl) hp
  case expiresOn => exact time_some (ht .expiresOn _ rfl) hp
  case lastRenewalDate => exact time_some (ht .lastRenewalDate _ rfl) hp
  case assertion =>
    rcases assertion_cases hv.1 with h | h | h | h <;> rw [h] at hp ⊢ <;> first | rfl | simp at hp
  case serialNumber => cases hs : v.serial with
    | none => rw [hs] at hp; cases hp
    | some s => rfl
  case other => cases hp
  all_goals rfl

theorem serialize_full (env : Env) (hal : env.NoOom) (v : Voucher) (hv : VoucherOk v)
    (ht : TimesOk v) (ha : ArraysFull v) :
    serialize env v = .ok (some (docOf env.lib v).render) :=
  serialize_succ env hal v hv.1 hv.2 (fun a x h => (ha a x h).2)
    (fun _ h => flatVal_some hv ht (List.mem_filter.1 h).2)

/-- **C20**, success: with memory, real dates and arrays below the size limit there is a text. -/
theorem C20_serialisation_succeeds (env : Env) (hal : env.NoOom) (v : Voucher) (h : Built v)
    (ht : TimesOk v) (ha : ArraysFull v) : ∃ t, serialize env v = .ok (some t) :=
  ⟨_, serialize_full env hal v (built_ok h) ht ha⟩

/-! ## C14, C15 -/

theorem readB64_rfc (blk b : Bytes) (hblk : blk.length = 4) (hne : b ≠ [])
    (hlt : b.length < sizeMax / 4) : readB64 blk (rfc4648 b) = some b := by
  obtain ⟨buf, n, e, hd⟩ := C01_roundtrip zeroAllocator zeroAllocator noOom_zero noOom_zero blk b hblk
    hne hlt
  rw [(C02_encode_any_alloc _ _ _ _ e).2.1] at hd
  unfold readB64
  rw [hd]

theorem readT_text (lib lib' : TimeLib) (t : Tm) (d : DateTime) (hd : tmHolds t d)
    (hval : d.Valid) (s : Bytes) (h : time2str lib t = some s) (hll : lib = lib' ∨ 1000 ≤ d.y) :
    ∃ t', readT lib' s = some t' ∧ tmHolds t' d := by
  have h' : time2str lib' t = some s := by
    rcases hll with rfl | hy
    · exact h
    · rw [C07_text_is_rfc3339 lib t d hd hval (.inl hy)] at h
      rw [C07_text_is_rfc3339 lib' t d hd hval (.inl hy), h]
  obtain ⟨s', t', e1, e2, e3, -⟩ := C07_time_roundtrip lib' t d hd hval
  rw [h'] at e1
  cases e1
  have hl : s.length ≤ 63 := by
    unfold time2str at h
    dsimp only at h
    generalize (if lib.padYear = true then 4 else 1) = w at h
    split at h
    · cases h; omega
    · cases h
  unfold readT
  rw [List.take_of_length_le hl]
  exact ⟨t', e2, e3⟩

theorem recordOf_names (rt : Bytes → Option Tm) (rb : Bytes → Option Bytes) (f : Attr → Bytes)
    (w : Attr → Val) (L : List Attr) (hL : ∀ a ∈ L, a ≠ .other ∧ valueOf rt rb a (f a) = some (w a)) :
    ∀ r, recordOf rt rb r (L.map fun a => (attrName a, f a)) =
      some fun x => if x ∈ L then some (w x) else r x := by
  induction L with
  | nil => intro r; simp [recordOf]
  | cons a L ih =>
    intro r
    have hn : attrOf (attrName a) = some a := by
      have := (hL a (by simp)).1
      cases a <;> first | decide | exact absurd rfl this
    simp only [List.map_cons, recordOf, hn, (hL a (by simp)).2]
    rw [ih (fun b hb => hL b (by simp [hb]))]
    congr 1
    funext x
    by_cases h1 : x ∈ L
    · simp [h1]
    · by_cases h2 : x = a <;> simp [h1, h2]

theorem observe_time {v : Voucher} {r : Record} (h : Agrees v r) (a : Attr) (t : Tm)
    (hg : getTime v a = some t) : t = match r a with | some (.time t) => t | _ => Tm.zero := by
  have := congrArg View.time (h a)
  simp only [observe, hg] at this
  cases a <;> simp only [getTime, reduceCtorEq] at hg <;>
    · simp only [view, Option.some.injEq] at this; exact this

theorem sameTime_unset {t : Tm} (h : timeSet t = false) : sameTime t Tm.zero := by
  simp only [timeSet, decide_eq_false_iff_not, ne_eq, Decidable.not_not] at h
  obtain ⟨a, b, c, d, e, f, g, i, j⟩ := t
  simp only [Tm.zero, Tm.mk.injEq] at h
  obtain ⟨rfl, rfl, rfl, rfl, rfl, rfl, -⟩ := h
  exact ⟨rfl, rfl, rfl, rfl, rfl, rfl⟩

theorem same_time_field {v' : Voucher} {r : Record} (h : Agrees v' r) {a : Attr} {t t' : Tm}
    (hg : getTime v' a = some t') (hu : timeSet t = false → r a = none)
    (hs : timeSet t = true → ∃ u, r a = some (.time u) ∧ sameTime t u) : sameTime t t' := by
  rw [observe_time h a t' hg]
  cases e : timeSet t with
  | false => rw [hu e]; exact sameTime_unset e
  | true => obtain ⟨u, e1, e2⟩ := hs e; rw [e1]; exact e2

theorem same_array_field {v' : Voucher} {r : Record} (h : Agrees v' r) {a : Attr} {x x' : BinArr}
    (hg : getArray v' a = some x') (hw : BinArr.Wf x) (hu : x = ⟨none, 0⟩ → r a = none)
    (hs : x ≠ ⟨none, 0⟩ → r a = some (.bytes (content x))) : x = x' := by
  have hx : x' = match r a with | some (.bytes b) => ⟨some b, b.length⟩ | _ => ⟨none, 0⟩ := by
    have := congrArg View.bytes (h a)
    simp only [observe, hg] at this
    cases a <;> simp only [getArray, reduceCtorEq] at hg
    all_goals
      simp only [view] at this
      split at this <;> simp only [Option.some.injEq] at this <;> simp_all
  rw [hx]
  obtain ⟨arr, n⟩ := x
  cases arr with
  | none =>
    simp only [BinArr.Wf] at hw
    subst hw
    rw [hu rfl]
  | some b =>
    simp only [BinArr.Wf] at hw
    subst hw
    rw [hs (by simp)]
    rfl

/-- The time fields hold nothing or a real date and time; with different C libraries on the two
sides the year has four digits (/repo/src/voucher/voucher.h:278-288). -/
def TimesFor (lib lib' : TimeLib) (v : Voucher) : Prop :=
  ∀ a t, getTime v a = some t → timeSet t = false ∨
    ∃ d : DateTime, tmHolds t d ∧ d.Valid ∧ (lib = lib' ∨ 1000 ≤ d.y)

theorem sameTime_of_holds {t u : Tm} {d : DateTime} (h1 : tmHolds t d) (h2 : tmHolds u d) :
    sameTime t u := by
  obtain ⟨a1, a2, a3, a4, a5, a6⟩ := h1
  obtain ⟨b1, b2, b3, b4, b5, b6⟩ := h2
  exact ⟨a1.trans b1.symm, a2.trans b2.symm, a3.trans b3.symm, a4.trans b4.symm, a5.trans b5.symm,
    a6.trans b6.symm⟩

theorem docOf_ok {lib : TimeLib} {v : Voucher} (hv : VoucherOk v) (ht : TimesOk v) (hp : SerialText v) :
    (docOf lib v).Ok := by
  rw [docOf_members]
  refine ⟨by simp [FlatDoc.compact], by simp [FlatDoc.compact], .of_plain ?_, by simp [FlatDoc.compact],
    by simp [FlatDoc.compact], by simp [FlatDoc.compact], ?_, by simp [FlatDoc.compact],
    by simp [FlatDoc.compact]⟩
  · simp only [FlatDoc.compact]; unfold isPlain; decide
  · intro m hm
    simp only [FlatDoc.compact, List.map_map, List.mem_map, Function.comp] at hm
    obtain ⟨a, ha, rfl⟩ := hm
    obtain ⟨x, hx⟩ := Option.isSome_iff_exists.1 (flatVal_some (lib := lib) hv ht (List.mem_filter.1 ha).2)
    refine ⟨by simp, .of_plain ?_, by simp, by simp, ?_, by simp⟩
    · simp only; unfold isPlain; cases a <;> decide
    · simp only [hx, Option.getD_some]
      exact flatVal_text hv.1 hx (fun _ s hs => hp s (by simp [getStr, hs]))

theorem docOf_count (lib : TimeLib) (v : Voucher) : (docOf lib v).members.length ≤ 11 := by
  rw [docOf_members]
  simp only [FlatDoc.compact, List.length_map]
  exact List.length_filter_le _ _

/-- Round trip for any voucher satisfying the invariant. -/
theorem round_trip (env env' : Env) (hal : env.NoOom) (hal' : env'.NoOom) (v : Voucher)
    (hv : VoucherOk v) (ht : TimesFor env.lib env'.lib v) (ha : ArraysFull v) (hp : SerialText v) :
    ∃ t, serialize env v = .ok (some t) ∧
      (t.length < 2 ^ 31 → ∃ v', deserialize env' t = .ok (some v') ∧ SameVoucher v v') := by
  have ht0 : TimesOk v := fun a t h => (ht a t h).imp id fun ⟨d, h1, h2, _⟩ => ⟨d, h1, h2⟩
  refine ⟨_, serialize_full env hal v hv ht0 ha, fun hl => ?_⟩
  have hd := docOf_ok (lib := env.lib) hv ht0 hp
  have hflat := deserialize_flat env' hal' (docOf env.lib v) hd (by omega)
    (by have := docOf_count env.lib v; omega)
  let f : Attr → Bytes := fun a => ((flatVal env.lib v a).getD (.text [])).raw
  let rt := readT env'.lib
  let rb := readB64 env'.blk
  let w : Attr → Val := fun a => (valueOf rt rb a (f a)).getD (.flag false)
  -- what each value reads back as
  have hw_time : ∀ a t, getTime v a = some t → timeSet t = true →
      flatVal env.lib v a = (time2str env.lib t).map .text →
      (∀ s, valueOf rt rb a s = (rt s).map .time) →
      ∃ u, valueOf rt rb a (f a) = some (.time u) ∧ sameTime t u := by
    intro a t hg hs hfv hvo
    rcases ht a t hg with h | ⟨d, h1, h2, h3⟩
    · rw [hs] at h; cases h
    · obtain ⟨s, e, -⟩ := time2str_spec env.lib t d h1 h2
      obtain ⟨u, e2, e3⟩ := readT_text env.lib env'.lib t d h1 h2 s e h3
      refine ⟨u, ?_, sameTime_of_holds h1 e3⟩
      simp only [f, hfv, e, hvo, Option.map_some, Option.getD_some, FlatValue.raw, rt, e2]
  have hw_arr : ∀ a x, getArray v a = some x → BinArr.Wf x → x ≠ ⟨none, 0⟩ →
      flatVal env.lib v a = some (.text (rfc4648 (content x))) →
      (∀ s, valueOf rt rb a s = (rb s).map .bytes) →
      valueOf rt rb a (f a) = some (.bytes (content x)) := by
    intro a x hg hwf hne hfv hvo
    have hc : content x ≠ [] := by
      intro h0
      have hfull := (ha a x hg).1
      obtain ⟨arr, n⟩ := x
      cases arr with
      | none => simp only [BinArr.Wf] at hwf; exact hne (by rw [hwf])
      | some b =>
        simp only [BinArr.Wf] at hwf
        simp only [content, Option.getD_some] at h0
        subst h0
        exact hfull (by rw [hwf]; rfl)
    simp only [f, hfv, hvo, Option.getD_some, FlatValue.raw, rb,
      readB64_rfc env'.blk (content x) env'.blk_len hc (ha a x hg).2, Option.map_some]
  have hw_ser : ∀ s, v.serial = some s → valueOf rt rb .serialNumber (f .serialNumber) = some (.text s) := by
    intro s hs
    have := (hv.1.2 s (by simp [getStr, hs])).1
    simp only [f, flatVal, hs, Option.map_some, Option.getD_some, FlatValue.raw, valueOf, this, if_true]
  have hw_ass : v.assertion ≠ 0 → valueOf rt rb .assertion (f .assertion) = some (.enum v.assertion) := by
    intro h0
    simp only [f, flatVal, valueOf]
    rcases assertion_cases hv.1 with h | h | h | h
    · exact absurd h h0
    · rw [h]; decide
    · rw [h]; decide
    · rw [h]; decide
  have hw_rev : valueOf rt rb .revocationChecks (f .revocationChecks) = some (.flag v.revocation) := by
    simp only [f, flatVal, valueOf, Option.getD_some, FlatValue.raw]
    cases v.revocation <;> decide
  have hsome : ∀ a, present v a = true → valueOf rt rb a (f a) = some (w a) := by
    intro a hpa
    suffices h : ∃ y, valueOf rt rb a (f a) = some y by
      obtain ⟨y, hy⟩ := h
      simp only [w, hy, Option.getD_some]
    obtain ⟨-, k1, k2, k3, k4, k5⟩ := hv
    cases a <;> simp only [present] at hpa
    case createdOn => exact (hw_time .createdOn _ rfl hpa rfl (fun _ => rfl)).imp' _ fun _ h => h.1
    case expiresOn => exact (hw_time .expiresOn _ rfl hpa rfl (fun _ => rfl)).imp' _ fun _ h => h.1
    case lastRenewalDate =>
      exact (hw_time .lastRenewalDate _ rfl hpa rfl (fun _ => rfl)).imp' _ fun _ h => h.1
    case assertion => exact ⟨_, hw_ass (of_decide_eq_true hpa)⟩
    case serialNumber =>
      obtain ⟨s, hs⟩ := Option.isSome_iff_exists.1 hpa
      exact ⟨_, hw_ser s hs⟩
    case revocationChecks => exact ⟨_, hw_rev⟩
    case idevidIssuer => exact ⟨_, hw_arr .idevidIssuer _ rfl k1 (of_decide_eq_true hpa) rfl (fun _ => rfl)⟩
    case pinnedDomainCert =>
      exact ⟨_, hw_arr .pinnedDomainCert _ rfl k2 (of_decide_eq_true hpa) rfl (fun _ => rfl)⟩
    case nonce => exact ⟨_, hw_arr .nonce _ rfl k3 (of_decide_eq_true hpa) rfl (fun _ => rfl)⟩
    case priorSigned => exact ⟨_, hw_arr .priorSigned _ rfl k4 (of_decide_eq_true hpa) rfl (fun _ => rfl)⟩
    case proximityCert =>
      exact ⟨_, hw_arr .proximityCert _ rfl k5 (of_decide_eq_true hpa) rfl (fun _ => rfl)⟩
    case other => cases hpa
  have hraw : rawMembers (docOf env.lib v).members =
      (attrOrder.filter (present v)).map fun a => (attrName a, f a) := by
    rw [docOf_members]
    simp only [rawMembers, FlatDoc.compact, List.map_map]
    rfl
  have hrec := recordOf_names rt rb f w (attrOrder.filter (present v))
    (fun a h => ⟨(fun h0 => by subst h0; cases (List.mem_filter.1 h).2), hsome a (List.mem_filter.1 h).2⟩) blank
  have hname : (docOf env.lib v).name.isPrefixOf rootName = true := by show rootName.isPrefixOf rootName = true; decide
  rw [if_pos hname, hraw, hrec] at hflat
  obtain ⟨v', e, hag⟩ := hflat
  refine ⟨v', e, ?_⟩
  -- the record
  have hmem : ∀ a, a ≠ .other → (a ∈ attrOrder.filter (present v) ↔ present v a = true) := by
    intro a hne
    rw [List.mem_filter]
    exact ⟨fun h => h.2, fun h => ⟨by cases a <;> first | decide | exact absurd rfl hne, h⟩⟩
  generalize hr : (fun x => if x ∈ attrOrder.filter (present v) then some (w x) else blank x) = r at hag
  have r_set : ∀ a, a ≠ .other → present v a = true → r a = valueOf rt rb a (f a) := by
    intro a hne hpa
    rw [← hr]
    simp only [(hmem a hne).2 hpa, if_true, hsome a hpa]
  have r_unset : ∀ a, a ≠ .other → present v a = false → r a = none := by
    intro a hne hpa
    rw [← hr]
    simp only
    rw [if_neg (fun h => by rw [(hmem a hne).1 h] at hpa; cases hpa)]
    rfl
  have htf : ∀ a t t', a ≠ .other → getTime v a = some t → getTime v' a = some t' →
      present v a = timeSet t → flatVal env.lib v a = (time2str env.lib t).map .text →
      (∀ s, valueOf rt rb a s = (rt s).map .time) → sameTime t t' := by
    intro a t t' hne hg hg' hpt hfv hvo
    refine same_time_field hag hg' (fun h => r_unset a hne (by rw [hpt, h])) (fun h => ?_)
    rw [r_set a hne (by rw [hpt, h])]
    exact hw_time a t hg h hfv hvo
  have haf : ∀ a x x', a ≠ .other → getArray v a = some x → getArray v' a = some x' → BinArr.Wf x →
      present v a = decide (x ≠ ⟨none, 0⟩) → flatVal env.lib v a = some (.text (rfc4648 (content x))) →
      (∀ s, valueOf rt rb a s = (rb s).map .bytes) → x = x' := by
    intro a x x' hne hg hg' hwf hpt hfv hvo
    refine same_array_field hag hg' hwf (fun h => r_unset a hne (by rw [hpt, h]; rfl)) (fun h => ?_)
    rw [r_set a hne (by rw [hpt]; exact decide_eq_true h)]
    exact hw_arr a x hg hwf h hfv hvo
  obtain ⟨hvv, k1, k2, k3, k4, k5⟩ := hv
  refine ⟨htf .createdOn _ _ (by decide) rfl rfl rfl rfl (fun _ => rfl),
    htf .expiresOn _ _ (by decide) rfl rfl rfl rfl (fun _ => rfl),
    htf .lastRenewalDate _ _ (by decide) rfl rfl rfl rfl (fun _ => rfl), ?_, ?_,
    haf .idevidIssuer _ _ (by decide) rfl rfl k1 rfl rfl (fun _ => rfl),
    haf .pinnedDomainCert _ _ (by decide) rfl rfl k2 rfl rfl (fun _ => rfl), ?_,
    haf .nonce _ _ (by decide) rfl rfl k3 rfl rfl (fun _ => rfl),
    haf .priorSigned _ _ (by decide) rfl rfl k4 rfl rfl (fun _ => rfl),
    haf .proximityCert _ _ (by decide) rfl rfl k5 rfl rfl (fun _ => rfl)⟩
  · have := congrArg View.enum (hag .assertion)
    simp only [observe, getEnum, view] at this
    by_cases h : v.assertion = 0
    · rw [r_unset .assertion (by decide) (by simp [present, h])] at this
      simp only [View.none, Option.some.injEq] at this
      rw [this, h]
    · rw [r_set .assertion (by decide) (by simp [present, h]), hw_ass h] at this
      simp only [View.none, Option.some.injEq] at this
      exact this.symm
  · have := congrArg View.text (hag .serialNumber)
    simp only [observe, getStr, view] at this
    cases h : v.serial with
    | none =>
      rw [r_unset .serialNumber (by decide) (by simp [present, h])] at this
      simp only [View.none, Option.some.injEq] at this
      exact this.symm
    | some s =>
      rw [r_set .serialNumber (by decide) (by simp [present, h]), hw_ser s h] at this
      simp only [View.none, Option.some.injEq] at this
      exact this.symm
  · have := congrArg View.flag (hag .revocationChecks)
    simp only [observe, getBool, view] at this
    rw [r_set .revocationChecks (by decide) rfl, hw_rev] at this
    simp only [View.none, Option.some.injEq] at this
    exact this.symm

/-- **C14** A voucher whose times are real dates (or not set), whose byte strings are not empty
and whose serial number contains no quote, backslash or control character is serialised, and
parsing the text returns a voucher with the same attributes. -/
theorem C14_json_round_trip (env env' : Env) (hal : env.NoOom) (hal' : env'.NoOom) (v : Voucher)
    (hb : Built v) (ht : TimesFor env.lib env'.lib v) (ha : ArraysFull v)
    (hp : ∀ s, getStr v .serialNumber = some (some s) → ∀ c ∈ s, 32 ≤ c ∧ c ≠ 34 ∧ c ≠ 92) :
    ∃ t, serialize env v = .ok (some t) ∧
      (t.length < 2 ^ 31 → ∃ v', deserialize env' t = .ok (some v') ∧ SameVoucher v v') := by
  refine round_trip env env' hal hal' v (built_ok hb) ht ha (fun s hs => .of_plain fun c hc => ?_)
  obtain ⟨h1, h2, h3⟩ := hp s hs c hc
  exact ⟨fun h0 => by subst h0; exact absurd h1 (by decide), h2, h3⟩

/-- A voucher with a date, a nonce and a serial number, for concrete instances. -/
def demoVoucher : Voucher :=
  { Voucher.init with
    createdOn := ⟨1, 2, 3, 4, 5, 120, 0, 0, 0⟩, serial := some (str "S-1"), nonce := .of [1, 2, 0] }

theorem demoVoucher_built : Built demoVoucher :=
  .call (ret := true) (.array .nonce (some (.of [1, 2, 0])) zeroAllocator)
    (.call (ret := true) (.str .serialNumber (some (str "S-1")) zeroAllocator)
      (v' := { Voucher.init with createdOn := ⟨1, 2, 3, 4, 5, 120, 0, 0, 0⟩, serial := some (str "S-1") })
      (.call (.time .createdOn (some ⟨1, 2, 3, 4, 5, 120, 0, 0, 0⟩)) .init rfl) (by decide +kernel))
    (by decide +kernel)

/-- non-vacuity of C14. -/
example : Built demoVoucher ∧ TimesFor Env.plain.lib Env.plain.lib demoVoucher ∧
    ArraysFull demoVoucher ∧
    (∀ s, getStr demoVoucher .serialNumber = some (some s) → ∀ c ∈ s, 32 ≤ c ∧ c ≠ 34 ∧ c ≠ 92) := by
  refine ⟨demoVoucher_built, ?_, ?_, ?_⟩
  · intro a t h
    cases a <;> simp only [getTime, reduceCtorEq, Option.some.injEq] at h <;> subst h
    · exact .inr ⟨⟨2020, 6, 4, 3, 2, 1⟩, ⟨rfl, rfl, rfl, rfl, rfl, rfl⟩, by unfold DateTime.Valid; decide, .inl rfl⟩
    · exact .inl (by decide)
    · exact .inl (by decide)
  · intro a x h
    cases a <;> simp only [getArray, reduceCtorEq, Option.some.injEq] at h <;> subst h <;> decide
  · intro s h
    cases h
    decide

/-- **C15** as stated: every voucher made by attribute calls within their contract, with real
dates, survives serialisation and parsing. -/
def C15_statement : Prop :=
  ∀ (cs : List Call) (v : Voucher) (rets : List Bool), (∀ c ∈ cs, callOk c) →
    runCalls Voucher.init cs = .ok (v, rets) → TimesOk v →
    ∃ t, serialize Env.plain v = .ok (some t) ∧
      (t.length < 2 ^ 31 → ∃ v', deserialize Env.plain t = .ok (some v') ∧ SameVoucher v v')

theorem timesOk_of_unset {v : Voucher} (h1 : v.createdOn = Tm.zero) (h2 : v.expiresOn = Tm.zero)
    (h3 : v.lastRenewal = Tm.zero) : TimesOk v := by
  intro a t h
  cases a <;> simp only [getTime, reduceCtorEq, Option.some.injEq] at h <;> subst h <;>
    exact .inl (by simp only [h1, h2, h3]; decide)

/-- The code violates C15: the serial number `x","nonce":"AAAA` is not escaped.  The text
parses, but to a voucher with the serial number `x` and a nonce that was never set. -/
theorem C15_violated : ¬ C15_statement := by
  intro h
  obtain ⟨t, e, h2⟩ := h [.str .serialNumber (some (str "x\",\"nonce\":\"AAAA")) zeroAllocator]
    { Voucher.init with serial := some (str "x\",\"nonce\":\"AAAA") } [true]
    (fun c hc => by
      simp only [List.mem_singleton] at hc
      subst hc
      intro s hs
      cases hs
      decide) (by decide +kernel) (timesOk_of_unset rfl rfl rfl)
  have e' : serialize Env.plain { Voucher.init with serial := some (str "x\",\"nonce\":\"AAAA") } =
      .ok (some (str "{\"ietf-voucher:voucher\":{\"serial-number\":\"x\",\"nonce\":\"AAAA\",\"domain-cert-revocation-checks\":false}}")) := by
    decide +kernel
  rw [e'] at e
  cases e
  obtain ⟨v', e2, hs⟩ := h2 (by decide)
  have e3 : deserialize Env.plain (str "{\"ietf-voucher:voucher\":{\"serial-number\":\"x\",\"nonce\":\"AAAA\",\"domain-cert-revocation-checks\":false}}") =
      .ok (some { Voucher.init with serial := some (str "x"), nonce := .of [0, 0, 0] }) := by
    decide +kernel
  rw [e3] at e2
  cases e2
  exact absurd hs.serial (by decide)

/-- A second violation of C15: an empty (but set) byte string is written as `""` and the text
is then refused. -/
theorem C15_violated_empty_array :
    ∃ t, runCalls Voucher.init [.array .nonce (some ⟨some [], 0⟩) zeroAllocator] =
        .ok ({ Voucher.init with nonce := ⟨some [], 0⟩ }, [true]) ∧
      serialize Env.plain { Voucher.init with nonce := ⟨some [], 0⟩ } = .ok (some t) ∧
      deserialize Env.plain t = .ok none :=
  ⟨str "{\"ietf-voucher:voucher\":{\"domain-cert-revocation-checks\":false,\"nonce\":\"\"}}",
    by decide +kernel, by decide +kernel, by decide +kernel⟩

theorem runCalls_built : ∀ (cs : List Call) (w v : Voucher) (rets : List Bool), Built w →
    runCalls w cs = .ok (v, rets) → Built v := by
  intro cs
  induction cs with
  | nil => intro w v rets hw h; simp only [runCalls, ok.injEq, Prod.mk.injEq] at h; rw [← h.1]; exact hw
  | cons c cs ih =>
    intro w v rets hw h
    simp only [runCalls] at h
    cases hc : c.run w with
    | ub => simp [hc] at h
    | ok r =>
      obtain ⟨w1, b⟩ := r
      simp only [hc, bind'_ok] at h
      cases hq : runCalls w1 cs with
      | ub => simp [hq] at h
      | ok q =>
        simp only [hq, bind'_ok, ok.injEq, Prod.mk.injEq] at h
        refine ih w1 v q.2 (.call c hw hc) ?_
        rw [hq, ← h.1]

/-- **C15**, the part that holds: vouchers made by any attribute calls, when the serial number
has no quote or backslash but for the escapes of JSON (control characters are allowed) and byte strings are not
empty.
Missing: the two exclusions, for which the code is wrong (see the violations above). -/
theorem C15_partial (env env' : Env) (hal : env.NoOom) (hal' : env'.NoOom) (cs : List Call)
    (v : Voucher) (rets : List Bool) (h : runCalls Voucher.init cs = .ok (v, rets))
    (ht : TimesFor env.lib env'.lib v) (ha : ArraysFull v) (hp : SerialText v) :
    ∃ t, serialize env v = .ok (some t) ∧
      (t.length < 2 ^ 31 → ∃ v', deserialize env' t = .ok (some v') ∧ SameVoucher v v') :=
  round_trip env env' hal hal' v (built_ok (runCalls_built cs _ v rets .init h)) ht ha hp

/-- non-vacuity of C15_partial: a serial number with a tab. -/
example : runCalls Voucher.init [.str .serialNumber (some [65, 9]) zeroAllocator] =
      .ok ({ Voucher.init with serial := some [65, 9] }, [true]) ∧
    SerialText { Voucher.init with serial := some [65, 9] } :=
  ⟨by decide +kernel, fun s h => by cases h; exact .of_plain (by unfold isPlain; decide)⟩

/-- Another: a quote and a character that are escaped already; the escapes are neither made nor resolved, so they come back. -/
example : runCalls Voucher.init [.str .serialNumber (some (str "A\\\"\\u00e4")) zeroAllocator] =
      .ok ({ Voucher.init with serial := some (str "A\\\"\\u00e4") }, [true]) ∧
    SerialText { Voucher.init with serial := some (str "A\\\"\\u00e4") } := by
  refine ⟨by decide +kernel, fun s h => ?_⟩
  cases h
  exact .plain (by unfold isPlain; decide) (.escape (by unfold isEscaped; decide)
    (.unicode (by unfold isHexDigit; decide) (by unfold isHexDigit; decide) (by unfold isHexDigit; decide)
      (by unfold isHexDigit; decide) .nil))

/-! ## C16 -/

/-- **C16** as stated: parsing any buffer ends with a voucher or NULL, without undefined
behaviour. -/
def C16_statement : Prop :=
  ∀ (env : Env) (js : Bytes), js.length < 2 ^ 31 → (deserialize env js).Defined

/-- The code violates C16 when the allocation of the voucher fails: the NULL result of
`init_voucher` is used, and a document starting with the serial number makes
`set_attr_nstr_voucher` dereference it (/repo/src/voucher/voucher.c:818,846). -/
theorem C16_violated : ¬ C16_statement := by
  intro h
  obtain ⟨r, hr⟩ := h ⟨TimeLib.plain, fun _ => failAllocator, [0, 0, 0, 0], rfl⟩
    (str "{\"ietf-voucher:voucher\":{\"serial-number\":\"S1\"}}") (by decide)
  have : deserialize ⟨TimeLib.plain, fun _ => failAllocator, [0, 0, 0, 0], rfl⟩
    (str "{\"ietf-voucher:voucher\":{\"serial-number\":\"S1\"}}") = .ub := by decide +kernel
  rw [this] at hr
  cases hr

/-- **C16**, the part that holds: for every buffer and every allocation outcome after the
voucher itself has been allocated, parsing is defined (no access outside the buffer, no token
outside it).  Missing: a failed allocation of the voucher. -/
theorem C16_partial (env : Env) (js : Bytes) (hl : js.length < 2 ^ 31)
    (hm : (env.mem 0).malloc 240 ≠ none) : (deserialize env js).Defined := by
  obtain ⟨r, e, -⟩ := deserialize_safe env js (by omega) hm
  exact ⟨r, e⟩

/-- non-vacuity of C16_partial: memory is exhausted right after the voucher was allocated. -/
example : ((fun k => if k = 0 then zeroAllocator else failAllocator : Nat → Allocator) 0).malloc 240 ≠ none := by
  decide

/-! ## C17 -/

/-- Member values with objects one level deeper (specification for the documents read at
/repo/src/voucher/voucher.c:798-873). -/
inductive NestedValue where
  | scalar (x : FlatValue)
  | object (ms : List (Bytes × FlatValue))

/-- JSON text of a value (specification for the documents read at
/repo/src/voucher/voucher.c:798-873). -/
def NestedValue.render : NestedValue → Bytes
  | .scalar x => x.render
  | .object ms => jsonObject (ms.map fun m => (quoted m.1, m.2.render))

/-- JSON text of a voucher document with such members (specification for the documents read at
/repo/src/voucher/voucher.c:798-873). -/
def nestedDoc (ms : List (Bytes × NestedValue)) : Bytes :=
  jsonObject [(quoted (str "ietf-voucher:voucher"),
    jsonObject (ms.map fun m => (quoted m.1, m.2.render)))]

/-- **C17** as stated: a document is only accepted if every member has one of the eleven names
(and a scalar value). -/
def C17_statement : Prop :=
  ∀ (ms : List (Bytes × NestedValue)) (v : Voucher),
    deserialize Env.plain (nestedDoc ms) = .ok (some v) →
    ∀ m ∈ ms, (attrOf m.1).isSome ∧ ∃ x, m.2 = .scalar x

/-- The code violates C17: the member loop steps over tokens, not over members, hence the inside
of a nested object is read in place of later members.  Here the serial number becomes the text
`{"nonce":"AAAA"}`, the nonce comes from the nested object, and the unknown member `x` is never
looked at. -/
theorem C17_violated : ¬ C17_statement := by
  intro h
  have e : deserialize Env.plain (nestedDoc
      [(str "serial-number", .object [(str "nonce", .text (str "AAAA"))]),
       (str "x", .scalar (.text (str "y")))]) =
      .ok (some { Voucher.init with serial := some (str "{\"nonce\":\"AAAA\"}"), nonce := .of [0, 0, 0] }) := by
    decide +kernel
  have := h _ _ e (str "x", .scalar (.text (str "y"))) (by simp)
  exact absurd this.1 (by decide)

/-- **C17**, the part that holds, for documents whose member values are strings or primitives,
with any white space and up to 14 members: the document is accepted exactly when the root name
matches, every member has one of the eleven names and every value is valid for its attribute; the
voucher then holds exactly these values, the last one for repeated names.  Missing: nested
values, for which the code is wrong, and several top-level members. -/
theorem C17_partial (env : Env) (hal : env.NoOom) (d : FlatDoc) (hd : d.Ok)
    (hl : d.render.length < 2 ^ 31) (hn : d.members.length ≤ 14) (hroot : d.name = str "ietf-voucher:voucher") :
    match recordOf (readT env.lib) (readB64 env.blk) blank
        (d.members.map fun m => (m.key, m.value.raw)) with
    | none => deserialize env d.render = .ok none
    | some r => ∃ v, deserialize env d.render = .ok (some v) ∧ ∀ a, observe v a = view r a := by
  have := deserialize_flat env hal d hd (by omega) hn
  rw [hroot, if_pos (by decide)] at this
  exact this

theorem recordOf_known (rt : Bytes → Option Tm) (rb : Bytes → Option Bytes) :
    ∀ (ms : List (Bytes × Bytes)) (r r' : Record), recordOf rt rb r ms = some r' →
    ∀ m ∈ ms, ∃ a, attrOf m.1 = some a ∧ (valueOf rt rb a m.2).isSome := by
  intro ms
  induction ms with
  | nil => intro r r' _ m hm; cases hm
  | cons m ms ih =>
    intro r r' h x hx
    obtain ⟨k, s⟩ := m
    simp only [recordOf] at h
    cases ea : attrOf k with
    | none => rw [ea] at h; cases h
    | some a =>
      rw [ea] at h
      simp only at h
      cases ev : valueOf rt rb a s with
      | none => rw [ev] at h; cases h
      | some y =>
        rw [ev] at h
        rcases List.mem_cons.1 hx with rfl | hx
        · exact ⟨a, ea, by rw [ev]; rfl⟩
        · exact ih _ r' h x hx

/-- **C17**, reading direction: an accepted flat document has only known names and valid
values. -/
theorem C17_partial_known (env : Env) (hal : env.NoOom) (d : FlatDoc) (hd : d.Ok)
    (hl : d.render.length < 2 ^ 31) (hn : d.members.length ≤ 14) (v : Voucher)
    (h : deserialize env d.render = .ok (some v)) :
    ∀ m ∈ d.members, ∃ a, attrOf m.key = some a ∧
      (valueOf (readT env.lib) (readB64 env.blk) a m.value.raw).isSome := by
  have := deserialize_flat env hal d hd (by omega) hn
  split at this
  · cases hrec : recordOf (readT env.lib) (readB64 env.blk) blank (rawMembers d.members) with
    | none => rw [hrec] at this; simp only at this; rw [h] at this; cases this
    | some r =>
      intro m hm
      exact recordOf_known _ _ _ _ _ hrec (m.key, m.value.raw) (List.mem_map.2 ⟨m, hm, rfl⟩)
  · rw [h] at this; cases this

instance (c : UInt8) : Decidable (isWs c) := by unfold isWs; infer_instance
instance (c : UInt8) : Decidable (isPlain c) := by unfold isPlain; infer_instance
instance (c : UInt8) : Decidable (isBare c) := by unfold isBare; infer_instance
instance (x : FlatValue) : Decidable x.Plain := by cases x <;> (unfold FlatValue.Plain; infer_instance)
instance (m : FlatMember) : Decidable m.Plain := by unfold FlatMember.Plain; infer_instance
instance (d : FlatDoc) : Decidable d.Plain := by unfold FlatDoc.Plain; infer_instance

/-- A small flat document with white space, for concrete instances. -/
def demoDoc : FlatDoc :=
  ⟨[10], [32], rootName, [], [32], [], [⟨[], str "serial-number", [], [32], .text (str "S"), []⟩,
    ⟨[10], str "domain-cert-revocation-checks", [], [], .bare (str "true"), [32]⟩], [], [10]⟩

/-- non-vacuity of C17_partial: the document is well-formed and accepted. -/
example : demoDoc.Ok ∧ demoDoc.render.length < 2 ^ 31 ∧ demoDoc.members.length ≤ 14 ∧
    deserialize Env.plain demoDoc.render =
      .ok (some { Voucher.init with serial := some (str "S"), revocation := true }) := by
  refine ⟨FlatDoc.Plain.ok ?_, by decide, by decide, by decide +kernel⟩
  decide +kernel

/-- non-vacuity of C17_partial with escapes: the well-formed document has an escaped slash and `\\u002b` in
a base64 text. -/
example : (FlatDoc.compact rootName [(str "nonce", .text (str "CQ\\/\\u002b"))]).Ok ∧
    (deserialize Env.plain (FlatDoc.compact rootName [(str "nonce", .text (str "CQ\\/\\u002b"))]).render).Defined := by
  refine ⟨⟨by simp [FlatDoc.compact], by simp [FlatDoc.compact], .of_plain (by decide), by simp [FlatDoc.compact],
    by simp [FlatDoc.compact], by simp [FlatDoc.compact], ?_, by simp [FlatDoc.compact], by simp [FlatDoc.compact]⟩,
    C16_partial _ _ (by decide) (by decide)⟩
  intro m hm
  simp only [FlatDoc.compact, List.map_cons, List.map_nil, List.mem_singleton] at hm
  subst hm
  refine ⟨by simp, .of_plain (by decide), by simp, by simp, ?_, by simp⟩
  show StringText [67, 81, 92, 47, 92, 117, 48, 48, 50, 98]
  refine .plain (by decide) (.plain (by decide) (.escape ?_ (.unicode ?_ ?_ ?_ ?_ .nil)))
  · unfold isEscaped; decide +kernel
  all_goals (unfold isHexDigit; decide +kernel)

/-- A second violation of C17: escapes are not resolved, the serial number `A\\/B` of the document (which
denotes `A/B`, RFC 8259 section 7) is stored as four characters. -/
theorem C17_violated_escape :
    deserialize Env.plain (str "{\"ietf-voucher:voucher\":{\"serial-number\":\"A\\/B\"}}") =
      .ok (some { Voucher.init with serial := some [65, 92, 47, 66] }) := by decide +kernel

/-! ## Documents that are not objects -/

theorem types_set {toks : List Tok} {i : Nat} {t : Tok} (ht : toks[i]? = some t) :
    (toks.map (·.type)).set i t.type = toks.map (·.type) := by
  apply List.ext_getElem?
  intro k
  rw [List.getElem?_set]
  split
  · rename_i e
    subst e
    split
    · simp [List.getElem?_map, ht]
    · rename_i hn
      rw [List.getElem?_eq_none (by omega)]
  · rfl

theorem bump_types {toks toks' : List Tok} {sup : Option Nat} (h : bump toks sup = .ok toks') :
    toks'.map (·.type) = toks.map (·.type) := by
  unfold bump at h
  split at h
  · cases h; rfl
  · split at h
    · rename_i ht
      cases h
      rw [List.map_set]
      have := types_set ht
      exact this
    · cases h

/-- The types of the tokens already found do not change. -/
theorem parseLoop_types (num : Nat) (rest : Bytes) : ∀ (pos : Nat) (toks : List Tok) (sup : Option Nat) (ts : List Tok),
    parseLoop num rest pos toks sup = .ok (.ok ts) → toks.map (·.type) <+: ts.map (·.type) := by
  induction hl : rest.length using Nat.strongRecOn generalizing rest with
  | ind n ih =>
    intro pos toks sup ts h
    rw [parseLoop.eq_def] at h
    split at h
    · split at h
      · cases h
      · cases h; exact List.prefix_rfl
    rename_i c r
    split at h
    · split at h
      · cases h
      · cases h; exact List.prefix_rfl
    split at h
    · split at h
      · cases h
      · cases hb : bump toks sup with
        | ub => rw [hb] at h; cases h
        | ok toks' =>
          rw [hb] at h
          simp only [bind'_ok] at h
          have := ih r.length (by simp at hl; omega) _ rfl _ _ _ _ h
          rw [List.map_append, bump_types hb] at this
          exact (List.prefix_append _ _).trans this
    split at h
    · split at h
      · cases h
      · rename_i i hi
        split at h
        · cases h
        · rename_i t ht
          generalize (if c = 125 then TokType.object else TokType.array) = ty at h
          split at h
          · cases h
          · have := ih r.length (by simp at hl; omega) _ rfl _ _ _ _ h
            rw [List.map_set] at this
            rwa [types_set ht] at this
    split at h
    · split at h
      · cases h
      · rename_i q r' hq
        have hpos := scanString_pos _ _ _ _ _ hq
        split at h
        · cases h
        · cases hb : bump (toks ++ [⟨.string, pos + 1, some q, 0⟩]) sup with
          | ub => rw [hb] at h; cases h
          | ok toks' =>
            rw [hb] at h
            simp only [bind'_ok] at h
            have := ih r'.length (by simp at hl; omega) _ rfl _ _ _ _ h
            rw [bump_types hb, List.map_append] at this
            exact (List.prefix_append _ _).trans this
    split at h
    · exact ih r.length (by simp at hl; omega) _ rfl _ _ _ _ h
    split at h
    · exact ih r.length (by simp at hl; omega) _ rfl _ _ _ _ h
    split at h
    · split at h
      · exact ih r.length (by simp at hl; omega) _ rfl _ _ _ _ h
      · split at h
        · cases h
        · split at h
          · exact ih r.length (by simp at hl; omega) _ rfl _ _ _ _ h
          · exact ih r.length (by simp at hl; omega) _ rfl _ _ _ _ h
    split at h
    · cases h
    · split at h
      · cases h
      · rename_i q r' hq
        have hpos := scanPrim_pos _ _ _ _ hq
        split at h
        · cases h
        · cases hb : bump (toks ++ [⟨.primitive, pos, some q, 0⟩]) sup with
          | ub => rw [hb] at h; cases h
          | ok toks' =>
            rw [hb] at h
            simp only [bind'_ok] at h
            have := ih r'.length (by simp at hl; omega) _ rfl _ _ _ _ h
            rw [bump_types hb, List.map_append] at this
            exact (List.prefix_append _ _).trans this

/-- Characters before the first value: white space and (tolerated) colons and commas. -/
def isLead (c : UInt8) : Prop := isWs c ∨ c = 58 ∨ c = 44

/-- The first token is an object only if the first other character is an opening brace. -/
theorem parseLoop_first (num : Nat) (rest : Bytes) : ∀ (pos : Nat) (t : Tok) (ts : List Tok),
    parseLoop num rest pos [] none = .ok (.ok (t :: ts)) → t.type = .object →
    ∃ p r, rest = p ++ 123 :: r ∧ ∀ c ∈ p, isLead c := by
  induction rest with
  | nil =>
    intro pos t ts h ht
    rw [parseLoop.eq_def] at h
    simp [lastOpen] at h
  | cons c r ih =>
    intro pos t ts h ht
    have skip : parseLoop num r (pos + 1) [] none = .ok (.ok (t :: ts)) → isLead c →
        ∃ p r', c :: r = p ++ 123 :: r' ∧ ∀ c ∈ p, isLead c := by
      intro h hc
      obtain ⟨p, r', rfl, hp⟩ := ih _ _ _ h ht
      refine ⟨c :: p, r', rfl, ?_⟩
      intro d hd
      rcases List.mem_cons.1 hd with rfl | hd
      · exact hc
      · exact hp d hd
    rw [parseLoop.eq_def] at h
    dsimp only at h
    split at h
    · simp [lastOpen] at h
    split at h
    · split at h
      · cases h
      · simp only [bump, bind'_ok, List.nil_append] at h
        have := parseLoop_types _ _ _ _ _ _ h
        simp only [List.map_cons, List.map_nil] at this
        obtain ⟨s, hs⟩ := this
        rw [List.singleton_append, List.cons.injEq, ht] at hs
        have h123 : c = 123 := by
          by_cases e : c = 123
          · exact e
          · rw [if_neg e] at hs; exact absurd hs.1 (by decide)
        subst h123
        exact ⟨[], r, rfl, by simp⟩
    split at h
    · simp [lastOpen] at h
    split at h
    · split at h
      · cases h
      · split at h
        · cases h
        · simp only [bump, bind'_ok, List.nil_append] at h
          have := parseLoop_types _ _ _ _ _ _ h
          simp only [List.map_cons, List.map_nil] at this
          obtain ⟨s, hs⟩ := this
          rw [List.singleton_append, List.cons.injEq, ht] at hs
          exact absurd hs.1 (by decide)
    split at h
    · rename_i hc
      exact skip h (.inl (by unfold isWs; rcases hc with h | h | h | h <;> simp [h]))
    split at h
    · rename_i hc
      simp only [List.length_nil, if_true] at h
      exact skip h (.inr (.inl hc))
    split at h
    · rename_i hc
      exact skip h (.inr (.inr hc))
    split at h
    · cases h
    · split at h
      · cases h
      · split at h
        · cases h
        · simp only [bump, bind'_ok, List.nil_append] at h
          have := parseLoop_types _ _ _ _ _ _ h
          simp only [List.map_cons, List.map_nil] at this
          obtain ⟨s, hs⟩ := this
          rw [List.singleton_append, List.cons.injEq, ht] at hs
          exact absurd hs.1 (by decide)

/-- **C17**, part for all buffers: an accepted buffer is an object, that is, its first character other than
white space (and stray colons and commas, which the tokenizer skips) is an opening brace. -/
theorem C17_partial_object (env : Env) (js : Bytes) (v : Voucher) (h : deserialize env js = .ok (some v)) :
    ∃ p r, js = p ++ 123 :: r ∧ ∀ c ∈ p, isLead c := by
  unfold deserialize at h
  cases hp : Jsmn.parse 32 js with
  | ub => rw [hp] at h; cases h
  | ok q =>
    rw [hp, bind'_ok] at h
    cases q with
    | error e => cases h
    | ok toks =>
      cases toks with
      | nil => cases h
      | cons t ts =>
        simp only at h
        split at h
        · cases h
        · rename_i ht
          exact parseLoop_first 32 js 0 t ts hp (by simpa using ht)

/-- non-vacuity of C17_partial_object, and the tolerated characters: this text is accepted. -/
example : deserialize Env.plain (str " ,:{\"ietf-voucher:voucher\":{\"serial-number\":\"S\"}}") =
    .ok (some { Voucher.init with serial := some (str "S") }) := by decide +kernel

/-! ## C18 -/

/-- **C18** as stated: a document is only accepted if its member is named exactly
`ietf-voucher:voucher`. -/
def C18_statement : Prop :=
  ∀ (d : FlatDoc) (v : Voucher), d.Ok → d.members.length ≤ 14 → d.render.length < 2 ^ 31 →
    deserialize Env.plain d.render = .ok (some v) → d.name = str "ietf-voucher:voucher"

/-- The code violates C18: the name is compared over the length of the token only, hence every
prefix is accepted, even the empty name (/repo/src/voucher/voucher.c:825-826). -/
theorem C18_violated : ¬ C18_statement := by
  intro h
  have e : deserialize Env.plain (FlatDoc.compact [] []).render = .ok (some Voucher.init) := by
    decide +kernel
  have := h (FlatDoc.compact [] []) _ (by simp [FlatDoc.compact, FlatDoc.Ok, StringText.nil]) (by decide) (by decide) e
  exact absurd this (by decide)

/-- A second violation of C18: the matching string may be a value instead of a member name. -/
theorem C18_violated_value :
    deserialize Env.plain (str "{\"a\":\"ietf-voucher:voucher\",\"b\":1}") = .ok none ∧
    deserialize Env.plain (str "{\"a\":[\"ietf-voucher:voucher\",{\"serial-number\":\"S\"}]}") =
      .ok (some { Voucher.init with serial := some (str "S") }) :=
  ⟨by decide +kernel, by decide +kernel⟩

/-- **C18**, the part that holds: for flat documents the name is a prefix of the required one.
Missing: proper prefixes are accepted; several top-level members. -/
theorem C18_partial (env : Env) (hal : env.NoOom) (d : FlatDoc) (hd : d.Ok)
    (hl : d.render.length < 2 ^ 31) (hn : d.members.length ≤ 14) (v : Voucher)
    (h : deserialize env d.render = .ok (some v)) : d.name <+: str "ietf-voucher:voucher" := by
  have := deserialize_flat env hal d hd (by omega) hn
  split at this
  · rename_i hp; exact List.isPrefixOf_iff_prefix.1 hp
  · rw [h] at this; cases this

/-- **C18** A flat document with a name that is no prefix (for example a longer name) is
refused. -/
theorem C18_partial_refused (env : Env) (hal : env.NoOom) (d : FlatDoc) (hd : d.Ok)
    (hl : d.render.length < 2 ^ 31) (hn : d.members.length ≤ 14)
    (h : ¬ d.name <+: str "ietf-voucher:voucher") : deserialize env d.render = .ok none := by
  have := deserialize_flat env hal d hd (by omega) hn
  split at this
  · rename_i hp; exact absurd (List.isPrefixOf_iff_prefix.1 hp) h
  · exact this

/-- non-vacuity of C18_partial_refused. -/
example : (FlatDoc.compact (str "ietf-voucher:voucher2") []).Ok ∧
    ¬ (FlatDoc.compact (str "ietf-voucher:voucher2") []).name <+: str "ietf-voucher:voucher" := by
  refine ⟨FlatDoc.Plain.ok ?_, by decide +kernel⟩
  decide +kernel

/-! ## C19 -/

theorem pairs_length {js : Bytes} : ∀ {ts : List Tok} {ms : List FlatMember}, Pairs js ts ms →
    ts.length = 2 * ms.length
  | [], [], _ => rfl
  | k :: v :: ts, m :: ms, h => by
    have := pairs_length h.2.2.2.2.2
    simp only [List.length_cons]
    omega
  | [], m :: ms, h => h.elim
  | [k], [], h => h.elim
  | [k], m :: ms, h => h.elim
  | k :: v :: ts, [], h => h.elim

/-- **C19** Any text with more than 32 tokens (as counted by the tokenizer with an unlimited
budget) is refused. -/
theorem C19_budget (env : Env) (js : Bytes) (big : Nat) (hb : 32 ≤ big) (ts : List Tok)
    (hp : Jsmn.parse big js = .ok (.ok ts)) (hn : 32 < ts.length) :
    deserialize env js = .ok none := by
  unfold deserialize
  rw [parse_budget 32 big hb js ts hp, if_neg (by omega)]
  rfl

/-- **C19**, flat documents: three tokens and two per member; refused from 15 members on. -/
theorem C19_flat (env : Env) (d : FlatDoc) (hd : d.Ok) (hn : 15 ≤ d.members.length) :
    deserialize env d.render = .ok none := by
  obtain ⟨T0, T1, T2, ts, hp, -, -, -, -, -, hpairs, -⟩ := parse_flat (3 + 2 * d.members.length) d hd
    (Nat.le_refl _)
  refine C19_budget env d.render _ (by omega) _ hp ?_
  have := pairs_length hpairs
  simp only [List.length_cons]
  omega

/-- **C19** Every voucher whose serial number is the text of a JSON string needs at most 25 tokens, less than the
budget, even with all eleven attributes. -/
theorem C19_vouchers_fit (env : Env) (v : Voucher) (hb : Built v) (ht : TimesOk v)
    (hp : SerialText v) (t : Bytes) (h : serialize env v = .ok (some t)) :
    ∃ ts, Jsmn.parse 32 t = .ok (.ok ts) ∧ ts.length ≤ 25 := by
  have hv := built_ok hb
  have hc := docOf_count env.lib v
  rcases serialize_ok env v hv.1 hv.2 with e | ⟨-, e⟩
  · rw [e] at h; cases h
  · rw [e] at h
    cases h
    obtain ⟨T0, T1, T2, ts, hp, -, -, -, -, -, hpairs, -⟩ := parse_flat 32 (docOf env.lib v)
      (docOf_ok hv ht hp) (by omega)
    refine ⟨_, hp, ?_⟩
    have := pairs_length hpairs
    simp only [List.length_cons]
    omega

/-- non-vacuity of C19: a document with 15 members. -/
example : (FlatDoc.compact rootName (List.replicate 15 (str "nonce", .text (str "AAAA")))).Ok ∧
    (FlatDoc.compact rootName (List.replicate 15 (str "nonce", .text (str "AAAA")))).members.length = 15 := by
  refine ⟨FlatDoc.Plain.ok ?_, by decide +kernel⟩
  decide +kernel

/-! ## C21 -/

/-- **C21** Joining any list of C strings is defined for every allocation outcome (every byte is
written inside the block); the result is exactly the joined text and its terminator, filling the
block, or NULL when the list is empty or memory is exhausted. -/
theorem C21_join_exact (mem : Nat → Allocator) (kvs : List (Bytes × Bytes))
    (h : ∀ kv ∈ kvs, (0 : UInt8) ∉ kv.1 ∧ (0 : UInt8) ∉ kv.2) :
    (keyvalue2json mem kvs = .ok none ∧ (kvs = [] ∨ ∃ i n, (mem i).malloc n = none)) ∨
    (kvs ≠ [] ∧ keyvalue2json mem kvs = .ok (some (jsonObject kvs ++ [0]))) :=
  keyvalue2json_spec mem kvs h

/-- non-vacuity of C21. -/
example : keyvalue2json (fun _ => zeroAllocator) [(str "\"a\"", str "1"), (str "\"b\"", str "2")] =
    .ok (some (str "{\"a\":1,\"b\":2}" ++ [0])) := by decide +kernel

end Brski.Props
