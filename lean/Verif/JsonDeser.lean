import Verif.JsonFlat
import Verif.PropsVoucher
import Verif.PropsBase64
import Verif.PropsBoolTime

/-!
# Lemmas about the deserialiser
-/

namespace Brski.VoucherJson
open Outcome Spec Jsmn Brski.Voucher BoolTime Props

theorem strncmpEq_defined (a b : Bytes) (n : Nat) (h : n ≤ b.length) :
    ∃ e, strncmpEq a b n = .ok e := by
  fun_induction strncmpEq a b n with
  | case1 => exact ⟨_, rfl⟩
  | case2 => simp at h
  | case3 => exact ⟨_, rfl⟩
  | case4 x a b n ih => exact ih (by simp at h; omega)
  | case5 => exact ⟨_, rfl⟩

/-- On text without NUL the comparison is a prefix test. -/
theorem strncmpEq_prefix (s b a : Bytes) (h : (0 : UInt8) ∉ s) :
    strncmpEq a (s ++ b) s.length = .ok (s.isPrefixOf a) := by
  induction s generalizing a with
  | nil => simp [strncmpEq]
  | cons c s ih =>
    simp only [List.mem_cons, not_or] at h
    cases a with
    | nil =>
      simp only [List.cons_append, List.length_cons, strncmpEq, List.isPrefixOf]
      simpa using fun h' : c = 0 => h.1 h'.symm
    | cons x a =>
      simp only [List.cons_append, List.length_cons, strncmpEq, List.isPrefixOf]
      by_cases hx : x = c
      · subst hx; simp [ih a h.2]
      · rw [if_neg hx]
        have : (c == x) = false := by simpa using fun e : c = x => hx e.symm
        simp [this]

theorem strncmpEq_same_length (a b : Bytes) (h : a.length = b.length) :
    strncmpEq a b b.length = .ok (a == b) := by
  induction a generalizing b with
  | nil => cases b <;> simp_all [strncmpEq]
  | cons x a ih =>
    cases b with
    | nil => simp at h
    | cons c b =>
      simp only [List.length_cons, strncmpEq]
      by_cases hx : x = c
      · subst hx
        rw [if_pos rfl, ih b (by simpa using h)]
        simp
      · simp [hx]

theorem checkSizeStrEqual_eq (a b : Bytes) : checkSizeStrEqual a b b.length = .ok (a == b) := by
  unfold checkSizeStrEqual
  by_cases h : a.length = b.length
  · rw [strncmpEq_same_length a b h]; simp [h]
  · obtain ⟨e, he⟩ := strncmpEq_defined a b b.length (Nat.le_refl _)
    rw [he]
    have : (a == b) = false := by
      rw [beq_eq_false_iff_ne]; rintro rfl; exact h rfl
    simp [h, this]

theorem findKey_eq (key : Bytes) : findKey key keyOrder = .ok (attrOf key) := by
  have hs : schema = keyOrder.map fun a => (a, attrName a) := rfl
  unfold attrOf
  rw [hs]
  generalize keyOrder = l
  induction l with
  | nil => rfl
  | cons a l ih =>
    simp only [findKey, checkSizeStrEqual_eq, bind'_ok, List.map_cons, List.find?_cons]
    by_cases h : attrName a = key
    · simp [h]
    · simp [h, ih]

/-- The base64 reader of the model as a function (memory available). -/
def readB64 (blk s : Bytes) : Option Bytes :=
  match Base64.base64str2array zeroAllocator blk s with
  | .ok (some _, .owned b) => some b
  | _ => none

/-- The reader of time text (with its 63 character limit). -/
def readT (lib : TimeLib) (s : Bytes) : Option Tm := str2time lib (s.take 63)

theorem b64_cases (al : Allocator) (blk s : Bytes) (hblk : blk.length = 4) (hs : s.length < 2 ^ 63) :
    (∃ p, Base64.base64str2array al blk s = .ok (none, p)) ∨
    (∃ b, Base64.base64str2array al blk s = .ok (some b.length, .owned b)) := by
  unfold Base64.base64str2array
  rw [Base64.genDecode_spec al blk s hblk hs]
  split
  · exact .inl ⟨_, rfl⟩
  · split
    · exact .inl ⟨_, rfl⟩
    · split
      · exact .inl ⟨_, rfl⟩
      · exact .inr ⟨_, rfl⟩

theorem b64_nooom (al : Allocator) (hal : NoOom al) (blk s : Bytes) (hblk : blk.length = 4)
    (hs : s.length < 2 ^ 63) :
    (∃ p, Base64.base64str2array al blk s = .ok (none, p) ∧ readB64 blk s = none) ∨
    (∃ b, Base64.base64str2array al blk s = .ok (some b.length, .owned b) ∧
      readB64 blk s = some b) := by
  unfold readB64 Base64.base64str2array
  rw [Base64.genDecode_spec al blk s hblk hs, Base64.genDecode_spec zeroAllocator blk s hblk hs]
  split
  · exact .inl ⟨_, rfl, rfl⟩
  · split
    · rename_i h; exact absurd h (hal _)
    · split
      · rename_i h; exact .inl ⟨_, rfl, by simp [zeroAllocator]⟩
      · rename_i h; exact .inr ⟨_, rfl, by simp [zeroAllocator]⟩

/-! ## Every document: definedness and value invariants -/

theorem runPtr_ok {v : Voucher} {c : Call} {v' : Voucher} {b : Bool} (h : c.run v = .ok (v', b)) :
    Call.runPtr (some v) c = .ok (some v', b) := by simp [Call.runPtr, h]

theorem setStrtime_safe (env : Env) (v : Voucher) (hv : VoucherOk v) (a : Attr) (value : Bytes) :
    ∃ v' b, setStrtime env (some v) a value = .ok (some v', b) ∧ VoucherOk v' := by
  unfold setStrtime
  split
  · exact ⟨v, false, rfl, hv⟩
  · rename_i t ht
    obtain ⟨v', b, h⟩ : ∃ v' b, (Call.time a (some t)).run v = .ok (v', b) := by
      cases a <;> exact ⟨_, _, rfl⟩
    exact ⟨v', b, runPtr_ok h, call_voucherOk hv _ h⟩

theorem setStrenum_safe (v : Voucher) (hv : VoucherOk v) (a : Attr) (value : Bytes) :
    ∃ v' b, setStrenum (some v) a value = .ok (some v', b) ∧ VoucherOk v' := by
  simp only [setStrenum, checkSizeStrEqual_eq, bind'_ok]
  have key : ∀ n, ∃ v' b, Call.runPtr (some v) (.enum a n) = .ok (some v', b) ∧ VoucherOk v' := by
    intro n
    refine ⟨_, _, runPtr_ok (v := v) (c := .enum a n) rfl, setEnum_voucherOk hv a n⟩
  split
  · exact key _
  · split
    · exact key _
    · split
      · exact key _
      · exact ⟨v, false, rfl, hv⟩

theorem setArray_defined (al : Allocator) (v : Voucher) (a : Attr) (b : Bytes) :
    ∃ v' r, setArray al v a (some ⟨some b, b.length⟩) = .ok (v', r) := by
  have hc : ∃ p, copyBinaryArray al ⟨some b, b.length⟩ = .ok p := by
    unfold copyBinaryArray memdup
    cases h : al.malloc b.length with
    | none => exact ⟨_, by simp only [h]; rfl⟩
    | some _ => exact ⟨_, by simp only [h, Nat.le_refl, if_true]; rfl⟩
  obtain ⟨p, hp⟩ := hc
  cases a <;> simp only [setArray, arrayNonempty, Option.isNone_some, Bool.false_eq_true, false_and,
    if_false, if_true, hp, bind'_ok] <;> exact ⟨_, _, rfl⟩

theorem setBase64_safe (env : Env) (k : Nat) (v : Voucher) (hv : VoucherOk v) (a : Attr)
    (value : Bytes) (hl : value.length < 2 ^ 63) :
    ∃ v' b, setBase64 env k (some v) a value = .ok (some v', b) ∧ VoucherOk v' := by
  unfold setBase64
  rcases b64_cases (env.mem k) env.blk value env.blk_len hl with ⟨p, h⟩ | ⟨b, h⟩
  · rw [h]; exact ⟨v, false, rfl, hv⟩
  · rw [h]
    simp only [bind'_ok]
    obtain ⟨v', r, he⟩ := setArray_defined (env.mem (k + 1)) v a b
    exact ⟨v', r, runPtr_ok (c := .array a (some ⟨some b, b.length⟩) (env.mem (k + 1))) he,
      setArray_voucherOk hv he⟩

theorem setStrbool_safe (v : Voucher) (hv : VoucherOk v) (a : Attr) (value : Bytes) :
    ∃ v' b, setStrbool (some v) a value = .ok (some v', b) ∧ VoucherOk v' := by
  unfold setStrbool
  split
  · exact ⟨v, false, rfl, hv⟩
  · exact ⟨_, _, runPtr_ok (v := v) (c := .bool a _) rfl, setBool_voucherOk hv a _⟩

theorem setKeyvalue_safe (env : Env) (k : Nat) (v : Voucher) (hv : VoucherOk v) (key value : Bytes)
    (hl : value.length < 2 ^ 63) :
    ∃ v' b, setKeyvalue env k (some v) key value = .ok (some v', b) ∧ VoucherOk v' := by
  simp only [setKeyvalue, findKey_eq, bind'_ok]
  split
  · exact setStrtime_safe env v hv _ _
  · exact setStrtime_safe env v hv _ _
  · exact setStrtime_safe env v hv _ _
  · exact setStrenum_safe v hv _ _
  · exact ⟨_, _, rfl, setNstr_voucherOk hv _ _ _ _⟩
  · exact setStrbool_safe v hv _ _
  · exact setBase64_safe env k v hv _ _ hl
  · exact setBase64_safe env k v hv _ _ hl
  · exact setBase64_safe env k v hv _ _ hl
  · exact setBase64_safe env k v hv _ _ hl
  · exact setBase64_safe env k v hv _ _ hl
  · exact ⟨v, false, rfl, hv⟩
  · exact ⟨v, false, rfl, hv⟩

/-- A NULL voucher is only harmful for the serial number. -/
theorem tokBytes_safe {js : Bytes} {t : Tok} (h : t.In js.length) (hc : t.stop ≠ none) :
    ∃ s, tokBytes js t = .ok s ∧ s.length ≤ js.length := by
  obtain ⟨ty, st, sp, n⟩ := t
  cases sp with
  | none => exact absurd rfl hc
  | some e =>
    have := h.2 e rfl
    simp only at this
    simp only [tokBytes, span, if_pos this.1, bind'_ok, slice]
    rw [if_pos (by omega)]
    exact ⟨_, rfl, by simp; omega⟩

theorem memberLoop_safe (env : Env) (js : Bytes) (hl : js.length < 2 ^ 63) (toks : List Tok)
    (ht : ∀ t ∈ toks, t.In js.length ∧ t.stop ≠ none) (idx : Nat) :
    ∀ n j v, VoucherOk v → ∃ r, memberLoop env js toks idx n j (some v) = .ok r ∧
      ∀ w, r = some w → ∃ v', w = some v' ∧ VoucherOk v' := by
  intro n
  induction n with
  | zero => intro j v hv; exact ⟨_, rfl, fun w hw => by cases hw; exact ⟨v, rfl, hv⟩⟩
  | succ n ih =>
    intro j v hv
    simp only [memberLoop]
    split
    · rename_i hb
      rw [List.getElem?_eq_getElem hb.1, List.getElem?_eq_getElem hb.2]
      simp only
      have h1 := ht _ (List.getElem_mem hb.1)
      have h2 := ht _ (List.getElem_mem hb.2)
      obtain ⟨key, e1, -⟩ := tokBytes_safe h1.1 h1.2
      obtain ⟨value, e2, hvl⟩ := tokBytes_safe h2.1 h2.2
      obtain ⟨v', b, e3, hv'⟩ := setKeyvalue_safe env (2 * j + 1) v hv key value (by omega)
      rw [e1, bind'_ok, e2, bind'_ok, e3, bind'_ok]
      cases b with
      | true => exact ih (j + 1) v' hv'
      | false => exact ⟨none, rfl, fun w hw => by cases hw⟩
    · exact ⟨none, rfl, fun w hw => by cases hw⟩

theorem rootLoop_safe (env : Env) (js : Bytes) (hl : js.length < 2 ^ 63) (toks : List Tok)
    (ht : ∀ t ∈ toks, t.In js.length ∧ t.stop ≠ none) (v : Voucher) (hv : VoucherOk v) :
    ∀ ts idx, (∀ t ∈ ts, t ∈ toks) → ∃ r, rootLoop env js toks (some v) ts idx = .ok r ∧
      ∀ w, r = some w → ∃ v', w = some v' ∧ VoucherOk v' := by
  intro ts
  induction ts with
  | nil => intro idx _; exact ⟨none, rfl, fun w hw => by cases hw⟩
  | cons t rest ih =>
    intro idx hm
    have h1 := ht t (hm t (by simp))
    obtain ⟨e, he⟩ := Option.ne_none_iff_exists'.1 h1.2
    have hse := h1.1.2 e he
    simp only [rootLoop, span, he, if_pos hse.1, bind'_ok, suffix, if_pos h1.1.1]
    obtain ⟨q, hq⟩ := strncmpEq_defined rootName (js.drop t.start) (e - t.start) (by simp; omega)
    rw [hq, bind'_ok]
    cases q with
    | false => exact ih _ (fun t ht => hm t (by simp [ht]))
    | true =>
      simp only [if_true]
      cases rest with
      | nil => exact ⟨none, rfl, fun w hw => by cases hw⟩
      | cons obj rest =>
        simp only
        split
        · exact memberLoop_safe env js hl toks ht _ _ _ v hv
        · exact ⟨none, rfl, fun w hw => by cases hw⟩

theorem deserialize_safe (env : Env) (js : Bytes) (hl : js.length < 2 ^ 63)
    (hm : (env.mem 0).malloc 240 ≠ none) :
    ∃ r, deserialize env js = .ok r ∧ ∀ v, r = some v → VoucherOk v := by
  obtain ⟨r, hr, hs⟩ := parse_safe 32 js
  unfold deserialize
  rw [hr, bind'_ok]
  cases r with
  | error e => exact ⟨none, rfl, fun v hv => by cases hv⟩
  | ok toks =>
    cases toks with
    | nil => exact ⟨none, rfl, fun v hv => by cases hv⟩
    | cons t rest =>
      simp only
      split
      · exact ⟨none, rfl, fun v hv => by cases hv⟩
      · obtain ⟨b, hb⟩ := Option.ne_none_iff_exists'.1 hm
        rw [hb]
        simp only [Option.map_some]
        obtain ⟨r, hr, hw⟩ := rootLoop_safe env js hl (t :: rest) (hs _ rfl).1 Voucher.init voucherOk_init
          rest 1 (fun t ht => by simp [ht])
        rw [hr, bind'_ok]
        refine ⟨_, rfl, fun v hv => ?_⟩
        cases r with
        | none => cases hv
        | some w =>
          obtain ⟨v', hw', hv'⟩ := hw w rfl
          subst hw'
          cases hv
          exact hv'

/-! ## Flat documents: exact meaning -/

/-- Memory never runs out during the call (/repo/src/utils/os.h:75). -/
def Env.NoOom (env : Env) : Prop := ∀ k, Props.NoOom (env.mem k)

theorem plain_noOom : Env.plain.NoOom := fun _ => noOom_zero

/-- The reader functions of the environment. -/
abbrev Env.valueOf (env : Env) : Attr → Bytes → Option Val :=
  Spec.valueOf (readT env.lib) (readB64 env.blk)

/-- Result of one call on a voucher that agrees with a record. -/
def Step (o : Outcome (Option Voucher × Bool)) (r : Record) (a : Attr) (x : Option Val) : Prop :=
  match x with
  | none => ∃ v', o = .ok (v', false)
  | some x => ∃ v', o = .ok (some v', true) ∧ Agrees v' (fun y => if y = a then some x else r y)

theorem step_of_sim {v : Voucher} {r : Record} {c : Call} {a : Attr} {x : Val}
    (h : Sim (c.run v) (fun y => if y = a then some x else r y, true)) :
    Step (Call.runPtr (some v) c) r a (some x) := by
  obtain ⟨v', e, ha⟩ := h
  exact ⟨v', runPtr_ok e, ha⟩

theorem step_time (env : Env) (v : Voucher) (r : Record) (h : Agrees v r) (a : Attr)
    (ha : a = .createdOn ∨ a = .expiresOn ∨ a = .lastRenewalDate) (s : Bytes)
    (hs : (0 : UInt8) ∉ s) : Step (setStrtime env (some v) a s) r a (env.valueOf a s) := by
  unfold setStrtime
  rw [takeWhile_all hs]
  have hvo : env.valueOf a s = (str2time env.lib (s.take 63)).map .time := by
    rcases ha with rfl | rfl | rfl <;> rfl
  rw [hvo]
  cases str2time env.lib (s.take 63) with
  | none => exact ⟨_, rfl⟩
  | some t =>
    apply step_of_sim
    have := sim_time h a (some t) (fun _ => rfl)
    rcases ha with rfl | rfl | rfl <;> exact this

theorem step_enum (env : Env) (v : Voucher) (r : Record) (h : Agrees v r) (s : Bytes) :
    Step (setStrenum (some v) .assertion s) r .assertion (env.valueOf .assertion s) := by
  simp only [setStrenum, checkSizeStrEqual_eq, bind'_ok, Env.valueOf, Spec.valueOf, assertionOf,
    beq_iff_eq, eq_comm (a := s)]
  split
  · exact step_of_sim (sim_enum h .assertion 1)
  · split
    · exact step_of_sim (sim_enum h .assertion 2)
    · split
      · exact step_of_sim (sim_enum h .assertion 3)
      · exact ⟨_, rfl⟩

theorem step_bool (env : Env) (v : Voucher) (r : Record) (h : Agrees v r) (s : Bytes)
    (hs : (0 : UInt8) ∉ s) :
    Step (setStrbool (some v) .revocationChecks s) r .revocationChecks
      (env.valueOf .revocationChecks s) := by
  simp only [setStrbool, str2bool_eq s hs, Env.valueOf, Spec.valueOf]
  cases boolText s with
  | none => exact ⟨_, rfl⟩
  | some b => exact step_of_sim (sim_bool h .revocationChecks b)

theorem step_serial (env : Env) (k : Nat) (hal : Props.NoOom (env.mem k)) (v : Voucher) (r : Record)
    (h : Agrees v r) (s : Bytes) (hs : (0 : UInt8) ∉ s) :
    Step (setNstrPtr (env.mem k) (some v) s) r .serialNumber (env.valueOf .serialNumber s) := by
  simp only [setNstrPtr, setNstr, Env.valueOf, Spec.valueOf]
  split
  · have hsim := sim_str h .serialNumber (some s) (env.mem k) hal (fun t ht => by cases ht; exact hs)
    rename_i hlt
    have hn : strnlen s 128 = s.length := by unfold strnlen; omega
    simp only [setStr, setNstr, hn, hlt, if_true, Option.map_some, fits] at hsim
    simp only [show s.length ≤ 127 by omega, decide_true, if_true] at hsim
    rw [strndup_ok hal hs] at hsim ⊢
    obtain ⟨v', e, ha⟩ := hsim
    cases e
    exact ⟨_, rfl, ha⟩
  · exact ⟨_, rfl⟩

theorem step_array (env : Env) (k : Nat) (hal : Env.NoOom env) (v : Voucher) (r : Record)
    (h : Agrees v r) (a : Attr) (ha : a = .idevidIssuer ∨ a = .pinnedDomainCert ∨ a = .nonce ∨
      a = .priorSigned ∨ a = .proximityCert) (s : Bytes) (hl : s.length < 2 ^ 63) :
    Step (setBase64 env k (some v) a s) r a (env.valueOf a s) := by
  have hvo : env.valueOf a s = (readB64 env.blk s).map .bytes := by
    rcases ha with rfl | rfl | rfl | rfl | rfl <;> rfl
  rw [hvo]
  unfold setBase64
  rcases b64_nooom (env.mem k) (hal k) env.blk s env.blk_len hl with ⟨p, e1, e2⟩ | ⟨b, e1, e2⟩
  · rw [e1, e2]; exact ⟨_, rfl⟩
  · rw [e1, e2]
    simp only [bind'_ok]
    apply step_of_sim
    have := sim_array h a (some ⟨some b, b.length⟩) (env.mem (k + 1)) (hal (k + 1))
      (fun y hy => by cases hy; rfl)
    rcases ha with rfl | rfl | rfl | rfl | rfl <;> exact this

theorem setKeyvalue_record (env : Env) (hal : env.NoOom) (k : Nat) (v : Voucher) (r : Record)
    (h : Agrees v r) (key s : Bytes) (hs : (0 : UInt8) ∉ s) (hl : s.length < 2 ^ 63) :
    match attrOf key with
    | none => ∃ v', setKeyvalue env k (some v) key s = .ok (v', false)
    | some a => Step (setKeyvalue env k (some v) key s) r a (env.valueOf a s) := by
  simp only [setKeyvalue, findKey_eq, bind'_ok]
  cases attrOf key with
  | none => exact ⟨_, rfl⟩
  | some a =>
    cases a <;> simp only
    · exact step_time env v r h _ (by simp) s hs
    · exact step_time env v r h _ (by simp) s hs
    · exact step_enum env v r h s
    · exact step_serial env k (hal k) v r h s hs
    · exact step_array env k hal v r h _ (by simp) s hl
    · exact step_array env k hal v r h _ (by simp) s hl
    · exact step_bool env v r h s hs
    · exact step_array env k hal v r h _ (by simp) s hl
    · exact step_time env v r h _ (by simp) s hs
    · exact step_array env k hal v r h _ (by simp) s hl
    · exact step_array env k hal v r h _ (by simp) s hl
    · exact ⟨_, rfl⟩

/-- Characters of the members of a flat document. -/
abbrev rawMembers (ms : List FlatMember) : List (Bytes × Bytes) :=
  ms.map fun m => (m.key, m.value.raw)

theorem bare_ne_zero {c : UInt8} (h : isBare c) : c ≠ 0 := by
  rintro rfl; exact absurd h.1 (by decide)

theorem text_no_nul {s : Bytes} (h : StringText s) : (0 : UInt8) ∉ s := by
  induction h with
  | nil => simp
  | plain hc _ ih =>
    intro h0
    rcases List.mem_cons.1 h0 with h0 | h0
    · exact hc.1 h0.symm
    · exact ih h0
  | escape hc _ ih =>
    intro h0
    rcases List.mem_cons.1 h0 with h0 | h0
    · exact absurd h0 (by decide)
    · rcases List.mem_cons.1 h0 with h0 | h0
      · rw [← h0] at hc; exact absurd hc (by unfold isEscaped; decide +kernel)
      · exact ih h0
  | unicode ha hb hc hd _ ih =>
    intro h0
    simp only [List.mem_cons] at h0
    rcases h0 with h0 | h0 | h0 | h0 | h0 | h0 | h0
    · exact absurd h0 (by decide)
    · exact absurd h0 (by decide)
    · exact (isHex_of ha).2 h0.symm
    · exact (isHex_of hb).2 h0.symm
    · exact (isHex_of hc).2 h0.symm
    · exact (isHex_of hd).2 h0.symm
    · exact ih h0

theorem raw_no_nul {x : FlatValue} (h : x.Ok) : (0 : UInt8) ∉ x.raw := by
  cases x with
  | text s => intro h0; exact text_no_nul h h0
  | bare s => intro h0; exact bare_ne_zero (h.2 0 h0) rfl

theorem tokBytes_le {js s : Bytes} {t : Tok} (h : tokBytes js t = .ok s) : s.length ≤ js.length := by
  unfold tokBytes at h
  cases e : span t with
  | ub => rw [e] at h; cases h
  | ok p =>
    rw [e, bind'_ok, slice] at h
    split at h
    · simp only [ok.injEq] at h
      subst h
      simp; omega
    · cases h

theorem memberLoop_flat (env : Env) (hal : env.NoOom) (js : Bytes) (hl : js.length < 2 ^ 63)
    (T0 T1 T2 : Tok) (ms : List FlatMember) (hms : ∀ m ∈ ms, m.Ok) :
    ∀ (ts done : List Tok) (j : Nat) (v : Voucher) (r : Record), Pairs js ts ms →
      done.length = 2 * j → Agrees v r →
      match recordOf (readT env.lib) (readB64 env.blk) r (rawMembers ms) with
      | none => memberLoop env js (T0 :: T1 :: T2 :: (done ++ ts)) 2 ms.length j (some v) = .ok none
      | some r' => ∃ v', memberLoop env js (T0 :: T1 :: T2 :: (done ++ ts)) 2 ms.length j (some v) =
          .ok (some (some v')) ∧ Agrees v' r' := by
  induction ms with
  | nil =>
    intro ts done j v r _ _ h
    exact ⟨v, rfl, h⟩
  | cons m ms ih =>
    intro ts done j v r hp hd h
    match ts, hp with
    | k :: x :: ts, hp =>
      simp only [List.length_cons, memberLoop]
      have hm := hms m (by simp)
      rw [if_pos (by simp; omega)]
      have g1 : (T0 :: T1 :: T2 :: (done ++ k :: x :: ts))[2 + j * 2 + 1]? = some k := by
        rw [show 2 + j * 2 + 1 = done.length + 3 by omega]
        simp
      have g2 : (T0 :: T1 :: T2 :: (done ++ k :: x :: ts))[2 + (j * 2 + 1) + 1]? = some x := by
        rw [show 2 + (j * 2 + 1) + 1 = done.length + 1 + 3 by omega]
        simp
      rw [g1, g2]
      simp only
      rw [hp.1, bind'_ok, hp.2.1, bind'_ok]
      have hraw := raw_no_nul hm.2.2.2.2.1
      have hlen := tokBytes_le hp.2.1
      have hk := setKeyvalue_record env hal (2 * j + 1) v r h m.key m.value.raw hraw (by omega)
      simp only [rawMembers, List.map_cons, recordOf]
      cases ea : attrOf m.key with
      | none =>
        rw [ea] at hk
        obtain ⟨v', e⟩ := hk
        rw [e]; rfl
      | some a =>
        rw [ea] at hk
        simp only at hk ⊢
        cases ev : Spec.valueOf (readT env.lib) (readB64 env.blk) a m.value.raw with
        | none =>
          rw [show env.valueOf a m.value.raw = none from ev] at hk
          obtain ⟨v', e⟩ := hk
          rw [e]; rfl
        | some y =>
          rw [show env.valueOf a m.value.raw = some y from ev] at hk
          obtain ⟨v', e, ha⟩ := hk
          rw [e]
          simp only [bind'_ok, if_true]
          have := ih (fun m hm => hms m (by simp [hm])) ts (done ++ [k, x]) (j + 1) v' _
            hp.2.2.2.2.2 (by simp; omega) ha
          simpa only [List.append_assoc, List.cons_append, List.nil_append] using this

theorem Pairs.types {js : Bytes} : ∀ {ts : List Tok} {ms : List FlatMember}, Pairs js ts ms →
    ∀ t ∈ ts, t.type ≠ .object
  | [], [], _ => by simp
  | k :: v :: ts, m :: ms, h => by
    have := Pairs.types h.2.2.2.2.2
    intro t ht
    rcases List.mem_cons.1 ht with rfl | ht
    · rw [h.2.2.2.2.1.1]; decide
    rcases List.mem_cons.1 ht with rfl | ht
    · exact h.2.2.2.2.1.2
    exact this t ht
  | [], m :: ms, h => h.elim
  | [k], [], h => h.elim
  | [k], m :: ms, h => h.elim
  | k :: v :: ts, [], h => h.elim

theorem rootLoop_none (env : Env) (js : Bytes) (toks : List Tok) (v : Option Voucher) :
    ∀ (ts : List Tok) (idx : Nat), (∀ t ∈ ts, t.In js.length ∧ t.stop ≠ none) →
      (∀ t ∈ ts.tail, t.type ≠ .object) → rootLoop env js toks v ts idx = .ok none := by
  intro ts
  induction ts with
  | nil => intros; rfl
  | cons t rest ih =>
    intro idx ht hty
    have h1 := ht t (by simp)
    obtain ⟨e, he⟩ := Option.ne_none_iff_exists'.1 h1.2
    have hse := h1.1.2 e he
    simp only [rootLoop, span, he, if_pos hse.1, bind'_ok, suffix, if_pos h1.1.1]
    obtain ⟨q, hq⟩ := strncmpEq_defined rootName (js.drop t.start) (e - t.start) (by simp; omega)
    rw [hq, bind'_ok]
    cases q with
    | false =>
      simp only [Bool.false_eq_true, if_false]
      refine ih _ (fun t h => ht t (by simp [h])) (fun t h => hty t ?_)
      exact List.mem_of_mem_tail h
    | true =>
      simp only [if_true]
      cases rest with
      | nil => rfl
      | cons obj rest =>
        have := hty obj (by simp)
        simp only [this, if_false]

/-- The root search finds the first token when its name is a prefix of the expected one. -/
theorem tokBytes_inv {js s : Bytes} {t : Tok} (h : tokBytes js t = .ok s) :
    ∃ e, t.stop = some e ∧ t.start ≤ e ∧ e ≤ js.length ∧ s.length = e - t.start ∧
      ∃ r, js.drop t.start = s ++ r := by
  unfold tokBytes span at h
  cases he : t.stop with
  | none => rw [he] at h; cases h
  | some e =>
    rw [he] at h
    simp only at h
    split at h
    · rename_i hle
      rw [bind'_ok, slice] at h
      split at h
      · rename_i hle2
        simp only [ok.injEq] at h
        refine ⟨e, rfl, hle, by omega, by rw [← h]; simp; omega, (js.drop t.start).drop (e - t.start), ?_⟩
        rw [← h, List.take_append_drop]
      · cases h
    · cases h

theorem rootLoop_head (env : Env) (js : Bytes) (toks : List Tok) (v : Option Voucher) (T1 T2 : Tok)
    (ts : List Tok) (idx : Nat) (name : Bytes) (h : tokBytes js T1 = .ok name)
    (hn : (0 : UInt8) ∉ name) (hty : T2.type = .object) :
    rootLoop env js toks v (T1 :: T2 :: ts) idx =
      if name.isPrefixOf rootName then memberLoop env js toks (idx + 1) T2.size 0 v
      else rootLoop env js toks v (T2 :: ts) (idx + 1) := by
  obtain ⟨e, he, h1, h2, h3, r, hr⟩ := tokBytes_inv h
  rw [rootLoop]
  simp only [span, he, if_pos h1, bind'_ok, suffix, if_pos (show T1.start ≤ js.length by omega)]
  rw [hr, ← h3, strncmpEq_prefix name r rootName hn, bind'_ok]
  simp only [hty, if_true]

/-- Exact result of deserialising a flat document. -/
theorem deserialize_flat (env : Env) (hal : env.NoOom) (d : FlatDoc) (hd : d.Ok)
    (hl : d.render.length < 2 ^ 63) (hn : d.members.length ≤ 14) :
    if d.name.isPrefixOf rootName then
      match recordOf (readT env.lib) (readB64 env.blk) blank (rawMembers d.members) with
      | none => deserialize env d.render = .ok none
      | some r => ∃ v, deserialize env d.render = .ok (some v) ∧ Agrees v r
    else deserialize env d.render = .ok none := by
  obtain ⟨T0, T1, T2, ts, hp, ht0, ht1, ht1s, ht2, ht2z, hpairs, -⟩ := parse_flat 32 d hd (by omega)
  obtain ⟨r, hr, hs⟩ := parse_safe 32 d.render
  rw [hp] at hr
  cases hr
  have hs := (hs _ rfl).1
  have hname : (0 : UInt8) ∉ d.name := text_no_nul hd.2.2.1
  obtain ⟨b, hb⟩ := Option.ne_none_iff_exists'.1 (hal 0 240)
  have key : deserialize env d.render =
      ((if d.name.isPrefixOf rootName then
          memberLoop env d.render (T0 :: T1 :: T2 :: ([] ++ ts)) 2 d.members.length 0 (some Voucher.init)
        else .ok none).bind fun r => .ok (r.getD none)) := by
    unfold deserialize
    rw [hp, bind'_ok]
    simp only [ht0, hb, Option.map_some, ne_eq, not_true_eq_false, if_false]
    rw [rootLoop_head env d.render _ _ T1 T2 ts 1 d.name ht1 hname ht2, ht2z,
      rootLoop_none env d.render _ _ (T2 :: ts) 2 (fun t ht => hs t (List.mem_cons_of_mem _ (List.mem_cons_of_mem _ ht)))
        (by simpa using Pairs.types hpairs)]
    rfl
  rw [key]
  split
  · have := memberLoop_flat env hal d.render hl T0 T1 T2 d.members hd.2.2.2.2.2.2.1 ts [] 0
      Voucher.init blank hpairs rfl agrees_init
    cases hrec : recordOf (readT env.lib) (readB64 env.blk) blank (rawMembers d.members) with
    | none =>
      rw [hrec] at this
      simp only at this ⊢
      rw [this]; rfl
    | some r =>
      rw [hrec] at this
      simp only at this ⊢
      obtain ⟨v, e, ha⟩ := this
      exact ⟨v, by rw [e]; rfl, ha⟩
  · rfl

end Brski.VoucherJson
