import Verif.PropsBoolTime
import Verif.PropsVoucher
import Verif.PropsJson

/-!
# C06, C10 and C18, exactly

What the code does in the cases in which it violates these properties.
-/

namespace Brski.Props

open Outcome Spec Jsmn Brski.Voucher BoolTime VoucherJson

/-! ## C06 -/

/-- `true` in any case, with a NUL behind it. -/
def trueNul (s : Bytes) : Prop := ∃ t, s = t ++ [0] ∧ asciiLower t = str "true"

/-- **C06** (exact): besides the texts that denote a boolean, `true` followed by a NUL is accepted, and nothing else. -/
theorem C06_exact (s : Bytes) (b : Bool) : str2bool s = some b ↔ boolText s = some b ∨ (b = true ∧ trueNul s) := by
  by_cases h0 : (0 : UInt8) ∈ s
  · have hnt : boolText s = none := by
      have hlow : (0 : UInt8) ∈ asciiLower s := by
        rw [asciiLower_eq]
        exact List.mem_map.2 ⟨0, h0, by decide⟩
      unfold boolText
      rw [if_neg, if_neg]
      · rintro (h | h)
        · subst h; exact absurd h0 (by decide)
        · rw [h] at hlow; exact absurd hlow (by decide)
      · rintro (h | h)
        · subst h; exact absurd h0 (by decide)
        · rw [h] at hlow; exact absurd hlow (by decide)
    rw [hnt]
    obtain ⟨t, r, rfl, ht⟩ := List.eq_append_cons_of_mem h0
    have hcs : cstr ((t ++ 0 :: r).map tolower ++ [0]) = t.map tolower := by
      have h1 : (t ++ 0 :: r).map tolower ++ [0] = t.map tolower ++ 0 :: (r.map tolower ++ [0]) := by
        simp [show tolower 0 = 0 by decide]
      rw [h1, cstr, List.takeWhile_append_of_pos]
      · simp
      · intro c hc
        simpa using fun h : c = 0 => map_tolower_no_nul t ht (h ▸ hc)
    have hlen : (t ++ 0 :: r).length = t.length + r.length + 1 := by simp; omega
    have hone : ∀ c : UInt8, c ≠ 0 → ¬ ((t ++ 0 :: r).take 1 = [c] ∧ (t ++ 0 :: r).length = 1) := by
      rintro c hc ⟨h1, h2⟩
      have : t = [] := List.eq_nil_of_length_eq_zero (by omega)
      subst this
      simp at h1
      exact hc h1.symm
    have htrue : trueNul (t ++ 0 :: r) ↔ t.map tolower = str "true" ∧ r = [] := by
      constructor
      · rintro ⟨t', h1, h2⟩
        rw [asciiLower_eq] at h2
        have h3 : (0 : UInt8) ∉ t' := by
          intro h
          have : (0 : UInt8) ∈ t'.map tolower := List.mem_map.2 ⟨0, h, by decide⟩
          rw [h2] at this
          exact absurd this (by decide)
        have h4 : t = t' := by
          have := congrArg (List.takeWhile (· ≠ 0)) h1
          rw [List.takeWhile_append_of_pos (by intro c hc; simpa using fun h : c = 0 => ht (h ▸ hc)),
            List.takeWhile_append_of_pos (by intro c hc; simpa using fun h : c = 0 => h3 (h ▸ hc))] at this
          simpa using this
        subst h4
        exact ⟨h2, by simpa using h1⟩
      · rintro ⟨h1, rfl⟩
        exact ⟨t, rfl, by rw [asciiLower_eq]; exact h1⟩
    rw [htrue]
    unfold str2bool
    simp only [hcs]
    rw [if_neg (by omega)]
    by_cases h5 : (t ++ 0 :: r).length > 5
    · rw [if_pos h5]
      simp only [reduceCtorEq, false_or, false_iff]
      rintro ⟨_, h1, rfl⟩
      have := congrArg List.length h1
      rw [List.length_map, show (str "true").length = 4 from rfl] at this
      rw [List.length_nil] at hlen
      omega
    · rw [if_neg h5, show str "0" = [48] from rfl, show str "1" = [49] from rfl, if_neg (hone 48 (by decide)), if_neg (hone 49 (by decide)), if_neg]
      · split
        · rename_i h1
          have := congrArg List.length h1
          rw [List.length_map, show (str "true").length = 4 from rfl] at this
          have hr : r = [] := List.eq_nil_of_length_eq_zero (by omega)
          simp [h1, hr, eq_comm]
        · rename_i h1
          simp [h1]
      · intro h1
        have := congrArg List.length h1
        rw [List.length_map, show (str "false").length = 5 from rfl] at this
        omega
  · rw [str2bool_eq s h0]
    constructor
    · exact fun h => .inl h
    · rintro (h | ⟨_, t, rfl, _⟩)
      · exact h
      · simp at h0

/-- The texts accepted against the property. -/
example : trueNul [0x54, 0x72, 0x55, 0x65, 0] ∧ str2bool [0x54, 0x72, 0x55, 0x65, 0] = some true ∧
    str2bool [0x31, 0] = none ∧ str2bool [0x74, 0x72, 0x75, 0x65, 0, 0] = none :=
  ⟨⟨[0x54, 0x72, 0x55, 0x65], rfl, by decide⟩, by decide, by decide, by decide⟩

/-! ## C10 -/

/-- A text of this length is to be stored, and there is no memory for it. -/
def noText (al : Allocator) (s : Bytes) : Prop := s.length < 128 ∧ al.malloc (s.length + 1) = none

/-- The array has a length but no data, or there is no memory for its data. -/
def noData (al : Allocator) (x : BinArr) : Prop :=
  (x.array = none ∧ x.length ≠ 0) ∨ (x.array ≠ none ∧ al.malloc x.length = none)

/-- The attributes that hold byte strings. -/
def holdsBytes (a : Attr) : Prop :=
  a = .idevidIssuer ∨ a = .pinnedDomainCert ∨ a = .nonce ∨ a = .priorSigned ∨ a = .proximityCert

/-- The calls that lose the value the attribute had. -/
def Loses : Call → Prop
  | .str a (some s) al => a = .serialNumber ∧ noText al s
  | .va a (.str (some s)) al => a = .serialNumber ∧ noText al s
  | .array a (some x) al => holdsBytes a ∧ noData al x
  | .va a (.array (some x)) al => holdsBytes a ∧ noData al x
  | _ => False

theorem setStr_exact (al : Allocator) (v v' : Voucher) (a : Attr) (s : Bytes) :
    ((a = .serialNumber ∧ noText al s) → setStr al v a (some s) = (clear v a, false)) ∧
    (¬ (a = .serialNumber ∧ noText al s) → setStr al v a (some s) = (v', false) → v' = v) := by
  by_cases ha : a = .serialNumber
  · subst ha
    by_cases hl : s.length < 128
    · have h1 : strnlen s 128 = s.length := by simp only [strnlen]; omega
      have h2 : szWrap (s.length + 1) = s.length + 1 := by unfold szWrap; omega
      cases hm : al.malloc (s.length + 1) with
      | none =>
        refine ⟨fun _ => ?_, fun h => absurd ⟨rfl, hl, hm⟩ h⟩
        simp [setStr, setNstr, strndup, h1, h2, hl, hm, clear]
      | some b =>
        refine ⟨fun h => ?_, fun _ h => ?_⟩
        · have := h.2.2
          rw [hm] at this
          cases this
        · simp [setStr, setNstr, strndup, h1, h2, hl, hm] at h
    · have h1 : ¬ strnlen s 128 < 128 := by simp only [strnlen]; omega
      refine ⟨fun h => absurd h.2.1 hl, fun _ h => ?_⟩
      simp [setStr, setNstr, h1] at h
      exact h.symm
  · refine ⟨fun h => absurd h.1 ha, fun _ h => ?_⟩
    cases a <;> simp only [setStr] at h <;> first | (cases h; rfl) | exact absurd rfl ha

theorem setArray_exact (al : Allocator) (v v' : Voucher) (a : Attr) (x : BinArr) :
    ((holdsBytes a ∧ noData al x) → setArray al v a (some x) = .ok (clear v a, false)) ∧
    (¬ (holdsBytes a ∧ noData al x) → setArray al v a (some x) = .ok (v', false) → v' = v) := by
  obtain ⟨arr, len⟩ := x
  cases arr with
  | none =>
    by_cases hl : len = 0
    · subst hl
      refine ⟨fun h => ?_, fun _ h => ?_⟩
      · rcases h.2 with ⟨_, h⟩ | ⟨h, _⟩ <;> exact absurd rfl h
      · simp only [setArray, arrayNonempty] at h
        simp at h
        exact h.symm
    · have hd : noData al ⟨none, len⟩ := .inl ⟨rfl, hl⟩
      refine ⟨fun h => ?_, fun h1 h2 => ?_⟩
      · rcases h.1 with rfl | rfl | rfl | rfl | rfl <;>
          simp [setArray, arrayNonempty, hl, copyBinaryArray, memdup, clear, BinArr.empty]
      · cases a <;> simp [setArray, arrayNonempty, hl, copyBinaryArray, memdup] at h2 <;>
          first | exact h2.symm | exact absurd ⟨by simp [holdsBytes], hd⟩ h1
  | some b =>
    cases hm : al.malloc len with
    | none =>
      have hd : noData al ⟨some b, len⟩ := .inr ⟨by simp, hm⟩
      refine ⟨fun h => ?_, fun h1 h2 => ?_⟩
      · rcases h.1 with rfl | rfl | rfl | rfl | rfl <;>
          simp [setArray, arrayNonempty, hm, copyBinaryArray, memdup, clear, BinArr.empty]
      · cases a <;> simp [setArray, arrayNonempty, hm, copyBinaryArray, memdup] at h2 <;>
          first | exact h2.symm | exact absurd ⟨by simp [holdsBytes], hd⟩ h1
    | some blk =>
      have hd : ¬ noData al ⟨some b, len⟩ := by
        rintro (⟨h, _⟩ | ⟨_, h⟩)
        · cases h
        · rw [hm] at h; cases h
      refine ⟨fun h => absurd h.2 hd, fun _ h2 => ?_⟩
      by_cases hlb : len ≤ b.length
      · cases a <;> simp [setArray, arrayNonempty, hm, hlb, copyBinaryArray, memdup] at h2 <;> exact h2.symm
      · cases a <;> simp [setArray, arrayNonempty, hm, hlb, copyBinaryArray, memdup] at h2 <;> exact h2.symm

/-- **C10** (exact): the calls in `Loses` fail and reset the attribute to its initial value; every other call that fails leaves the voucher
as it was. -/
theorem C10_exact (v : Voucher) (c : Call) :
    (Loses c → c.run v = .ok (clear v (named c), false)) ∧
    (¬ Loses c → ∀ v', c.run v = .ok (v', false) → v' = v) := by
  cases c with
  | bool a x => exact ⟨fun h => h.elim, fun _ v' h => setBool_fail (Outcome.ok.inj h)⟩
  | time a x => exact ⟨fun h => h.elim, fun _ v' h => setTime_fail h⟩
  | enum a x => exact ⟨fun h => h.elim, fun _ v' h => setEnum_fail (Outcome.ok.inj h)⟩
  | clear a => exact ⟨fun h => h.elim, fun _ v' h => by simp [Call.run] at h⟩
  | str a x al =>
    cases x with
    | none =>
      refine ⟨fun h => h.elim, fun _ v' h => ?_⟩
      have h := Outcome.ok.inj h
      cases a <;> simp [setStr] at h <;> exact h.symm
    | some s =>
      refine ⟨fun h => congrArg Outcome.ok ((setStr_exact al v v a s).1 h), fun h v' h' => ?_⟩
      exact (setStr_exact al v v' a s).2 h (Outcome.ok.inj h')
  | array a x al =>
    cases x with
    | none =>
      refine ⟨fun h => h.elim, fun _ v' h => ?_⟩
      simp [Call.run, setArray] at h
      exact h.symm
    | some x =>
      exact ⟨fun h => (setArray_exact al v v a x).1 h, fun h v' h' => (setArray_exact al v v' a x).2 h h'⟩
  | va a x al =>
    cases x with
    | time t =>
      refine ⟨fun h => h.elim, fun _ v' h => ?_⟩
      cases a <;> simp only [Call.run, setVa, reduceCtorEq] at h <;>
        first | exact setTime_fail h | (simp only [Outcome.ok.injEq, Prod.mk.injEq] at h; exact h.1.symm)
    | int m =>
      refine ⟨fun h => h.elim, fun _ v' h => ?_⟩
      cases a <;> simp only [Call.run, setVa, reduceCtorEq] at h <;>
        first
        | exact setEnum_fail (Outcome.ok.inj h)
        | exact setBool_fail (Outcome.ok.inj h)
        | (simp only [Outcome.ok.injEq, Prod.mk.injEq] at h; exact h.1.symm)
    | str s =>
      cases s with
      | none =>
        refine ⟨fun h => h.elim, fun _ v' h => ?_⟩
        cases a <;> simp only [Call.run, setVa, setStr, reduceCtorEq, Outcome.ok.injEq, Prod.mk.injEq] at h <;> exact h.1.symm
      | some s =>
        refine ⟨fun h => ?_, fun h v' h' => ?_⟩
        · have h' : a = .serialNumber ∧ noText al s := h
          obtain ⟨rfl, h2⟩ := h'
          exact congrArg Outcome.ok ((setStr_exact al v v .serialNumber s).1 ⟨rfl, h2⟩)
        · cases a <;> simp only [Call.run, setVa, reduceCtorEq] at h' <;>
            first
            | exact (setStr_exact al v v' _ s).2 h (Outcome.ok.inj h')
            | (simp only [Outcome.ok.injEq, Prod.mk.injEq] at h'; exact h'.1.symm)
    | array x =>
      cases x with
      | none =>
        refine ⟨fun h => h.elim, fun _ v' h => ?_⟩
        cases a <;> simp only [Call.run, setVa, setArray, reduceCtorEq, Outcome.ok.injEq, Prod.mk.injEq] at h <;> exact h.1.symm
      | some x =>
        refine ⟨fun h => ?_, fun h v' h' => ?_⟩
        · obtain ⟨h1, h2⟩ := id h
          have := (setArray_exact al v v a x).1 ⟨h1, h2⟩
          rcases h1 with rfl | rfl | rfl | rfl | rfl <;> exact this
        · cases a <;> simp only [Call.run, setVa, reduceCtorEq] at h' <;>
            first
            | exact (setArray_exact al v v' _ x).2 h h'
            | (simp only [Outcome.ok.injEq, Prod.mk.injEq] at h'; exact h'.1.symm)

/-- Both kinds of calls. -/
example : Loses (.array .nonce (some ⟨none, 5⟩) zeroAllocator) ∧ Loses (.va .serialNumber (.str (some [49])) failAllocator) ∧
    ¬ Loses (.str .serialNumber (some (List.replicate 128 65)) failAllocator) := by
  refine ⟨⟨by simp [holdsBytes], .inl ⟨rfl, by decide⟩⟩, ⟨rfl, by decide, rfl⟩, ?_⟩
  rintro ⟨_, h, _⟩
  simp at h

/-! ## C18 -/

/-- **C18** (exact): a flat document whose member is named by a prefix of the required name is treated as if it had the required name: both
are refused, or both are accepted with vouchers whose attributes agree; any other flat document is refused. -/
theorem C18_exact (env : Env) (hal : env.NoOom) (d : FlatDoc) (hd : d.Ok) (hl : d.render.length < 2 ^ 31) (hn : d.members.length ≤ 14) :
    (¬ d.name <+: str "ietf-voucher:voucher" → deserialize env d.render = .ok none) ∧
    (d.name <+: str "ietf-voucher:voucher" →
      (deserialize env d.render = .ok none ∧ deserialize env { d with name := str "ietf-voucher:voucher" }.render = .ok none) ∨
      ∃ v v', deserialize env d.render = .ok (some v) ∧ deserialize env { d with name := str "ietf-voucher:voucher" }.render = .ok (some v') ∧
        ∀ a, observe v a = observe v' a) := by
  refine ⟨C18_partial_refused env hal d hd hl hn, fun hp => ?_⟩
  have hd' : FlatDoc.Ok { d with name := str "ietf-voucher:voucher" } := by
    obtain ⟨h1, h2, _, h3⟩ := hd
    exact ⟨h1, h2, .of_plain (show ∀ c ∈ str "ietf-voucher:voucher", isPlain c by decide), h3⟩
  have hl' : (FlatDoc.render { d with name := str "ietf-voucher:voucher" }).length < 2 ^ 63 := by
    have h1 : (FlatDoc.render { d with name := str "ietf-voucher:voucher" }).length + d.name.length = d.render.length + 20 := by
      simp only [FlatDoc.render, quoted, List.length_append, show (str "ietf-voucher:voucher").length = 20 from rfl]
      omega
    omega
  have h1 := deserialize_flat env hal d hd (by omega) hn
  have h2 := deserialize_flat env hal _ hd' hl' hn
  rw [if_pos (show d.name.isPrefixOf rootName = true from List.isPrefixOf_iff_prefix.2 hp)] at h1
  rw [if_pos (show (str "ietf-voucher:voucher").isPrefixOf rootName = true by decide)] at h2
  simp only at h2
  cases hr : recordOf (readT env.lib) (readB64 env.blk) blank (rawMembers d.members) with
  | none =>
    rw [hr] at h1 h2
    exact .inl ⟨h1, h2⟩
  | some r =>
    rw [hr] at h1 h2
    obtain ⟨v, h3, h4⟩ := h1
    obtain ⟨v', h5, h6⟩ := h2
    exact .inr ⟨v, v', h3, h5, fun a => by rw [h4 a, h6 a]⟩

/-- A document named by a proper prefix. -/
example : (FlatDoc.compact (str "ietf") [(str "serial-number", .text (str "S"))]).Ok ∧
    (FlatDoc.compact (str "ietf") [(str "serial-number", .text (str "S"))]).name <+: str "ietf-voucher:voucher" := by
  refine ⟨FlatDoc.Plain.ok ?_, by decide +kernel⟩
  decide +kernel

end Brski.Props
