import Verif.JsonTail

/-!
# C100: text after a voucher document
-/

namespace Brski.Props
open Outcome Brski.Voucher VoucherJson Jsmn Spec

/-- **C100**: when a document that ends with its closing brace is accepted, text after it either makes the document refused or
leaves the voucher as it is. -/
def C100_statement : Prop :=
  ∀ (env : Env) (p x : Bytes) (v w : Voucher), Ended p → deserialize env p = .ok (some v) →
    deserialize env (p ++ x) = .ok (some w) → w = v

/-- **C100**, the part that holds: for every document that gives something but the empty voucher. -/
theorem C100_partial (env : Env) (p x : Bytes) (v w : Voucher) (hp : Ended p) (h : deserialize env p = .ok (some v))
    (h' : deserialize env (p ++ x) = .ok (some w)) (hv : v ≠ Voucher.init) : w = v := by
  rcases deserialize_more env p x hp h h' with e | ⟨e, -⟩
  · exact e.symm
  · exact absurd e hv

/-- **C100** for documents whose voucher object has at least one member, whatever the members say. -/
theorem C100_members (env : Env) (d : FlatDoc) (hd : d.Ok) (hm : d.members ≠ []) (x : Bytes) (v w : Voucher)
    (h : deserialize env d.render = .ok (some v)) (h' : deserialize env (d.render ++ x) = .ok (some w)) : w = v := by
  have hend : Ended d.render := ⟨_, d.w5, by
    show _ ++ str "}" ++ d.w5 = _
    rw [List.append_assoc]
    rfl, hd.2.2.2.2.2.2.2.2⟩
  rcases deserialize_more env d.render x hend h h' with e | ⟨-, T, t, hT, ht, hty⟩
  · exact e.symm
  · exfalso
    obtain ⟨T0, T1, T2, us, hp, -, -, -, -, -, hpairs, -⟩ := parse_flat (32 + (3 + 2 * d.members.length)) d hd (by omega)
    have hb := parse_budget 32 _ (by omega) d.render _ hp
    rw [hT] at hb
    have hb' : T = T0 :: T1 :: T2 :: us := by
      split at hb
      · simpa using hb
      · cases hb
    subst hb'
    have hlen := (Pairs.closed hpairs).2
    have hne : us ≠ [] := by
      intro e
      rw [e] at hlen
      cases hms : d.members with
      | nil => exact hm hms
      | cons m ms => rw [hms] at hlen; simp at hlen
    have hmem : t ∈ us := by
      rw [← List.getLast?_eq_getElem?] at ht
      cases us with
      | nil => exact absurd rfl hne
      | cons a us =>
        rw [List.getLast?_cons_cons, List.getLast?_cons_cons, List.getLast?_cons_cons] at ht
        exact List.mem_of_getLast? ht
    exact Pairs.types hpairs t hmem hty

/-- **C100** for what the library writes: text after the text of a voucher either makes it refused or leaves the voucher
that is read. -/
theorem C100_vouchers (env env' : Env) (v : Voucher) (hb : Built v) (ht : TimesOk v) (hp : SerialText v) (t : Bytes)
    (h : serialize env v = .ok (some t)) (x : Bytes) (v' w : Voucher) (h1 : deserialize env' t = .ok (some v'))
    (h2 : deserialize env' (t ++ x) = .ok (some w)) : w = v' := by
  have hv := built_ok hb
  rcases serialize_ok env v hv.1 hv.2 with e | ⟨-, e⟩
  · rw [e] at h; cases h
  · rw [e] at h
    cases h
    refine C100_members env' (docOf env.lib v) (docOf_ok hv ht hp) ?_ x v' w h1 h2
    rw [docOf_members]
    intro hnil
    have : Attr.revocationChecks ∈ attrOrder.filter (present v) := List.mem_filter.2 ⟨by decide, rfl⟩
    generalize attrOrder.filter (present v) = l at hnil this
    cases l with
    | nil => cases this
    | cons a l => cases hnil

/-- A document that gives the empty voucher (read at /repo/src/voucher/voucher.c:798-873). -/
def emptyDoc : Bytes := str "{\"ietf-voucher:voucher\":{}}"

/-- **C100** is violated: a member written after a document with an empty voucher object is read as a member of that object. -/
theorem C100_violated : ¬ C100_statement := by
  intro h
  have := h Env.plain emptyDoc (str ":\"nonce\":\"AAAA\"") Voucher.init { Voucher.init with nonce := .of [0, 0, 0] }
    ⟨str "{\"ietf-voucher:voucher\":{}", [], by decide +kernel, by simp⟩ (by decide +kernel) (by decide +kernel)
  exact absurd (congrArg Voucher.nonce this) (by decide)

/-- non-vacuity of C100: a document with a member is accepted, also with text after it, which does not change the voucher. -/
example : let d := FlatDoc.compact rootName [(str "nonce", .text (str "AAAA"))]
    d.Ok ∧ d.members ≠ [] ∧
    (match deserialize Env.plain d.render with | .ok (some v) => v.nonce | _ => .empty) = .of [0, 0, 0] ∧
    (match deserialize Env.plain (d.render ++ str ":{\"nonce\":\"BBBB\"}") with | .ok (some v) => v.nonce | _ => .empty) =
      .of [0, 0, 0] := by
  refine ⟨FlatDoc.Plain.ok ?_, by decide +kernel, by decide +kernel, by decide +kernel⟩
  decide +kernel

end Brski.Props
