import Verif.PropsJson
import Verif.JsmnCut

/-!
# Voucher texts that are cut short (lemmas)
-/

namespace Brski.Props
open Outcome Brski.Voucher VoucherJson Jsmn Spec

/-- A flat document from which more than the white space at the end is missing is refused. -/
theorem cut_refused (env : Env) (d : FlatDoc) (hd : d.Ok) (p x : Bytes) (h : d.render = p ++ x)
    (hx : d.w5.length < x.length) : deserialize env p = .ok none := by
  obtain ⟨r, hr, -⟩ := parse_safe 32 p
  unfold deserialize
  rw [hr, bind'_ok]
  cases r with
  | error e => rfl
  | ok toks =>
    cases toks with
    | nil => rfl
    | cons S ts =>
      simp only
      by_cases hS : S.type = .object
      · obtain ⟨T0, T1, T2, us, hp, -, -, -, -, -, -, hstop⟩ := parse_flat (32 + (3 + 2 * d.members.length)) d hd (by omega)
        rw [h] at hp
        obtain ⟨e, h1, h2⟩ := parse_cut 32 _ (by omega) p x S T0 ts _ hr hp (by rw [hS]; decide)
        rw [hstop] at h1
        cases h1
        rw [h, List.length_append] at h2
        omega
      · rw [if_pos hS]

/-- The same for the encoding of a voucher. -/
theorem encoded_cut (env : Env) {v : Voucher} (hv : VoucherOk v) (ht : TimesOk v) (hp : SerialText v) {text part : Bytes}
    (h : text = (docOf env.lib v).render) (hpre : part <+: text) {w : Voucher}
    (hr : deserialize env part = .ok (some w)) : part = text := by
  obtain ⟨x, hx⟩ := hpre
  cases x with
  | nil => simpa using hx
  | cons a x =>
    have := cut_refused env (docOf env.lib v) (docOf_ok hv ht hp) part (a :: x) (by rw [← h, hx])
      (by show 0 < _; simp)
    rw [this] at hr
    cases hr

end Brski.Props
