import Verif.JsmnLemmas
import Verif.JsonLemmas

/-!
# The tokenizer and the deserialiser on flat documents
-/

namespace Brski.VoucherJson
open Outcome Spec Jsmn Brski.Voucher

theorem isHex_of {c : UInt8} (h : isHexDigit c) : isHex c = true ∧ c ≠ 0 := by
  unfold isHexDigit at h
  revert c
  decide +kernel

theorem isEscape_of {c : UInt8} (h : isEscaped c) : isEscape c = true := by
  unfold isEscaped at h
  revert c
  decide +kernel

theorem hex_step (k : Nat) (c : UInt8) (h : isHexDigit c) (r : Bytes) (p : Nat) :
    scanString (k + 1) (c :: r) p = scanString k r (p + 1) := by
  rw [scanString, if_neg (isHex_of h).2, if_pos (isHex_of h).1]

theorem scanString_text {s : Bytes} (h : StringText s) (r : Bytes) (p : Nat) :
    scanString 0 (s ++ 34 :: r) p = .closed (p + s.length) r := by
  induction h generalizing p with
  | nil =>
    cases r with
    | nil => simp [scanString]
    | cons e r => simp [scanString]
  | @plain c s hc _ ih =>
    have : ∃ e r', s ++ 34 :: r = e :: r' := by
      cases s with
      | nil => exact ⟨_, _, rfl⟩
      | cons e s => exact ⟨_, _, rfl⟩
    obtain ⟨e, r', he⟩ := this
    rw [List.cons_append, he, scanString, if_neg hc.1, if_neg hc.2.1, if_neg hc.2.2, ← he, ih]
    simp only [List.length_cons]
    congr 1; omega
  | @escape c s hc _ ih =>
    rw [List.cons_append, List.cons_append, scanString, if_neg (by decide), if_neg (by decide), if_pos rfl,
      if_pos (isEscape_of hc), ih]
    simp only [List.length_cons]
    congr 1; omega
  | @unicode a b c d s ha hb hc hd _ ih =>
    simp only [List.cons_append]
    rw [scanString, if_neg (by decide), if_neg (by decide), if_pos rfl, if_neg (by decide), if_pos rfl,
      hex_step _ _ ha, hex_step _ _ hb, hex_step _ _ hc, hex_step _ _ hd, ih]
    simp only [List.length_cons]
    congr 1; omega

theorem scanPrim_bare (s : Bytes) (h : ∀ c ∈ s, isBare c) (d : UInt8) (hd : isDelim d = true)
    (r : Bytes) (p : Nat) : scanPrim (s ++ d :: r) p = some (p + s.length, d :: r) := by
  induction s generalizing p with
  | nil =>
    rw [List.nil_append, scanPrim]
    split <;> simp [hd]
  | cons c s ih =>
    have hc := h c (by simp)
    have ih := ih (fun c hc => h c (by simp [hc])) (p + 1)
    obtain ⟨h1, h2, h3, h4, h5, h6, h7, h8, h9⟩ := hc
    have e0 : c ≠ 0 := by rintro rfl; exact absurd h1 (by decide)
    have e9 : c ≠ 9 := by rintro rfl; exact absurd h1 (by decide)
    have e10 : c ≠ 10 := by rintro rfl; exact absurd h1 (by decide)
    have e13 : c ≠ 13 := by rintro rfl; exact absurd h1 (by decide)
    have e32 : c ≠ 32 := by rintro rfl; exact absurd h1 (by decide)
    have hnd : isDelim c = false := by simp [isDelim, e9, e10, e13, e32, h4, h5, h7, h9]
    have hr : ¬ (c < 32 ∨ c ≥ 127) := by
      rw [UInt8.le_iff_toNat_le] at h1 h2
      rw [UInt8.lt_iff_toNat_lt, ge_iff_le, UInt8.le_iff_toNat_le]
      have a1 : (33 : UInt8).toNat = 33 := rfl
      have a2 : (126 : UInt8).toNat = 126 := rfl
      have a3 : (32 : UInt8).toNat = 32 := rfl
      have a4 : (127 : UInt8).toNat = 127 := rfl
      omega
    rw [List.cons_append, scanPrim, if_neg e0, if_neg (by simp [hnd]), if_neg hr, ih]
    simp only [List.length_cons]
    congr 2; omega

/-! ## Single steps of the tokenizer -/

theorem step_ws (num : Nat) (w r : Bytes) (h : ∀ c ∈ w, isWs c) (pos : Nat) (toks : List Tok)
    (sup : Option Nat) :
    parseLoop num (w ++ r) pos toks sup = parseLoop num r (pos + w.length) toks sup := by
  induction w generalizing pos with
  | nil => rfl
  | cons c w ih =>
    have hc := h c (by simp)
    rw [List.cons_append, parseLoop.eq_def]
    have ih := ih (fun c hc => h c (by simp [hc])) (pos + 1)
    rcases hc with rfl | rfl | rfl | rfl <;> simp <;> rw [ih] <;> congr 1 <;> omega

theorem step_open (num : Nat) (r : Bytes) (pos : Nat) (toks toks' : List Tok)
    (sup : Option Nat) (hn : toks.length < num) (hb : bump toks sup = .ok toks') :
    parseLoop num (123 :: r) pos toks sup =
      parseLoop num r (pos + 1) (toks' ++ [⟨.object, pos, none, 0⟩]) (some toks'.length) := by
  rw [parseLoop.eq_def]
  simp [hb, Nat.not_le.2 hn]

theorem step_string (num : Nat) (s r : Bytes) (hs : StringText s) (pos : Nat)
    (toks toks' : List Tok) (sup : Option Nat) (hn : toks.length < num)
    (hb : bump (toks ++ [⟨.string, pos + 1, some (pos + 1 + s.length), 0⟩]) sup = .ok toks') :
    parseLoop num (quoted s ++ r) pos toks sup =
      parseLoop num r (pos + (quoted s).length) toks' sup := by
  have e : quoted s ++ r = 34 :: (s ++ 34 :: r) := by simp [quoted, str]
  rw [e, parseLoop.eq_def]
  have := scanString_text hs r (pos + 1)
  simp only [show ¬ ((34 : UInt8) = 0) by decide,
    show ¬ ((34 : UInt8) = 123 ∨ (34 : UInt8) = 91) by decide,
    show ¬ ((34 : UInt8) = 125 ∨ (34 : UInt8) = 93) by decide, if_false, if_true]
  split
  · rename_i e he; rw [this] at he; cases he
  · rename_i q r' he
    rw [this] at he
    cases he
    rw [if_neg (by omega), hb]
    simp only [bind'_ok, quoted, str]
    congr 1
    simp; omega

theorem step_bare (num : Nat) (s : Bytes) (hne : s ≠ []) (hs : ∀ c ∈ s, isBare c) (d : UInt8)
    (hd : isDelim d = true) (r : Bytes) (pos : Nat)
    (toks toks' : List Tok) (sup : Option Nat) (hn : toks.length < num)
    (hb : bump (toks ++ [⟨.primitive, pos, some (pos + s.length), 0⟩]) sup = .ok toks') :
    parseLoop num (s ++ d :: r) pos toks sup =
      parseLoop num (d :: r) (pos + s.length) toks' sup := by
  cases s with
  | nil => exact absurd rfl hne
  | cons c s =>
    have hc := hs c (by simp)
    obtain ⟨h1, h2, h3, h4, h5, h6, h7, h8, h9⟩ := hc
    have e0 : c ≠ 0 := by rintro rfl; exact absurd h1 (by decide)
    have e9 : c ≠ 9 := by rintro rfl; exact absurd h1 (by decide)
    have e10 : c ≠ 10 := by rintro rfl; exact absurd h1 (by decide)
    have e13 : c ≠ 13 := by rintro rfl; exact absurd h1 (by decide)
    have e32 : c ≠ 32 := by rintro rfl; exact absurd h1 (by decide)
    have hr : ¬ (c < 32 ∨ c ≥ 127) := by
      rw [UInt8.le_iff_toNat_le] at h1 h2
      rw [UInt8.lt_iff_toNat_lt, ge_iff_le, UInt8.le_iff_toNat_le]
      have a1 : (33 : UInt8).toNat = 33 := rfl
      have a2 : (126 : UInt8).toNat = 126 := rfl
      have a3 : (32 : UInt8).toNat = 32 := rfl
      have a4 : (127 : UInt8).toNat = 127 := rfl
      omega
    have := scanPrim_bare s (fun c hc => hs c (by simp [hc])) d hd r (pos + 1)
    rw [List.cons_append, parseLoop.eq_def]
    simp only [e0, h8, h6, h9, h7, h3, e9, e10, e13, e32, h5, h4, hr, if_false, or_self]
    split
    · rename_i he; rw [this] at he; cases he
    · rename_i q r' he
      rw [this] at he
      cases he
      rw [if_neg (by omega)]
      have e2 : pos + 1 + s.length = pos + (c :: s).length := by simp; omega
      rw [e2, hb]
      rfl

theorem step_colon (num : Nat) (r : Bytes) (pos : Nat) (toks : List Tok) (sup : Option Nat)
    (hn : toks ≠ []) :
    parseLoop num (58 :: r) pos toks sup =
      parseLoop num r (pos + 1) toks (some (toks.length - 1)) := by
  rw [parseLoop.eq_def]
  have : toks.length ≠ 0 := by cases toks with
    | nil => exact absurd rfl hn
    | cons => simp
  simp [this]

theorem step_comma (num : Nat) (r : Bytes) (pos : Nat) (toks : List Tok) (i j : Nat) (t : Tok)
    (ht : toks[i]? = some t) (hty : t.type = .string) (hj : lastOpen toks toks.length = some j) :
    parseLoop num (44 :: r) pos toks (some i) = parseLoop num r (pos + 1) toks (some j) := by
  rw [parseLoop.eq_def]
  simp [ht, hty, hj]

theorem step_close (num : Nat) (r : Bytes) (pos : Nat) (toks : List Tok) (sup : Option Nat)
    (i : Nat) (t : Tok) (hi : lastOpen toks toks.length = some i) (ht : toks[i]? = some t)
    (hty : t.type = .object) :
    parseLoop num (125 :: r) pos toks sup =
      parseLoop num r (pos + 1) (toks.set i { t with stop := some (pos + 1) })
        (lastOpen (toks.set i { t with stop := some (pos + 1) }) (i + 1)) := by
  rw [parseLoop.eq_def]
  simp only [show ¬ ((125 : UInt8) = 0) by decide,
    show ¬ ((125 : UInt8) = 123 ∨ (125 : UInt8) = 91) by decide, if_false, true_or, if_true]
  simp [hi, ht, hty]

theorem lastOpen_take (toks : List Tok) (n k : Nat) (hkn : n ≤ k)
    (h : ∀ i, n ≤ i → i < k → ∀ t, toks[i]? = some t → t.stop ≠ none) :
    lastOpen toks k = lastOpen toks n := by
  induction k with
  | zero => rw [show n = 0 by omega]
  | succ k ih =>
    by_cases hk : n = k + 1
    · rw [hk]
    · rw [lastOpen]
      have ih := ih (by omega) (fun i h1 h2 => h i h1 (by omega))
      split
      · rename_i t ht
        rw [if_neg (h k (by omega) (by omega) t ht), ih]
      · exact ih

theorem tokBytes_mid (js a s b : Bytes) (h : js = a ++ s ++ b) (ty : TokType) (p q n : Nat)
    (hp : p = a.length) (hq : q = a.length + s.length) :
    tokBytes js ⟨ty, p, some q, n⟩ = .ok s := by
  subst h; subst hp; subst hq
  simp only [tokBytes, span, Nat.le_add_right, if_true, bind'_ok, slice]
  rw [if_pos (by simp)]
  congr 1
  rw [List.append_assoc, List.drop_left, show a.length + s.length - a.length = s.length by omega,
    List.take_left]

/-- Tokens of the members: a string and a value token each, closed, holding the member's
key and value characters. -/
def Pairs (js : Bytes) : List Tok → List FlatMember → Prop
  | [], [] => True
  | k :: v :: ts, m :: ms =>
    tokBytes js k = .ok m.key ∧ tokBytes js v = .ok m.value.raw ∧ k.stop ≠ none ∧
      v.stop ≠ none ∧ (k.type = .string ∧ v.type ≠ .object) ∧ Pairs js ts ms
  | _, _ => False

theorem Pairs.closed {js : Bytes} : ∀ {ts : List Tok} {ms : List FlatMember}, Pairs js ts ms →
    (∀ t ∈ ts, t.stop ≠ none) ∧ ts.length = 2 * ms.length
  | [], [], _ => by simp
  | k :: v :: ts, m :: ms, h => by
    have := Pairs.closed h.2.2.2.2.2
    refine ⟨?_, by simp; omega⟩
    intro t ht
    rcases List.mem_cons.1 ht with rfl | ht
    · exact h.2.2.1
    rcases List.mem_cons.1 ht with rfl | ht
    · exact h.2.2.2.1
    exact this.1 t ht
  | [], m :: ms, h => h.elim
  | [k], [], h => h.elim
  | [k], m :: ms, h => h.elim
  | k :: v :: ts, [], h => h.elim

theorem Pairs.append {js : Bytes} : ∀ {ts ts' : List Tok} {ms ms' : List FlatMember},
    Pairs js ts ms → Pairs js ts' ms' → Pairs js (ts ++ ts') (ms ++ ms')
  | [], _, [], _, _, h' => h'
  | k :: v :: ts, _, m :: ms, _, h, h' =>
    ⟨h.1, h.2.1, h.2.2.1, h.2.2.2.1, h.2.2.2.2.1, Pairs.append h.2.2.2.2.2 h'⟩
  | [], _, m :: ms, _, h, _ => h.elim
  | [k], _, [], _, h, _ => h.elim
  | [k], _, m :: ms, _, h, _ => h.elim
  | k :: v :: ts, _, [], _, h, _ => h.elim

theorem bump_two (T0 T1 T2 : Tok) (B : List Tok) :
    bump (T0 :: T1 :: T2 :: B) (some 2) =
      .ok (T0 :: T1 :: { T2 with size := T2.size + 1 } :: B) := rfl

theorem bump_last (A : List Tok) (K V : Tok) :
    bump (A ++ [K] ++ [V]) (some A.length) = .ok (A ++ [{ K with size := K.size + 1 }] ++ [V]) := by
  simp [bump]

theorem isDelim_ws {c : UInt8} (h : isWs c) : isDelim c = true := by
  rcases h with rfl | rfl | rfl | rfl <;> rfl

/-- One member. -/
theorem step_member (num : Nat) (m : FlatMember) (hm : m.Ok) (d : UInt8) (hd : isDelim d = true)
    (r pre : Bytes) (T0 T1 T2 : Tok) (B : List Tok) (hn : B.length + 5 ≤ num) :
    ∃ k v, parseLoop num (m.render ++ d :: r) pre.length (T0 :: T1 :: T2 :: B) (some 2) =
        parseLoop num (d :: r) (pre.length + m.render.length)
          (T0 :: T1 :: { T2 with size := T2.size + 1 } :: (B ++ [k, v])) (some (B.length + 3)) ∧
      Pairs (pre ++ (m.render ++ d :: r)) [k, v] [m] := by
  obtain ⟨w0, key, w1, w2, value, w3⟩ := m
  obtain ⟨h0, hk, h1, h2, hv, h3⟩ := hm
  simp only at h0 hk h1 h2 hv h3
  have hcol : str ":" = [58] := rfl
  simp only [FlatMember.render, hcol, List.append_assoc]
  rw [step_ws num w0 _ h0]
  have hb1 := bump_two T0 T1 T2
    (B ++ [⟨.string, pre.length + w0.length + 1, some (pre.length + w0.length + 1 + key.length), 0⟩])
  rw [step_string num key _ hk _ _ _ _ (by simp; omega)
    (by simpa only [List.cons_append] using hb1)]
  rw [step_ws num w1 _ h1]
  rw [List.singleton_append, step_colon _ _ _ _ _ (by simp)]
  rw [step_ws num w2 _ h2]
  generalize hK : (⟨.string, pre.length + w0.length + 1,
    some (pre.length + w0.length + 1 + key.length), 0⟩ : Tok) = K
  have hKs : K.size = 0 := by rw [← hK]
  have hsup : (T0 :: T1 :: { T2 with size := T2.size + 1 } :: (B ++ [K])).length - 1 =
      (T0 :: T1 :: { T2 with size := T2.size + 1 } :: B).length := by simp
  rw [hsup]
  have key_ok : ∀ rest : Bytes, tokBytes (pre ++ (w0 ++ (quoted key ++ rest))) { K with size := 1 } = .ok key := by
    intro rest
    rw [← hK]
    refine tokBytes_mid _ (pre ++ w0 ++ [34]) key (34 :: rest) ?_ _ _ _ _ ?_ ?_
    · simp [quoted, str]
    · simp; omega
    · simp; omega
  cases value with
  | text s =>
    simp only [FlatValue.render]
    generalize hV : (⟨.string, pre.length + w0.length + (quoted key).length + w1.length + 1 + w2.length + 1,
      some (pre.length + w0.length + (quoted key).length + w1.length + 1 + w2.length + 1 + s.length), 0⟩ : Tok) = V
    have hb2 := bump_last (T0 :: T1 :: { T2 with size := T2.size + 1 } :: B) K V
    rw [step_string num s _ hv _ _ _ _ (by simp; omega)
      (by rw [hV]; simpa only [List.cons_append] using hb2)]
    rw [step_ws num w3 _ h3]
    refine ⟨{ K with size := 1 }, V, ?_, ?_⟩
    · simp only [hKs, List.append_assoc, List.cons_append, List.nil_append, List.length_cons,
        Nat.zero_add]
      congr 1
      simp [quoted, str]; omega
    · refine ⟨key_ok _, ?_, ?_, ?_, ?_, trivial⟩
      · rw [← hV]
        refine tokBytes_mid _ (pre ++ w0 ++ quoted key ++ w1 ++ [58] ++ w2 ++ [34]) s
          (34 :: (w3 ++ d :: r)) ?_ _ _ _ _ ?_ ?_
        · simp [quoted, str, FlatValue.raw]
        · simp; omega
        · simp [FlatValue.raw]; omega
      · rw [← hK]; simp
      · rw [← hV]; simp
      · rw [← hK, ← hV]; simp
  | bare s =>
    simp only [FlatValue.render]
    generalize hV : (⟨.primitive, pre.length + w0.length + (quoted key).length + w1.length + 1 + w2.length,
      some (pre.length + w0.length + (quoted key).length + w1.length + 1 + w2.length + s.length), 0⟩ : Tok) = V
    have hb2 := bump_last (T0 :: T1 :: { T2 with size := T2.size + 1 } :: B) K V
    obtain ⟨d', r', hd', he⟩ : ∃ d' r', isDelim d' = true ∧ w3 ++ d :: r = d' :: r' := by
      cases w3 with
      | nil => exact ⟨d, r, hd, rfl⟩
      | cons c w => exact ⟨c, _, isDelim_ws (h3 c (by simp)), rfl⟩
    have hstep := step_bare num s hv.1 hv.2 d' hd' r'
      (pre.length + w0.length + (quoted key).length + w1.length + 1 + w2.length)
      (T0 :: T1 :: { T2 with size := T2.size + 1 } :: (B ++ [K])) _ _ (by simp; omega)
      (by rw [hV]; simpa only [List.cons_append] using hb2)
    rw [← he] at hstep
    rw [hstep]
    rw [step_ws num w3 _ h3]
    refine ⟨{ K with size := 1 }, V, ?_, ?_⟩
    · simp only [hKs, List.append_assoc, List.cons_append, List.nil_append, List.length_cons,
        Nat.zero_add]
      congr 1
      simp; omega
    · refine ⟨key_ok _, ?_, ?_, ?_, ?_, trivial⟩
      · rw [← hV]
        refine tokBytes_mid _ (pre ++ w0 ++ quoted key ++ w1 ++ [58] ++ w2) s
          (w3 ++ d :: r) ?_ _ _ _ _ ?_ ?_
        · simp [FlatValue.raw]
        · simp; omega
        · simp [FlatValue.raw]; omega
      · rw [← hK]; simp
      · rw [← hV]; simp
      · rw [← hK, ← hV]; simp

theorem lastOpen_two (T0 T1 T2 : Tok) (B : List Tok) (h2 : T2.stop = none)
    (hB : ∀ t ∈ B, t.stop ≠ none) :
    lastOpen (T0 :: T1 :: T2 :: B) (T0 :: T1 :: T2 :: B).length = some 2 := by
  rw [lastOpen_take _ 3 _ (by simp)]
  · simp [lastOpen, h2]
  · intro i h1 _ t ht
    match i, h1 with
    | j + 3, _ =>
      simp only [List.getElem?_cons_succ] at ht
      exact hB t (List.mem_of_getElem? ht)

theorem commaJoin_cons (x : Bytes) (y : Bytes) (l : List Bytes) :
    commaJoin (x :: y :: l) = x ++ 44 :: commaJoin (y :: l) := by
  simp [commaJoin, str]

/-- The members of an object. -/
theorem step_members (num : Nat) (ms : List FlatMember) (hms : ∀ m ∈ ms, m.Ok) (r : Bytes)
    (T0 T1 : Tok) :
    ∀ (pre : Bytes) (T2 : Tok) (B : List Tok), T2.stop = none → (∀ t ∈ B, t.stop ≠ none) →
      B.length + 3 + 2 * ms.length ≤ num →
    ∃ ts i, parseLoop num (commaJoin (ms.map FlatMember.render) ++ 125 :: r) pre.length
        (T0 :: T1 :: T2 :: B) (some 2) =
      parseLoop num (125 :: r) (pre.length + (commaJoin (ms.map FlatMember.render)).length)
        (T0 :: T1 :: { T2 with size := T2.size + ms.length } :: (B ++ ts)) (some i) ∧
      Pairs (pre ++ (commaJoin (ms.map FlatMember.render) ++ 125 :: r)) ts ms := by
  induction ms with
  | nil => intro pre T2 B h2 hB hn; exact ⟨[], 2, by simp [commaJoin], trivial⟩
  | cons m ms ih =>
    intro pre T2 B h2 hB hn
    simp only [List.length_cons] at hn
    have hm := hms m (by simp)
    cases ms with
    | nil =>
      obtain ⟨k, v, e, hp⟩ := step_member num m hm 125 (by decide) r pre T0 T1 T2 B (by simp at hn; omega)
      exact ⟨[k, v], _, e, hp⟩
    | cons m' ms =>
      have hj : commaJoin ((m :: m' :: ms).map FlatMember.render) =
          m.render ++ 44 :: commaJoin ((m' :: ms).map FlatMember.render) := commaJoin_cons _ _ _
      rw [hj]
      generalize hrest : commaJoin ((m' :: ms).map FlatMember.render) = rest at ih ⊢
      obtain ⟨k, v, e, hp⟩ := step_member num m hm 44 (by decide) (rest ++ 125 :: r) pre T0 T1 T2 B
        (by simp at hn; omega)
      rw [List.append_assoc, List.cons_append, e]
      have hcl := (Pairs.closed hp).1
      have hB' : ∀ t ∈ B ++ [k, v], t.stop ≠ none := by
        intro t ht
        rcases List.mem_append.1 ht with ht | ht
        · exact hB t ht
        · exact hcl t ht
      have h2' : ({ T2 with size := T2.size + 1 } : Tok).stop = none := h2
      rw [step_comma num _ _ _ (B.length + 3) 2 k (by simp)
        (hp.2.2.2.2.1.1) (lastOpen_two T0 T1 _ _ h2' hB')]
      obtain ⟨ts, i, e2, hp2⟩ := ih (fun m hm => hms m (by simp [hm])) (pre ++ m.render ++ [44])
        { T2 with size := T2.size + 1 } (B ++ [k, v]) h2' hB' (by simp at hn ⊢; omega)
      refine ⟨[k, v] ++ ts, i, ?_, ?_⟩
      · have l1 : (pre ++ m.render ++ [44]).length = pre.length + m.render.length + 1 := by
          simp; omega
        rw [l1] at e2
        rw [e2]
        simp only [List.append_assoc, List.length_cons, List.length_append]
        congr 1
        · omega
        · congr 4; omega
      · have : pre ++ (m.render ++ 44 :: (rest ++ 125 :: r)) =
            pre ++ m.render ++ [44] ++ (rest ++ 125 :: r) := by simp
        rw [this] at hp ⊢
        exact Pairs.append hp hp2

/-- The tokens of a flat document. -/
theorem parse_flat (num : Nat) (d : FlatDoc) (hd : d.Ok) (hn : 3 + 2 * d.members.length ≤ num) :
    ∃ T0 T1 T2 ts, parse num d.render = .ok (.ok (T0 :: T1 :: T2 :: ts)) ∧
      T0.type = .object ∧ tokBytes d.render T1 = .ok d.name ∧ T1.stop ≠ none ∧
      T2.type = .object ∧ T2.size = d.members.length ∧ Pairs d.render ts d.members ∧
      T0.stop = some (d.render.length - d.w5.length) := by
  obtain ⟨w0, w1, name, w2, w3, inner, members, w4, w5⟩ := d
  obtain ⟨h0, h1, hname, h2, h3, hin, hms, h4, h5⟩ := hd
  simp only at h0 h1 hname h2 h3 hin hms h4 h5 hn
  have ho : str "{" = [123] := rfl
  have hcl : str "}" = [125] := rfl
  have hco : str ":" = [58] := rfl
  simp only [parse, FlatDoc.render, ho, hcl, hco, List.append_assoc, List.cons_append,
    List.nil_append]
  rw [step_ws num w0 _ h0, step_open num _ _ [] [] none (by simp; omega) rfl, step_ws num w1 _ h1]
  simp only [List.nil_append, List.length_nil, Nat.zero_add]
  rw [step_string num name _ hname _ _ _ (some 0) (by simp; omega) rfl, step_ws num w2 _ h2,
    step_colon _ _ _ _ _ (by simp), step_ws num w3 _ h3]
  simp only [List.set_cons_zero, List.cons_append, List.nil_append, List.length_cons,
    List.length_nil]
  rw [step_open num _ _ _ _ (some 1) (by simp; omega) rfl, step_ws num inner _ hin]
  simp only [List.set_cons_zero, List.set_cons_succ, List.cons_append, List.nil_append,
    List.length_cons, List.length_nil, Nat.zero_add, Nat.reduceAdd]
  generalize hT0 : (⟨.object, w0.length, none, 1⟩ : Tok) = T0
  generalize hT1 : (⟨.string, w0.length + 1 + w1.length + 1,
    some (w0.length + 1 + w1.length + 1 + name.length), 1⟩ : Tok) = T1
  generalize hT2 : (⟨.object, w0.length + 1 + w1.length + (quoted name).length + w2.length + 1 +
    w3.length, none, 0⟩ : Tok) = T2
  have hT2s : T2.stop = none := by rw [← hT2]
  have hT2z : T2.size = 0 := by rw [← hT2]
  have hT2t : T2.type = .object := by rw [← hT2]
  have hT0s : T0.stop = none := by rw [← hT0]
  have hT0t : T0.type = .object := by rw [← hT0]
  have hT1s : T1.stop ≠ none := by rw [← hT1]; simp
  obtain ⟨ts, i, e, hp⟩ := step_members num members hms (w4 ++ 125 :: w5) T0 T1
    (w0 ++ 123 :: (w1 ++ (quoted name ++ (w2 ++ 58 :: (w3 ++ 123 :: inner))))) T2 []
    hT2s (by simp) (by simp; omega)
  have hpl : (w0 ++ 123 :: (w1 ++ (quoted name ++ (w2 ++ 58 :: (w3 ++ 123 :: inner))))).length =
      w0.length + 1 + w1.length + (quoted name).length + w2.length + 1 + w3.length + 1 +
        inner.length := by simp; omega
  rw [hpl] at e
  rw [e]
  simp only [List.nil_append, hT2z, Nat.zero_add]
  have hclosed := (Pairs.closed hp).1
  rw [step_close num _ _ _ _ 2 { T2 with size := members.length }
    (lastOpen_two T0 T1 { T2 with size := members.length } ts hT2s hclosed) (by simp) hT2t]
  simp only [List.set_cons_succ, List.set_cons_zero]
  rw [step_ws num w4 _ h4]
  generalize hT2' : ({ T2 with size := members.length, stop := some (w0.length + 1 + w1.length +
    (quoted name).length + w2.length + 1 + w3.length + 1 + inner.length +
    (commaJoin (members.map FlatMember.render)).length + 1) } : Tok) = T2'
  have hT2's : T2'.stop ≠ none := by rw [← hT2']; simp
  have hlo : lastOpen (T0 :: T1 :: T2' :: ts) (T0 :: T1 :: T2' :: ts).length = some 0 := by
    rw [lastOpen_take _ 1 _ (by simp)]
    · simp [lastOpen, hT0s]
    · intro i h1 _ t ht
      match i, h1 with
      | 1, _ => simp at ht; subst ht; exact hT1s
      | 2, _ => simp at ht; subst ht; exact hT2's
      | j + 3, _ =>
        simp only [List.getElem?_cons_succ] at ht
        exact hclosed t (List.mem_of_getElem? ht)
  rw [step_close num _ _ _ _ 0 T0 hlo (by simp) hT0t]
  simp only [List.set_cons_zero]
  rw [← List.append_nil w5, step_ws num w5 _ h5]
  generalize hT0' : ({ T0 with stop := some (w0.length + 1 + w1.length +
    (quoted name).length + w2.length + 1 + w3.length + 1 + inner.length +
    (commaJoin (members.map FlatMember.render)).length + 1 + w4.length + 1) } : Tok) = T0'
  have hT0's : T0'.stop ≠ none := by rw [← hT0']; simp
  have hend : lastOpen (T0' :: T1 :: T2' :: ts) (T0' :: T1 :: T2' :: ts).length = none := by
    rw [lastOpen_take _ 0 _ (by simp)]
    · rfl
    · intro i h1 _ t ht
      match i, h1 with
      | 0, _ => simp at ht; subst ht; exact hT0's
      | 1, _ => simp at ht; subst ht; exact hT1s
      | 2, _ => simp at ht; subst ht; exact hT2's
      | j + 3, _ =>
        simp only [List.getElem?_cons_succ] at ht
        exact hclosed t (List.mem_of_getElem? ht)
  rw [parseLoop, hend]
  refine ⟨T0', T1, T2', ts, rfl, ?_, ?_, hT1s, ?_, ?_, ?_, ?_⟩
  · rw [← hT0']; exact hT0t
  · rw [← hT1]
    refine tokBytes_mid _ (w0 ++ 123 :: (w1 ++ [34])) name (34 :: (w2 ++
      58 :: (w3 ++ 123 :: (inner ++ (commaJoin (members.map FlatMember.render) ++
      125 :: (w4 ++ 125 :: w5)))))) ?_ _ _ _ _ ?_ ?_
    · simp [quoted, str]
    · simp; omega
    · simp; omega
  · rw [← hT2']; exact hT2t
  · rw [← hT2']
  · simpa using hp
  · rw [← hT0']
    simp
    omega

end Brski.VoucherJson
