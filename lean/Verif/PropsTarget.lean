import Verif.PropsRoutes

/-!
# Property C63: request lines and percent encoding
-/

namespace Brski.Props
open Routes

/-- A character of a path as written in a request target: itself, or percent encoded with digits in either case
(specification: RFC 3986 section 2.1), or as `%uXXXX` (not in the RFC, but understood by httplib). -/
inductive Written where
  | raw (c : UInt8)
  | pct (hi lo : Fin 16) (up1 up2 : Bool)
  | uni (a b c d : Fin 16) (u1 u2 u3 u4 : Bool)

/-- The text of a hexadecimal digit (specification). -/
def hexChar (n : Fin 16) (up : Bool) : UInt8 :=
  (if up then str "0123456789ABCDEF" else str "0123456789abcdef").getD n 0

/-- The text of a character (specification). -/
def Written.text : Written → Bytes
  | .raw c => [c]
  | .pct hi lo u1 u2 => [37, hexChar hi u1, hexChar lo u2]
  | .uni a b c d u1 u2 u3 u4 => [37, 117, hexChar a u1, hexChar b u2, hexChar c u3, hexChar d u4]

/-- The character meant; for `%uXXXX` the UTF-8 text of the code point as Lean's strings have it, nothing for a
surrogate (specification). -/
def Written.value : Written → Bytes
  | .raw c => [c]
  | .pct hi lo _ _ => [UInt8.ofNat (16 * hi + lo)]
  | .uni a b c d _ _ _ _ =>
    let v := 4096 * a.val + 256 * b.val + 16 * c.val + d.val
    if 0xD800 ≤ v ∧ v ≤ 0xDFFF then [] else String.utf8EncodeChar (Char.ofNat v)

/-- Characters that must be encoded: NUL, tab, line feed, carriage return, space, `#`, `%`, `?`
(specification; RFC 3986 asks for more). -/
def Written.Ok : Written → Prop
  | .raw c => c ∉ [0, 9, 10, 13, 32, 35, 37, 63]
  | _ => True

/-- A path (specification). -/
def pathText (ws : List Written) : Bytes := ws.flatMap Written.text

/-- Query and fragment, if any (specification). -/
def Tail (t : Bytes) : Prop := t = [] ∨ ∃ r, t = 63 :: r ∨ t = 35 :: r

theorem hexVal_hexChar : ∀ (n : Fin 16) (up : Bool), hexVal (hexChar n up) = some n.val := by decide

theorem hexChar_plain : ∀ (n : Fin 16) (up : Bool),
    hexChar n up ∉ [0, 9, 10, 13, 32, 35, 37, 63, 117] := by decide

theorem decodeUrl_ne {c : UInt8} (h : c ≠ 37) (s : Bytes) : decodeUrl (c :: s) = c :: decodeUrl s := by
  cases s with
  | nil => rw [decodeUrl, decodeUrl]
  | cons d s => rw [decodeUrl, if_neg h]

theorem decodeUrl_pct (hi lo : Fin 16) (u1 u2 : Bool) (s : Bytes) :
    decodeUrl (37 :: hexChar hi u1 :: hexChar lo u2 :: s) = UInt8.ofNat (16 * hi + lo) :: decodeUrl s := by
  have h1 : hexChar hi u1 ≠ 117 := fun e => hexChar_plain hi u1 (by rw [e]; decide)
  rw [decodeUrl, if_pos rfl, if_neg h1]
  simp only [fromHex, hexVal_hexChar, List.drop_succ_cons, List.drop_zero]
  congr 2
  omega

theorem toUtf8_char {v : Nat} (hv : v < 65536) (h : ¬ (0xD800 ≤ v ∧ v ≤ 0xDFFF)) :
    toUtf8 v = String.utf8EncodeChar (Char.ofNat v) := by
  have hval : v.isValidChar := by unfold Nat.isValidChar; omega
  have hn : (Char.ofNat v).val.toNat = v := by
    rw [Char.ofNat, dif_pos hval]
    exact UInt32.toNat_ofNatLT ..
  unfold toUtf8 String.utf8EncodeChar
  simp only [hn]
  by_cases h1 : v < 0x80
  · rw [if_pos h1, if_pos (show v ≤ 127 by omega)]
  · rw [if_neg h1, if_neg (show ¬ v ≤ 127 by omega)]
    by_cases h2 : v < 0x800
    · rw [if_pos h2, if_pos (show v ≤ 2047 by omega)]
      simp only [Nat.add_comm]
    · rw [if_neg h2, if_neg (show ¬ v ≤ 2047 by omega), if_neg (show ¬ (0xD800 ≤ v ∧ v < 0xE000) by omega),
        if_pos (show v ≤ 65535 by omega)]
      simp only [Nat.add_comm]

theorem decodeUrl_uni (a b c d : Fin 16) (u1 u2 u3 u4 : Bool) (s : Bytes) :
    decodeUrl (37 :: 117 :: hexChar a u1 :: hexChar b u2 :: hexChar c u3 :: hexChar d u4 :: s) =
      (Written.uni a b c d u1 u2 u3 u4).value ++ decodeUrl s := by
  rw [decodeUrl, if_pos rfl, if_pos rfl]
  simp only [fromHex, hexVal_hexChar, List.drop_succ_cons, List.drop_zero, Written.value]
  congr 1
  have e : (((0 * 16 + a.val) * 16 + b.val) * 16 + c.val) * 16 + d.val =
      4096 * a.val + 256 * b.val + 16 * c.val + d.val := by omega
  rw [e]
  split
  · rename_i h
    rw [toUtf8, if_neg (by omega), if_neg (by omega), if_pos (by omega)]
  · rename_i h
    exact toUtf8_char (by omega) h

/-- Percent decoding gives back what was written. -/
theorem decodeUrl_text (ws : List Written) (hok : ∀ w ∈ ws, w.Ok) : decodeUrl (pathText ws) = ws.flatMap Written.value := by
  induction ws with
  | nil => rw [pathText, List.flatMap_nil, decodeUrl]; rfl
  | cons w ws ih =>
    have ih := ih fun w hw => hok w (List.mem_cons_of_mem _ hw)
    have hw := hok w List.mem_cons_self
    simp only [pathText, List.flatMap_cons] at ih ⊢
    cases w with
    | raw c =>
      have hc : c ≠ 37 := fun e => hw (by rw [e]; decide)
      rw [show Written.text (.raw c) ++ List.flatMap Written.text ws = c :: List.flatMap Written.text ws from rfl,
        decodeUrl_ne hc, ih]
      rfl
    | pct hi lo u1 u2 =>
      rw [show Written.text (.pct hi lo u1 u2) ++ List.flatMap Written.text ws =
        37 :: hexChar hi u1 :: hexChar lo u2 :: List.flatMap Written.text ws from rfl, decodeUrl_pct, ih]
      rfl
    | uni a b c d u1 u2 u3 u4 =>
      rw [show Written.text (.uni a b c d u1 u2 u3 u4) ++ List.flatMap Written.text ws = 37 :: 117 :: hexChar a u1 ::
        hexChar b u2 :: hexChar c u3 :: hexChar d u4 :: List.flatMap Written.text ws from rfl, decodeUrl_uni, ih]

theorem text_plain {ws : List Written} (hok : ∀ w ∈ ws, w.Ok) :
    ∀ c ∈ pathText ws, c ∉ [0, 9, 10, 13, 32, 35, 63] := by
  intro c hc hm
  obtain ⟨w, hw, hcw⟩ := List.mem_flatMap.1 hc
  have ho := hok w hw
  cases w with
  | raw d =>
    simp only [Written.text, List.mem_singleton] at hcw
    subst hcw
    exact ho (by revert hm; simp only [List.mem_cons, List.not_mem_nil, or_false]; rintro (h | h | h | h | h | h | h) <;> simp [h])
  | pct hi lo u1 u2 =>
    simp only [Written.text, List.mem_cons, List.not_mem_nil, or_false] at hcw
    rcases hcw with rfl | rfl | rfl
    · revert hm; decide
    · exact hexChar_plain hi u1 (by revert hm; simp only [List.mem_cons, List.not_mem_nil, or_false]; rintro (h | h | h | h | h | h | h) <;> simp [h])
    · exact hexChar_plain lo u2 (by revert hm; simp only [List.mem_cons, List.not_mem_nil, or_false]; rintro (h | h | h | h | h | h | h) <;> simp [h])
  | uni a b c' d u1 u2 u3 u4 =>
    have hp : ∀ n up, c = hexChar n up → False := fun n up e => hexChar_plain n up (by
      subst e; revert hm; simp only [List.mem_cons, List.not_mem_nil, or_false]; rintro (h | h | h | h | h | h | h) <;> simp [h])
    simp only [Written.text, List.mem_cons, List.not_mem_nil, or_false] at hcw
    rcases hcw with rfl | rfl | h | h | h | h
    · revert hm; decide
    · revert hm; decide
    · exact hp _ _ h
    · exact hp _ _ h
    · exact hp _ _ h
    · exact hp _ _ h

theorem dropWhile_none {α : Type} (p : α → Bool) : ∀ (l : List α), (∀ a ∈ l, p a = false) → l.dropWhile p = l
  | [], _ => rfl
  | a :: l, h => by rw [List.dropWhile_cons_of_neg (by rw [h a List.mem_cons_self]; simp)]

theorem trim_id {s : Bytes} (h : ∀ c ∈ s, isBlank c = false) : trim s = s := by
  rw [trim, dropWhile_none _ _ h, dropWhile_none _ _ (by simpa using h), List.reverse_reverse]

theorem takeWhile_append_stop {α : Type} (p : α → Bool) (b : α) (r : List α) (hb : p b = false) :
    ∀ (l : List α), (∀ a ∈ l, p a = true) → (l ++ b :: r).takeWhile p = l ∧ (l ++ b :: r).dropWhile p = b :: r
  | [], _ => by simp [List.takeWhile, List.dropWhile, hb]
  | a :: l, h => by
    have ih := takeWhile_append_stop p b r hb l fun x hx => h x (List.mem_cons_of_mem _ hx)
    have ha := h a List.mem_cons_self
    simp [List.takeWhile, List.dropWhile, ha, ih]

theorem takeWhile_all' {α : Type} (p : α → Bool) : ∀ (l : List α), (∀ a ∈ l, p a = true) →
    l.takeWhile p = l ∧ l.dropWhile p = []
  | [], _ => by simp
  | a :: l, h => by
    have ih := takeWhile_all' p l fun x hx => h x (List.mem_cons_of_mem _ hx)
    have ha := h a List.mem_cons_self
    simp [List.takeWhile, List.dropWhile, ha, ih]

/-- **C63**: the path of a request target is the percent-decoded text before query and fragment, however the path
is encoded and whatever query and fragment contain. -/
theorem C63_path (ws : List Written) (hne : ws ≠ []) (hok : ∀ w ∈ ws, w.Ok) (t : Bytes) (ht : Tail t) :
    parsePath (pathText ws ++ t) = ws.flatMap Written.value := by
  have hpl := text_plain hok
  have hne' : pathText ws ≠ [] := by
    cases ws with
    | nil => exact absurd rfl hne
    | cons w ws => cases w <;> simp [pathText, Written.text]
  have h35 : ∀ c ∈ pathText ws, (decide (c ≠ 35)) = true := fun c hc =>
    decide_eq_true fun e => hpl c hc (by rw [e]; decide)
  have h63 : ∀ c ∈ pathText ws, (decide (c ≠ 63)) = true := fun c hc =>
    decide_eq_true fun e => hpl c hc (by rw [e]; decide)
  have hbl : ∀ c ∈ pathText ws, isBlank c = false := fun c hc => by
    have h := hpl c hc
    simp only [List.mem_cons, not_or] at h
    simp [isBlank, h.2.1, h.2.2.2.2.1]
  have key : ∀ r : Bytes, splitTwo 63 (pathText ws ++ r) = pathText ws :: (splitTwo 63 (pathText ws ++ r)).tail ∨
      ¬ (r = [] ∨ ∃ r', r = 63 :: r') := by
    intro r
    by_cases hr : r = []
    · refine .inl ?_
      subst hr
      obtain ⟨e1, e2⟩ := takeWhile_all' (fun c : UInt8 => decide (c ≠ 63)) _ h63
      simp only [splitTwo, List.append_nil, e1, e2, if_true, List.map_cons, List.map_nil, trim_id hbl]
      rw [List.filter_cons_of_pos (by simpa using hne')]
      rfl
    · by_cases hr2 : ∃ r', r = 63 :: r'
      · obtain ⟨r', rfl⟩ := hr2
        refine .inl ?_
        obtain ⟨e1, e2⟩ := takeWhile_append_stop (fun c : UInt8 => decide (c ≠ 63)) 63 r' (by simp) _ h63
        simp only [splitTwo, e1, e2, reduceCtorEq, if_false, List.map_cons, List.map_nil, trim_id hbl]
        rw [List.filter_cons_of_pos (by simpa using hne')]
        rfl
      · exact .inr (by simp [hr] at hr2 ⊢; exact hr2)
  have hcut : (pathText ws ++ t).takeWhile (fun c => decide (c ≠ 35)) =
      pathText ws ++ t.takeWhile (fun c => decide (c ≠ 35)) := by
    rw [List.takeWhile_append, (takeWhile_all' _ _ h35).1, if_pos rfl]
  unfold parsePath
  rw [hcut]
  have hk := key (t.takeWhile fun c => decide (c ≠ 35))
  have : t.takeWhile (fun c => decide (c ≠ 35)) = [] ∨ ∃ r', t.takeWhile (fun c => decide (c ≠ 35)) = 63 :: r' := by
    rcases ht with rfl | ⟨r, rfl | rfl⟩
    · exact .inl rfl
    · exact .inr ⟨r.takeWhile fun c => decide (c ≠ 35), by rw [List.takeWhile_cons_of_pos (by decide)]⟩
    · exact .inl (by rw [List.takeWhile_cons_of_neg (by decide)])
  rcases hk with hk | hk
  · rw [hk]
    exact decodeUrl_text ws hok
  · exact absurd this hk

/-- Non-vacuity: `/%2Ewell-known/est/cacerts?a#b` means `/.well-known/est/cacerts`. -/
example : parsePath (str "/%2Ewell-known/est/cacerts?a#b") = str "/.well-known/est/cacerts" :=
  C63_path (.raw 47 :: .pct 2 14 true true :: (str "well-known/est/cacerts").map .raw) (by simp) (by
    intro w hw
    rcases List.mem_cons.1 hw with rfl | hw
    · simp [Written.Ok]
    · rcases List.mem_cons.1 hw with rfl | hw
      · trivial
      · obtain ⟨c, hc, rfl⟩ := List.mem_map.1 hw
        have : ∀ c, c ∈ str "well-known/est/cacerts" → c ∉ ([0, 9, 10, 13, 32, 35, 37, 63] : Bytes) := by decide
        exact this c hc) (str "?a#b") (.inr ⟨_, .inl rfl⟩)

/-- Non-vacuity: `/%u2082a%uD800%u00e9` means `/₂aé`. -/
example : parsePath (str "/%u2082a%uD800%u00e9") = [0x2f, 0xe2, 0x82, 0x82, 0x61, 0xc3, 0xa9] :=
  C63_path [.raw 47, .uni 2 0 8 2 false false false false, .raw 97, .uni 13 8 0 0 true true true true,
    .uni 0 0 14 9 false false false false] (by simp) (by simp [Written.Ok]) [] (.inl rfl)

/-- A target without path: the query is taken for the path (/repo/src/brski/http/httplib.h:2679-2685,6306-6326). -/
theorem C63_empty_path : parsePath (str "?/.well-known/brski/requestvoucher") = str "/.well-known/brski/requestvoucher" := by
  decide +kernel

/-! ## Request lines -/

theorem pieces_none {d : UInt8} : ∀ {s : Bytes}, d ∉ s → pieces d s = [s]
  | [], _ => rfl
  | c :: s, h => by
    have hc : c ≠ d := fun e => h (e ▸ List.mem_cons_self)
    rw [pieces, if_neg hc, pieces_none fun hm => h (List.mem_cons_of_mem _ hm)]

theorem pieces_cons {d : UInt8} (r : Bytes) : ∀ {s : Bytes}, d ∉ s → pieces d (s ++ d :: r) = s :: pieces d r
  | [], _ => by simp [pieces]
  | c :: s, h => by
    have hc : c ≠ d := fun e => h (e ▸ List.mem_cons_self)
    rw [List.cons_append, pieces, if_neg hc, pieces_cons r fun hm => h (List.mem_cons_of_mem _ hm)]

theorem methodText_ok (m : Method) : methodText m ≠ [] ∧ ∀ c ∈ methodText m, c ∉ [0, 9, 32] := by
  cases m <;> decide

/-- **C63** for request lines: method and target of a well-formed request line are read as written; `target` is
any text without space, tab and NUL. -/
theorem C63_line (m : Method) (target : Bytes) (hne : target ≠ []) (ht : ∀ c ∈ target, c ∉ [0, 9, 32])
    (v : Bytes) (hv : v = str "HTTP/1.1" ∨ v = str "HTTP/1.0") :
    parseRequestLine (methodText m ++ 32 :: target ++ 32 :: v ++ [13, 10]) = some ⟨m, parsePath target⟩ := by
  obtain ⟨hm1, hm2⟩ := methodText_ok m
  have hv1 : v ≠ [] ∧ ∀ c ∈ v, c ∉ [0, 9, 32] := by rcases hv with rfl | rfl <;> decide
  have n0 : ∀ {s : Bytes}, (∀ c ∈ s, c ∉ [0, 9, 32]) → ∀ c ∈ s, (decide (c ≠ 0)) = true :=
    fun h c hc => decide_eq_true fun e => h c hc (by rw [e]; decide)
  have n32 : ∀ {s : Bytes}, (∀ c ∈ s, c ∉ [0, 9, 32]) → (32 : UInt8) ∉ s := fun h hc => h 32 hc (by decide)
  have nb : ∀ {s : Bytes}, (∀ c ∈ s, c ∉ [0, 9, 32]) → trim s = s := fun h => trim_id fun c hc => by
    have := h c hc
    simp only [List.mem_cons, not_or] at this
    simp [isBlank, this.2.1, this.2.2.1]
  have hc : BoolTime.cstr (methodText m ++ 32 :: target ++ 32 :: v ++ [13, 10]) =
      methodText m ++ 32 :: target ++ 32 :: v ++ [13, 10] := by
    refine (takeWhile_all' _ _ ?_).1
    intro c hc
    simp only [List.mem_append, List.mem_cons, List.not_mem_nil, or_false] at hc
    rcases hc with ((hc | rfl | hc) | rfl | hc) | rfl | rfl
    · exact n0 hm2 c hc
    · decide
    · exact n0 ht c hc
    · decide
    · exact n0 hv1.2 c hc
    · decide
    · decide
  have hl : (methodText m ++ 32 :: target ++ 32 :: v ++ [13, 10]).length - 2 =
      (methodText m ++ 32 :: target ++ 32 :: v).length := by
    rw [List.length_append]; simp only [List.length_cons, List.length_nil]; omega
  unfold parseRequestLine
  simp only [hc]
  rw [hl, List.drop_left, List.take_left, if_neg (by simp; omega)]
  have hp : splitAll 32 (methodText m ++ 32 :: target ++ 32 :: v) = [methodText m, target, v] := by
    rw [splitAll, List.append_assoc, List.cons_append, pieces_cons _ (n32 hm2), pieces_cons _ (n32 ht),
      pieces_none (n32 hv1.2)]
    simp only [List.map_cons, List.map_nil, nb hm2, nb ht, nb hv1.2]
    simp [hm1, hne, hv1.1]
  rw [hp]
  simp only [methodText_parse, hv, if_true]

/-- **C46, C63** together: whatever the encoding of the path and whatever query and fragment, the line reaches the
listed handler of the MASA (the same holds for the registrar). -/
theorem C63_dispatch (m : Method) (hm : m ≠ .head) (ws : List Written) (hok : ∀ w ∈ ws, w.Ok) (t : Bytes) (ht : Tail t)
    (htp : ∀ c ∈ t, c ∉ [0, 9, 32]) (e : Endpoint) (r : Bytes) (hpath : ws.flatMap Written.value = 47 :: 46 :: r) :
    ∃ l, parseRequestLine (methodText m ++ 32 :: (pathText ws ++ t) ++ 32 :: str "HTTP/1.1" ++ [13, 10]) = some l ∧
      (routing registrarRoutes l = some (some e) ↔ Listed registrarEndpoints (methodText m) (ws.flatMap Written.value) e) ∧
      (routing masaRoutes l = some (some e) ↔ Listed masaEndpoints (methodText m) (ws.flatMap Written.value) e) := by
  have hne : ws ≠ [] := fun h => by rw [h] at hpath; cases hpath
  have hne' : pathText ws ++ t ≠ [] := by
    cases ws with
    | nil => exact absurd rfl hne
    | cons w ws => cases w <;> simp [pathText, Written.text]
  have hall : ∀ c ∈ pathText ws ++ t, c ∉ [0, 9, 32] := by
    intro c hc
    rcases List.mem_append.1 hc with hc | hc
    · have := text_plain hok c hc
      simp only [List.mem_cons, not_or] at this ⊢
      exact ⟨this.1, this.2.1, this.2.2.2.2.1, by simp⟩
    · exact htp c hc
  refine ⟨_, C63_line m _ hne' hall _ (.inl rfl), ?_⟩
  rw [C63_path ws hne hok t ht, hpath]
  exact C46_partial_dot m hm r e

end Brski.Props
