import Verif.PropsWire

/-!
# C78, C79: content in chunks
-/

namespace Brski.Props
open Outcome Routes Wire

/-! ## C79: chunked content arrives unchanged -/

/-- A number in hexadecimal digits, each in upper or lower case (specification). -/
abbrev HexText := List (Fin 16 × Bool)

/-- Its text (specification). -/
def HexText.text (ds : HexText) : Bytes := ds.map fun d => hexChar d.1 d.2

/-- Its value (specification). -/
def HexText.value (ds : HexText) : Nat := ds.foldl (fun a d => 16 * a + d.1.val) 0

/-- A chunk: its size, extensions, and data (specification: RFC 9112 section 7.1). -/
structure Chunk where
  size : HexText
  ext : Bytes
  data : Bytes

/-- The line with the size (specification). -/
def sizeLine (size : HexText) (ext : Bytes) : Bytes := size.text ++ ext ++ [13, 10]

/-- The chunk on the wire (specification). -/
def Chunk.text (c : Chunk) : Bytes := sizeLine c.size c.ext ++ c.data ++ [13, 10]

/-- An extension starts with a semicolon and stays on its line (specification). -/
def ExtOk (ext : Bytes) : Prop := (ext = [] ∨ ∃ e, ext = 59 :: e) ∧ (10 : UInt8) ∉ ext

/-- A chunk as a client may send it (specification). -/
def Chunk.Ok (c : Chunk) : Prop :=
  c.size ≠ [] ∧ c.size.value = c.data.length ∧ c.data ≠ [] ∧ c.data.length < 2 ^ 64 - 1 ∧ ExtOk c.ext

theorem hexChar_facts : ∀ (n : Fin 16) (up : Bool), hexChar n up ≠ 0 ∧ hexChar n up ≠ 10 ∧ hexChar n up ≠ 45 ∧
    hexChar n up ≠ 43 ∧ hexChar n up ≠ 120 ∧ hexChar n up ≠ 88 ∧ isSpace (hexChar n up) = false := by decide

theorem digits_hex (ds : HexText) (t : Bytes) (ht : ∀ c, t.head? = some c → hexVal c = none) :
    digits 16 (ds.text ++ t) = ds.map fun d => d.1.val := by
  induction ds with
  | nil =>
    cases t with
    | nil => rfl
    | cons c t =>
      show digits 16 (c :: t) = []
      rw [digits, ht c rfl]
  | cons d ds ih =>
    show digits 16 (hexChar d.1 d.2 :: (HexText.text ds ++ t)) = _
    rw [digits, hexVal_hexChar]
    simp only [d.1.isLt, if_true, List.map_cons]
    rw [ih]

theorem strtoull_hex {ds : HexText} {ext : Bytes} (hne : ds ≠ []) (he : ExtOk ext) (hn : ds.value < 2 ^ 64) :
    strtoull 16 (sizeLine ds ext) = some ds.value := by
  -- the C string: everything up to a NUL in the extension
  obtain ⟨he1, -⟩ := he
  have hcs : ∃ t, BoolTime.cstr (sizeLine ds ext) = ds.text ++ t ∧ ∃ c u, t = c :: u ∧ (c = 59 ∨ c = 13) := by
    have h0 : ∀ x ∈ ds.text, decide (x ≠ 0) = true := by
      intro x hx
      obtain ⟨d, -, rfl⟩ := List.mem_map.1 hx
      exact decide_eq_true (hexChar_facts d.1 d.2).1
    refine ⟨(ext ++ [13, 10]).takeWhile (· ≠ 0), ?_, ?_⟩
    · unfold BoolTime.cstr sizeLine
      rw [List.append_assoc, List.takeWhile_append_of_pos h0]
    · rcases he1 with rfl | ⟨e, rfl⟩
      · exact ⟨13, [10], by decide, .inr rfl⟩
      · refine ⟨59, (e ++ [13, 10]).takeWhile (· ≠ 0), ?_, .inl rfl⟩
        rw [List.cons_append, List.takeWhile_cons_of_pos (by decide)]
  obtain ⟨t, hcs, c, u, rfl, hc⟩ := hcs
  have hcx : hexVal c = none := by rcases hc with rfl | rfl <;> decide
  have hdig : digits 16 (ds.text ++ c :: u) = ds.map fun d => d.1.val :=
    digits_hex ds _ fun x hx => by
      simp only [List.head?_cons, Option.some.injEq] at hx
      rw [← hx]; exact hcx
  unfold strtoull
  rw [hcs]
  cases ds with
  | nil => exact absurd rfl hne
  | cons d ds =>
    obtain ⟨f1, f2, f3, f4, f5, f6, f7⟩ := hexChar_facts d.1 d.2
    have e1 : (HexText.text (d :: ds) ++ c :: u) = hexChar d.1 d.2 :: (HexText.text ds ++ c :: u) := rfl
    have e2 : (HexText.text (d :: ds) ++ c :: u).dropWhile isSpace = HexText.text (d :: ds) ++ c :: u := by
      rw [e1, List.dropWhile_cons_of_neg (by rw [f7]; simp)]
    have e3 : (HexText.text (d :: ds) ++ c :: u).head? = some (hexChar d.1 d.2) := rfl
    have e4 : dropSign (HexText.text (d :: ds) ++ c :: u) = HexText.text (d :: ds) ++ c :: u := by
      unfold dropSign
      rw [e3, if_neg]
      simp [f3, f4]
    have e5 : dropPrefix 16 (HexText.text (d :: ds) ++ c :: u) = HexText.text (d :: ds) ++ c :: u := by
      unfold dropPrefix
      rw [if_neg]
      rintro ⟨-, h, -⟩
      have hsec : ∃ x y, HexText.text ds ++ c :: u = x :: y ∧ x ≠ 120 ∧ x ≠ 88 := by
        cases ds with
        | nil => exact ⟨c, u, rfl, by rcases hc with rfl | rfl <;> decide, by rcases hc with rfl | rfl <;> decide⟩
        | cons d' ds' =>
          obtain ⟨-, -, -, -, g5, g6, -⟩ := hexChar_facts d'.1 d'.2
          exact ⟨_, _, rfl, g5, g6⟩
      obtain ⟨x, y, hxy, hx1, hx2⟩ := hsec
      rw [e1, hxy] at h
      have a1 : str "0x" = [48, 120] := by decide
      have a2 : str "0X" = [48, 88] := by decide
      simp only [a1, a2, List.take_succ_cons, List.take_zero, List.cons.injEq] at h
      rcases h with h | h
      · exact hx1 h.2.1
      · exact hx2 h.2.1
    simp only [e2, e3, e4, e5, hdig]
    have hv : (List.map (fun d : Fin 16 × Bool => d.1.val) (d :: ds)).foldl (fun a d => 16 * a + d) 0 =
        HexText.value (d :: ds) := by
      unfold HexText.value
      rw [List.foldl_map]
    rw [List.map_cons] at hv ⊢
    simp only [hv]
    rw [if_neg (by omega), if_neg]
    simpa using f3

theorem sizeLine_get {ds : HexText} {ext : Bytes} (he : ExtOk ext) (s : Bytes) :
    getLine (sizeLine ds ext ++ s) = some (sizeLine ds ext, s) := by
  have : (10 : UInt8) ∉ ds.text ++ ext := by
    intro hm
    rcases List.mem_append.1 hm with hm | hm
    · obtain ⟨d, -, hd⟩ := List.mem_map.1 hm
      exact (hexChar_facts d.1 d.2).2.1 hd
    · exact he.2 hm
  exact getLine_crlf s this

theorem chunks_zero {ds : HexText} {ext : Bytes} (hne : ds ≠ []) (he : ExtOk ext) (hn : ds.value = 0) (s : Bytes) :
    chunks (sizeLine ds ext) s = some ([], s) := by
  rw [chunks, strtoull_hex hne he (by omega), hn]
  rfl

theorem chunks_cons {c : Chunk} (h : c.Ok) {ds : HexText} {ext : Bytes} (he : ExtOk ext) (s : Bytes) :
    chunks (sizeLine c.size c.ext) (c.data ++ [13, 10] ++ (sizeLine ds ext ++ s)) =
      (chunks (sizeLine ds ext) s).map fun p => (c.data ++ p.1, p.2) := by
  obtain ⟨h1, h2, h3, h4, h5⟩ := h
  have hpos : 0 < c.data.length := List.length_pos_iff.2 h3
  have hdrop : (c.data ++ [13, 10] ++ (sizeLine ds ext ++ s)).drop c.data.length = [13, 10] ++ (sizeLine ds ext ++ s) := by
    rw [List.append_assoc]
    exact List.drop_left
  have htake : (c.data ++ [13, 10] ++ (sizeLine ds ext ++ s)).take c.data.length = c.data := by
    rw [List.append_assoc]
    exact List.take_left
  have hg1 : getLine ([13, 10] ++ (sizeLine ds ext ++ s)) = some ([13, 10], sizeLine ds ext ++ s) :=
    getLine_crlf (x := []) _ (by simp)
  have hg2 := sizeLine_get (ds := ds) he s
  have hcr : BoolTime.cstr [13, 10] = [13, 10] := by decide
  have hcr' : ¬ BoolTime.cstr [13, 10] ≠ [13, 10] := by simp [hcr]
  rw [chunks, strtoull_hex h1 h5 (by omega), h2]
  simp only
  rw [if_neg (by omega), if_neg (by omega), if_neg (by simp)]
  split
  · rename_i hh
    rw [hdrop, hg1] at hh
    cases hh
  · rename_i hh
    rw [hdrop, hg1] at hh
    cases hh
    rw [if_neg hcr']
    split
    · rename_i hh2
      rw [hg2] at hh2
      cases hh2
    · rename_i hh2
      rw [hg2] at hh2
      cases hh2
      rw [htake]

theorem chunks_all {cs : List Chunk} (h : ∀ c ∈ cs, c.Ok) {ds : HexText} {ext : Bytes} (hne : ds ≠ []) (he : ExtOk ext)
    (hn : ds.value = 0) (s : Bytes) :
    ∃ l r, getLine (cs.flatMap Chunk.text ++ (sizeLine ds ext ++ s)) = some (l, r) ∧
      chunks l r = some (cs.flatMap Chunk.data, s) ∧
      ∃ size ext', ExtOk ext' ∧ l = sizeLine size ext' ∧
        cs.flatMap Chunk.text ++ (sizeLine ds ext ++ s) = sizeLine size ext' ++ r := by
  induction cs with
  | nil =>
    exact ⟨_, _, sizeLine_get he s, chunks_zero hne he hn s, ds, ext, he, rfl, rfl⟩
  | cons c cs ih =>
    obtain ⟨l, r, h1, h2, size, ext', h3, rfl, h4⟩ := ih fun d hd => h d (List.mem_cons_of_mem _ hd)
    have hc := h c List.mem_cons_self
    have e : (c :: cs).flatMap Chunk.text ++ (sizeLine ds ext ++ s) =
        sizeLine c.size c.ext ++ (c.data ++ [13, 10] ++ (sizeLine size ext' ++ r)) := by
      rw [← h4]
      simp [Chunk.text]
    rw [e]
    refine ⟨_, _, sizeLine_get hc.2.2.2.2 _, ?_, c.size, c.ext, hc.2.2.2.2, rfl, rfl⟩
    rw [chunks_cons hc h3, h2]
    rfl

theorem trailer_end (s : Bytes) : trailer ([13, 10] ++ s) = .ok (some ([], s)) := by
  have hg : getLine ([13, 10] ++ s) = some ([13, 10], s) := getLine_crlf (x := []) s (by simp)
  rw [trailer]
  split
  · rename_i he
    rw [hg] at he
    cases he
  · rename_i he
    rw [hg] at he
    cases he
    rw [if_pos (by decide)]

theorem trailer_cons {l : Bytes} (s : Bytes) (h : ReadableLine l) :
    trailer (l ++ [13, 10] ++ s) = (trailer s).bind fun t => .ok (t.map fun p => (l :: p.1, p.2)) := by
  obtain ⟨h1, h2, h3⟩ := h
  have hg := getLine_crlf s h1
  have hpos : 0 < l.length := List.length_pos_iff.2 h2
  rw [trailer]
  split
  · rename_i he
    rw [hg] at he
    cases he
  · rename_i he
    rw [hg] at he
    cases he
    have hn : BoolTime.cstr (l ++ [13, 10]) ≠ [13, 10] := by
      intro e
      have h2' : (10 : UInt8) ∈ BoolTime.cstr (l ++ [13, 10]) := by rw [e]; decide
      have hl : (BoolTime.cstr (l ++ [13, 10])).length = 2 := by rw [e]; rfl
      -- no NUL before the line feed, so the C string is the line
      have : ∀ x ∈ l, x ≠ 0 := by
        intro x hx hx0
        subst hx0
        obtain ⟨a, b, rfl⟩ := List.append_of_mem hx
        have hc : BoolTime.cstr (a ++ 0 :: b ++ [13, 10]) = BoolTime.cstr a := by
          unfold BoolTime.cstr
          rw [List.append_assoc, List.takeWhile_append]
          split
          · rename_i ha
            rw [List.cons_append, List.takeWhile_cons_of_neg (by simp), List.append_nil]
            exact (List.takeWhile_sublist _).eq_of_length ha |>.symm
          · rfl
        rw [hc] at h2'
        exact h1 (List.mem_append_left _ ((List.takeWhile_sublist _).mem h2'))
      rw [cstr_id (by
        intro x hx
        rcases List.mem_append.1 hx with hx | hx
        · exact this x hx
        · intro e; subst e; revert hx; decide)] at hl
      simp only [List.length_append, List.length_cons, List.length_nil] at hl
      omega
    rw [if_neg hn, if_neg (by simp; omega), if_neg (by simp)]
    simp

theorem trailer_all {ls : List Bytes} (h : ∀ l ∈ ls, ReadableLine l) (s : Bytes) :
    trailer (ls.flatMap (· ++ [13, 10]) ++ [13, 10] ++ s) = .ok (some (ls, s)) := by
  induction ls with
  | nil => exact trailer_end s
  | cons l ls ih =>
    have e : (l :: ls).flatMap (· ++ [13, 10]) ++ [13, 10] ++ s =
        l ++ [13, 10] ++ (ls.flatMap (· ++ [13, 10]) ++ [13, 10] ++ s) := by simp
    rw [e, trailer_cons _ (h l List.mem_cons_self), ih fun l hl => h l (List.mem_cons_of_mem _ hl)]
    rfl

/-- **C79** Content sent in chunks, with any extensions and any trailer, is put together in order and nothing else is
added: whoever reads it gets the data, the lines of the trailer, and the connection behind it. -/
theorem C79_chunked (hs : List Field) (hch : (headerValue hs (str "Transfer-Encoding")).map lower = str "chunked")
    (henc : fieldsNamed (str "Content-Encoding") hs = []) (cs : List Chunk) (h : ∀ c ∈ cs, c.Ok) (zero : HexText)
    (hz : zero ≠ [] ∧ zero.value = 0) (ext : Bytes) (he : ExtOk ext) (ls : List Bytes) (hl : ∀ l ∈ ls, ReadableLine l)
    (rest : Bytes) :
    readContent hs (cs.flatMap Chunk.text ++ sizeLine zero ext ++ (ls.flatMap (· ++ [13, 10]) ++ [13, 10] ++ rest)) =
      .ok (.read (cs.flatMap Chunk.data) rest ls) := by
  obtain ⟨l, r, h1, h2, -⟩ := chunks_all h hz.1 he hz.2 (ls.flatMap (· ++ [13, 10]) ++ [13, 10] ++ rest)
  unfold readContent
  have hic : isChunked hs = true := by
    unfold isChunked
    rw [hch]
    decide
  simp only [headerValue_nil henc, hic, if_true]
  rw [if_neg (by decide), List.append_assoc, h1]
  simp only [h2, trailer_all hl, bind'_ok]

/-- Non-vacuity: two chunks, the first with an extension, and a trailer. -/
example : readContent [(str "Transfer-Encoding", str "Chunked")]
    (str "5;x=1\r\nhello\r\n00A\r\n, 10 bytes\r\n0\r\nA: b\r\n\r\nrest") =
    .ok (.read (str "hello, 10 bytes") (str "rest") [str "A: b"]) := by decide +kernel

example : (⟨[(10, true)], [], str ", 10 bytes"⟩ : Chunk).Ok ∧ ExtOk (str ";x=1") := by
  refine ⟨⟨by decide, by decide, by decide, by decide, .inl rfl, by decide⟩, .inr ⟨_, rfl⟩, by decide⟩

/-! ## C78: reading a message is defined -/

/-- **C78** as stated: no message, however malformed, makes reading it undefined, at the server or at the client. -/
def C78_statement : Prop :=
  (∀ rs mp dyn close s, serve rs mp dyn close s ≠ .ub) ∧ ∀ s, readReply s ≠ .ub

theorem readContent_defined {hs : List Field} {s : Bytes}
    (h : (headerValue hs (str "Transfer-Encoding")).map lower ≠ str "chunked") : readContent hs s ≠ .ub := by
  have hic : isChunked hs = false := by
    unfold isChunked
    exact beq_eq_false_iff_ne.2 h
  unfold readContent
  simp only [hic, Bool.false_eq_true, if_false]
  split
  · simp
  · split
    · simp
    · split <;> simp

/-- **C78** at the server, what holds: whatever the bytes, reading is defined unless the header announces chunks.  (With
chunks it is defined for everything well formed, C79, and `C78_trailer` says exactly for what.) -/
theorem C78_partial (rs : List Route) (mp : Multipart) (dyn : List Field → Bytes → Endpoint → Reply) (close : Bool) (s : Bytes)
    (h : ∀ l r, getLine s = some (l, r) →
      (headerValue (readHeaders (readLines r).1) (str "Transfer-Encoding")).map lower ≠ str "chunked") :
    serve rs mp dyn close s ≠ .ub := by
  unfold serve
  cases hg : getLine s with
  | none => simp
  | some p =>
    obtain ⟨l, r⟩ := p
    have hh := h l r hg
    simp only
    cases (if 8192 < l.length then none else parseRequestLine l) with
    | none => simp
    | some line =>
      simp only
      generalize hrl : readLines r = x at hh ⊢
      obtain ⟨ls, o⟩ := x
      cases o with
      | none => simp
      | some r =>
        simp only at hh ⊢
        split
        · have hb : readBody mp line.method (readHeaders ls) r ≠ .ub := by
            unfold readBody
            simp only
            split
            · simp
            · split
              · simp
              · cases hc : readContent (readHeaders ls) r with
                | ub => exact absurd hc (readContent_defined hh)
                | ok c =>
                  simp only [bind'_ok]
                  cases c with
                  | failed => simp
                  | read => simp only; repeat' split
                            all_goals simp
          cases hx : readBody mp line.method (readHeaders ls) r with
          | ub => exact absurd hx hb
          | ok b =>
            simp only [bind'_ok]
            cases b <;> simp
        · simp

/-- **C78** at the client, what holds: the same, for the header behind the status line that counts. -/
theorem C78_partial_client (s : Bytes)
    (h : ∀ st r, readStatus s = some (st, r) →
      (headerValue (readHeaders (readLines r).1) (str "Transfer-Encoding")).map lower ≠ str "chunked") :
    readReply s ≠ .ub := by
  unfold readReply
  cases hg : readStatus s with
  | none => simp
  | some p =>
    obtain ⟨st, r⟩ := p
    have hh := h st r hg
    simp only
    generalize hrl : readLines r = x at hh ⊢
    obtain ⟨ls, o⟩ := x
    cases o with
    | none => simp
    | some r =>
      simp only at hh ⊢
      split
      · simp
      · cases hc : readContent (readHeaders ls) r with
        | ub => exact absurd hc (readContent_defined hh)
        | ok c =>
          simp only [bind'_ok]
          cases c <;> simp

/-- A complete line a trailer may have before its end (specification). -/
def TrailerLine (l : Bytes) : Prop :=
  (∃ x, l = x ++ [10] ∧ (10 : UInt8) ∉ x) ∧ 2 ≤ l.length ∧ l.length ≤ 8192 ∧ BoolTime.cstr l ≠ [13, 10]

/-- After some lines comes a line of a single byte: a lone line feed, or the last byte of the connection
(specification). -/
def HasShortLine (s : Bytes) : Prop :=
  ∃ (ls : List Bytes) (c : UInt8) (rest : Bytes), s = ls.flatten ++ c :: rest ∧ (∀ l ∈ ls, TrailerLine l) ∧
    (c = 10 ∨ rest = [])

theorem getLine_lf {x : Bytes} (s : Bytes) (h : (10 : UInt8) ∉ x) : getLine (x ++ [10] ++ s) = some (x ++ [10], s) := by
  have e : x ++ [10] ++ s = x ++ 10 :: s := by simp
  have := takeLine_lf s h
  unfold getLine
  rw [if_neg (by simp), e, this.1, this.2]

theorem first_occurrence {c : UInt8} : ∀ {s : Bytes}, c ∈ s → ∃ x y, s = x ++ c :: y ∧ c ∉ x
  | a :: s, h => by
    by_cases ha : a = c
    · exact ⟨[], s, by rw [ha]; rfl, by simp⟩
    · obtain ⟨x, y, h1, h2⟩ := first_occurrence ((List.mem_cons.1 h).resolve_left fun e => ha e.symm)
      exact ⟨a :: x, y, by rw [h1]; rfl, fun hm => (List.mem_cons.1 hm).elim (fun e => ha e.symm) h2⟩

/-- What a line is, without the functions of the model. -/
theorem getLine_cases {s l r : Bytes} (h : getLine s = some (l, r)) :
    s = l ++ r ∧ l ≠ [] ∧ ((∃ x, l = x ++ [10] ∧ (10 : UInt8) ∉ x) ∨ (r = [] ∧ (10 : UInt8) ∉ l)) := by
  by_cases hm : (10 : UInt8) ∈ s
  · obtain ⟨x, y, rfl, hx⟩ := first_occurrence hm
    have e : x ++ 10 :: y = x ++ [10] ++ y := by simp
    rw [e, getLine_lf y hx] at h
    cases h
    exact ⟨e, by simp, .inl ⟨x, rfl, hx⟩⟩
  · by_cases hs : s = []
    · subst hs
      simp [getLine] at h
    · rw [getLine_none hm hs] at h
      cases h
      exact ⟨by simp, hs, .inr ⟨rfl, hm⟩⟩

theorem trailer_short : ∀ (n : Nat) (s : Bytes), s.length = n → (trailer s = .ub ↔ HasShortLine s) := by
  intro n
  induction n using Nat.strongRecOn with
  | _ n ih =>
    intro s hn
    cases hg : getLine s with
    | none =>
      have hs : s = [] := by
        unfold getLine at hg
        split at hg
        · assumption
        · cases hg
      subst hs
      have : trailer [] = .ok none := by rw [trailer]; rfl
      rw [this]
      refine ⟨fun h => (by cases h), fun ⟨ls, c, rest, h, _⟩ => ?_⟩
      have := congrArg List.length h
      simp at this
    | some p =>
      obtain ⟨l, r⟩ := p
      obtain ⟨hs, hne, hl⟩ := getLine_cases hg
      have hlt := getLine_lt hg
      have step : trailer s = if BoolTime.cstr l = [13, 10] then .ok (some ([], r))
          else if l.length > 8192 then .ok none
          else if l.length < 2 then .ub
          else (trailer r).bind fun t => .ok (t.map fun p => (l.take (l.length - 2) :: p.1, p.2)) := by
        rw [trailer]
        split
        · rename_i he
          rw [hg] at he
          cases he
        · rename_i he
          rw [hg] at he
          cases he
          rfl
      have hpos : 0 < l.length := List.length_pos_iff.2 hne
      -- how a decomposition of `s` starts
      have first : ∀ {ls : List Bytes} {c : UInt8} {rest : Bytes}, s = ls.flatten ++ c :: rest →
          (∀ l ∈ ls, TrailerLine l) → (c = 10 ∨ rest = []) →
          (l = [c] ∧ ls = []) ∨ (∃ ls', ls = l :: ls' ∧ r = ls'.flatten ++ c :: rest) := by
        intro ls c rest e hls hc
        cases ls with
        | nil =>
          refine .inl ⟨?_, rfl⟩
          rw [List.flatten_nil, List.nil_append] at e
          by_cases h10 : c = 10
          · have e' : s = [] ++ [10] ++ rest := by rw [e, h10]; rfl
            rw [e', getLine_lf rest (by simp)] at hg
            cases hg
            rw [h10]; rfl
          · have hr : rest = [] := hc.resolve_left h10
            rw [e, hr, getLine_none (by simpa using fun h => h10 h.symm) (by simp)] at hg
            cases hg
            rfl
        | cons l' ls' =>
          obtain ⟨⟨x, hx, hx0⟩, -⟩ := hls l' List.mem_cons_self
          have e' : s = x ++ [10] ++ (ls'.flatten ++ c :: rest) := by rw [e, List.flatten_cons, hx, List.append_assoc]
          rw [e', getLine_lf _ hx0] at hg
          cases hg
          exact .inr ⟨ls', by rw [hx], rfl⟩
      rw [step]
      by_cases h1 : BoolTime.cstr l = [13, 10]
      · rw [if_pos h1]
        refine ⟨fun h => (by cases h), fun ⟨ls, c, rest, e, hls, hc⟩ => ?_⟩
        rcases first e hls hc with ⟨rfl, -⟩ | ⟨ls', rfl, -⟩
        · have h2 := congrArg List.length h1
          have h3 : (BoolTime.cstr [c]).length ≤ 1 := (List.takeWhile_sublist _).length_le
          rw [h2] at h3
          simp at h3
        · exact absurd h1 (hls l List.mem_cons_self).2.2.2
      · rw [if_neg h1]
        by_cases h2 : l.length > 8192
        · rw [if_pos h2]
          refine ⟨fun h => (by cases h), fun ⟨ls, c, rest, e, hls, hc⟩ => ?_⟩
          rcases first e hls hc with ⟨rfl, -⟩ | ⟨ls', rfl, -⟩
          · simp at h2
          · have := (hls l List.mem_cons_self).2.2.1
            omega
        · rw [if_neg h2]
          by_cases h3 : l.length < 2
          · rw [if_pos h3]
            refine ⟨fun _ => ?_, fun _ => rfl⟩
            obtain ⟨c, rfl⟩ : ∃ c, l = [c] := List.length_eq_one_iff.1 (by omega)
            refine ⟨[], c, r, by simpa using hs, by simp, ?_⟩
            rcases hl with ⟨x, hx, -⟩ | ⟨hr, -⟩
            · left
              cases x with
              | nil => simpa using hx
              | cons a x => simp at hx
            · exact .inr hr
          · rw [if_neg h3]
            have hiff : ((trailer r).bind fun t => Outcome.ok (t.map fun p => (l.take (l.length - 2) :: p.1, p.2))) = .ub ↔
                trailer r = .ub := by
              cases trailer r <;> simp
            rw [hiff, ih r.length (by omega) r rfl]
            constructor
            · rintro ⟨ls, c, rest, e, hls, hc⟩
              have hl' : ∃ x, l = x ++ [10] ∧ (10 : UInt8) ∉ x := by
                rcases hl with hl | ⟨hr, -⟩
                · exact hl
                · rw [hr] at e
                  have := congrArg List.length e
                  simp at this
              refine ⟨l :: ls, c, rest, by rw [hs, e]; simp, ?_, hc⟩
              intro k hk
              rcases List.mem_cons.1 hk with rfl | hk
              · exact ⟨hl', by omega, by omega, h1⟩
              · exact hls k hk
            · rintro ⟨ls, c, rest, e, hls, hc⟩
              rcases first e hls hc with ⟨rfl, -⟩ | ⟨ls', rfl, er⟩
              · simp at h3
              · exact ⟨ls', c, rest, er, fun k hk => hls k (List.mem_cons_of_mem _ hk), hc⟩

/-- **C78**, exactly which trailers are undefined: those with a line of a single byte. -/
theorem C78_trailer (s : Bytes) : trailer s = .ub ↔ HasShortLine s := trailer_short s.length s rfl

/-- Non-vacuity: a trailer with a lone line feed after a field, and a harmless one. -/
example : HasShortLine (str "A: b\r\n\nC: d\r\n") ∧ trailer (str "A: b\r\nC: d\r\n\r\n") = .ok (some ([str "A: b", str "C: d"], [])) := by
  refine ⟨⟨[str "A: b\r\n"], 10, str "C: d\r\n", by decide +kernel, ?_, .inl rfl⟩, by decide +kernel⟩
  intro l hl
  rw [List.mem_singleton] at hl
  subst hl
  exact ⟨⟨str "A: b\r", by decide, by decide⟩, by decide, by decide, by decide⟩

/-- A request that makes the server compute an address before the start of its buffer (/repo/src/brski/http/httplib.h:4185).
That alone is undefined in C++; on the usual machines the line is then ignored, since `parse_header` compares the two
addresses first (3976-3992). -/
def poison : Bytes := str "POST / HTTP/1.1\r\nTransfer-Encoding: chunked\r\n\r\n0\r\n\n"

/-- The code violates C78 at the server. -/
theorem C78_violated (rs : List Route) (mp : Multipart) (dyn : List Field → Bytes → Endpoint → Reply) (close : Bool) :
    serve rs mp dyn close poison = .ub := by
  have hg : getLine poison = some (str "POST / HTTP/1.1\r\n", str "Transfer-Encoding: chunked\r\n\r\n0\r\n\n") := by
    decide +kernel
  have hp : parseRequestLine (str "POST / HTTP/1.1\r\n") = some ⟨.post, str "/"⟩ := by decide +kernel
  have hr : readLines (str "Transfer-Encoding: chunked\r\n\r\n0\r\n\n") =
      ([str "Transfer-Encoding: chunked"], some (str "0\r\n\n")) := by decide +kernel
  have hh : readHeaders [str "Transfer-Encoding: chunked"] = [(str "Transfer-Encoding", str "chunked")] := by
    decide +kernel
  have hc : readContent [(str "Transfer-Encoding", str "chunked")] (str "0\r\n\n") = .ub := by decide +kernel
  have hm : startsWith (str "multipart/form-data")
      (headerValue [(str "Transfer-Encoding", str "chunked")] (str "Content-Type")) = false := by decide
  unfold serve
  rw [hg]
  simp only
  rw [if_neg (by decide), hp]
  simp only
  rw [hr]
  simp only [expectsContent, if_true, hh]
  unfold readBody
  simp only [hm, Bool.false_and, Bool.false_eq_true, if_false]
  rw [if_neg (by simp), hc]
  rfl

/-- The code violates C78 at the client in the same way. -/
theorem C78_violated_client : readReply (str "HTTP/1.1 200 OK\r\nTransfer-Encoding: chunked\r\n\r\n0\r\n\n") = .ub := by
  decide +kernel

/-- The code violates C78. -/
theorem C78_violated_statement : ¬ C78_statement := fun h => h.2 _ C78_violated_client

/-- Non-vacuity of C78_partial: a malformed request without chunks is answered. -/
example : serve masaRoutes ⟨fun _ => true, fun _ _ => true⟩ (fun _ _ _ => ⟨200, []⟩) true
    (str "POST /x HTTP/1.1\r\nContent-Length: -1\r\n\r\n0\r\n\n") =
    .ok (some (writeResponse true .post false ⟨400, [], []⟩)) := by decide +kernel

end Brski.Props
