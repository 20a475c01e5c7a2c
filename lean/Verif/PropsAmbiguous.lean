import Verif.PropsConn

/-!
# C140: where the content of a request ends
-/

namespace Brski.Props
open Outcome Routes Wire Conn Ranges

/-! ## Specification -/

/-- A request as it is sent, up to the question where its content ends: `content` is everything that follows the empty line.  The method
is one with content; there is no coding, no form in parts and no range. -/
structure Msg.Formed (m : Msg) : Prop where
  target : m.target ≠ [] ∧ ∀ c ∈ m.target, c ∉ [0, 9, 10, 32]
  size : m.line.length + 2 ≤ 8192
  fields : ∀ f ∈ m.fields, Sendable f
  method : m.method ∈ withContent
  encoding : fieldsNamed (str "Content-Encoding") m.fields = []
  parts : ∀ f ∈ fieldsNamed (str "Content-Type") m.fields, ¬ str "multipart/form-data" <+: f.2
  range : fieldsNamed (str "Range") m.fields = []

/-- The length of the content is not clear (RFC 9112 section 6.3, numbers 4 and 5): two lengths that differ; a length that is neither a
number nor a list; a coding that does not end with `chunked`. -/
inductive Unclear (fs : List Field) : Prop
  | differ (f g : Field) (hf : f ∈ fieldsNamed (str "Content-Length") fs) (hg : g ∈ fieldsNamed (str "Content-Length") fs) (a b : Nat)
      (ha : Denotes f.2 a) (hb : Denotes g.2 b) (hab : a ≠ b)
  | number (f : Field) (hf : f ∈ fieldsNamed (str "Content-Length") fs) (hc : (44 : UInt8) ∉ f.2) (hn : ∀ n, ¬ Denotes f.2 n)
  | coding (f : Field) (hf : (fieldsNamed (str "Transfer-Encoding") fs).getLast? = some f) (hc : ¬ str "chunked" <:+ f.2.map lower)

/-- There is a length, all lengths are the number `n`, and there is no coding. -/
def Agreed (fs : List Field) (n : Nat) : Prop :=
  fieldsNamed (str "Transfer-Encoding") fs = [] ∧ fieldsNamed (str "Content-Length") fs ≠ [] ∧
    ∀ f ∈ fieldsNamed (str "Content-Length") fs, Denotes f.2 n

/-- The request without its lengths. -/
def Msg.unmeasured (m : Msg) : Msg := { m with fields := m.fields.filter fun f => ¬ SameName f.1 (str "Content-Length") }

/-- The content that the handler sees. -/
def Done.body (d : Done) : Option Bytes := d.ran.map (·.2.2)

/-- **C140** as stated (RFC 9112 section 6.3): no handler runs for a request whose length is not clear; with a length the handler sees that
many bytes, and the rest is left for the next request; with a coding the lengths do not count. -/
def C140_statement : Prop :=
  ∀ (rs : List Route) (mp : Multipart) (bd : Bytes) (stop : Bytes → Nat) (dyn : List Field → Bytes → Endpoint → Reply) (close : Bool)
    (m : Msg) (d : Done), m.Formed → serveNext rs mp bd stop dyn close m.text = .ok (some d) →
      (Unclear m.fields → Done.body d = none) ∧
      (∀ n b, Agreed m.fields n → Done.body d = some b → b = m.content.take n ∧ b.length = n ∧ d.rest = m.content.drop n) ∧
      (fieldsNamed (str "Transfer-Encoding") m.fields ≠ [] → ∀ d', serveNext rs mp bd stop dyn close m.unmeasured.text = .ok (some d') →
        Done.body d = Done.body d' ∧ d.rest = d'.rest)

/-- The text does not begin with a digit. -/
def NoDigit (t : Bytes) : Prop := ∀ c, t.head? = some c → c < 48 ∨ 57 < c

/-- What the server takes a length for: the number with which the text begins, with or without a plus sign; a number with a minus sign counts
down from 2^64; a text without a number is 0. -/
inductive Front : Bytes → Nat → Prop
  | number (ds t : Bytes) (n : Nat) : Denotes ds n → n < 2 ^ 64 → NoDigit t → Front (ds ++ t) n
  | plus (ds t : Bytes) (n : Nat) : Denotes ds n → n < 2 ^ 64 → NoDigit t →
      Front (43 :: ds ++ t) n
  | minus (ds t : Bytes) (n : Nat) : Denotes ds n → n < 2 ^ 64 → 0 < n → NoDigit t →
      Front (45 :: ds ++ t) (2 ^ 64 - n)
  | large (ds t : Bytes) (n : Nat) : Denotes ds n → 2 ^ 64 ≤ n → NoDigit t →
      Front (ds ++ t) (2 ^ 64 - 1)
  | word (c : UInt8) (t : Bytes) : (c ≠ 32 ∧ (c < 9 ∨ 13 < c) ∧ c ≠ 43 ∧ c ≠ 45) → (c < 48 ∨ 57 < c) → Front (c :: t) 0

/-! ## Numbers at the front -/

theorem hexVal_other {c : UInt8} (h : c < 48 ∨ 57 < c) : hexVal c = none ∨ 9 < (hexVal c).getD 0 := by
  unfold hexVal
  simp only [UInt8.lt_iff_toNat_lt, UInt8.le_iff_toNat_le] at *
  have e1 : (48 : UInt8).toNat = 48 := rfl
  have e2 : (57 : UInt8).toNat = 57 := rfl
  have e3 : (65 : UInt8).toNat = 65 := rfl
  have e4 : (97 : UInt8).toNat = 97 := rfl
  rw [if_neg (by omega)]
  split
  · right; simp only [Option.getD_some]; omega
  · split
    · right; simp only [Option.getD_some]; omega
    · left; rfl

theorem digits_front {ds t : Bytes} (h : ∀ c ∈ ds, 48 ≤ c.toNat ∧ c.toNat ≤ 57)
    (ht : NoDigit t) : digits 10 (ds ++ t) = ds.map fun c => c.toNat - 48 := by
  induction ds with
  | nil =>
    cases t with
    | nil => rfl
    | cons c t =>
      have := hexVal_other (ht c rfl)
      rw [List.nil_append, digits]
      cases hx : hexVal c with
      | none => rfl
      | some v =>
        rw [hx] at this
        simp only [Option.getD_some, reduceCtorEq, false_or] at this
        simp only
        rw [if_neg (by omega)]
        rfl
  | cons c ds ih =>
    have hc := h c List.mem_cons_self
    have hx : hexVal c = some (c.toNat - 48) := by
      unfold hexVal
      rw [if_pos]
      simp only [UInt8.le_iff_toNat_le]
      exact ⟨hc.1, hc.2⟩
    rw [List.cons_append, digits, hx]
    simp only
    rw [if_pos (by omega), ih fun d hd => h d (List.mem_cons_of_mem _ hd), List.map_cons]

theorem digit_plain {c : UInt8} (h : 48 ≤ c.toNat ∧ c.toNat ≤ 57) : isSpace c = false ∧ c ≠ 45 ∧ c ≠ 43 ∧ c ≠ 0 := by
  have ne : ∀ d : UInt8, d.toNat < 48 → c ≠ d := fun d hd e => by rw [e] at h; omega
  refine ⟨?_, ne 45 (by decide), ne 43 (by decide), ne 0 (by decide)⟩
  unfold isSpace
  simp only [Bool.or_eq_false_iff, beq_eq_false_iff_ne, Bool.and_eq_false_iff, decide_eq_false_iff_not, UInt8.le_iff_toNat_le]
  exact ⟨ne 32 (by decide), .inr (by rw [show (13 : UInt8).toNat = 13 from rfl]; omega)⟩

theorem dropPrefix_ten (s : Bytes) : dropPrefix 10 s = s := by
  unfold dropPrefix
  rw [if_neg (by simp)]

theorem front_length {v : Bytes} {n : Nat} (h : Front v n) (h0 : ∀ c ∈ v, c ≠ 0) : (strtoull 10 v).getD 0 = n := by
  have step : ∀ {ds t : Bytes} {k : Nat}, Denotes ds k → NoDigit t →
      ∃ x xs, digits 10 (ds ++ t) = x :: xs ∧ (x :: xs).foldl (fun a d => 10 * a + d) 0 = k := by
    intro ds t k hd ht
    obtain ⟨h1, h2, h3⟩ := hd
    have e := digits_front h2 ht
    have f := foldl_digits ds 0
    cases ds with
    | nil => exact absurd rfl h1
    | cons c ds =>
      refine ⟨_, _, by rw [e, List.map_cons], ?_⟩
      rw [← h3, ← f]
      rfl
  have head : ∀ {ds t : Bytes} {k : Nat}, Denotes ds k → ∃ c r, ds ++ t = c :: r ∧ (48 ≤ c.toNat ∧ c.toNat ≤ 57) := by
    intro ds t k hd
    cases ds with
    | nil => exact absurd rfl hd.1
    | cons c ds => exact ⟨c, ds ++ t, rfl, hd.2.1 c List.mem_cons_self⟩
  cases h with
  | number ds t n hd hn ht =>
    obtain ⟨x, xs, e1, e2⟩ := step hd ht
    obtain ⟨c, r, ec, hc⟩ := head (t := t) hd
    have hp := digit_plain hc
    unfold strtoull
    rw [cstr_id h0, ec, List.dropWhile_cons_of_neg (by rw [hp.1]; simp)]
    have hs : dropSign (c :: r) = c :: r := by
      unfold dropSign
      rw [if_neg]
      simp [hp.2.1, hp.2.2.1]
    simp only [hs, dropPrefix_ten]
    rw [← ec, e1]
    simp only [e2]
    rw [if_neg (by omega), if_neg (by rw [ec]; simp [hp.2.1])]
    rfl
  | plus ds t n hd hn ht =>
    obtain ⟨x, xs, e1, e2⟩ := step hd ht
    unfold strtoull
    rw [cstr_id h0, List.cons_append, List.dropWhile_cons_of_neg (by decide)]
    have hs : dropSign (43 :: (ds ++ t)) = ds ++ t := by
      unfold dropSign
      rw [if_pos (by simp)]
      rfl
    simp only [hs, dropPrefix_ten]
    rw [e1]
    simp only [e2]
    rw [if_neg (by omega), if_neg (by simp)]
    rfl
  | minus ds t n hd hn hpos ht =>
    obtain ⟨x, xs, e1, e2⟩ := step hd ht
    unfold strtoull
    rw [cstr_id h0, List.cons_append, List.dropWhile_cons_of_neg (by decide)]
    have hs : dropSign (45 :: (ds ++ t)) = ds ++ t := by
      unfold dropSign
      rw [if_pos (by simp)]
      rfl
    simp only [hs, dropPrefix_ten]
    rw [e1]
    simp only [e2]
    rw [if_neg (by omega), if_pos (by simp)]
    simp only [Option.getD_some]
    omega
  | large ds t n hd hn ht =>
    obtain ⟨x, xs, e1, e2⟩ := step hd ht
    obtain ⟨c, r, ec, hc⟩ := head (t := t) hd
    have hp := digit_plain hc
    unfold strtoull
    rw [cstr_id h0, ec, List.dropWhile_cons_of_neg (by rw [hp.1]; simp)]
    have hs : dropSign (c :: r) = c :: r := by
      unfold dropSign
      rw [if_neg]
      simp [hp.2.1, hp.2.2.1]
    simp only [hs, dropPrefix_ten]
    rw [← ec, e1]
    simp only [e2]
    rw [if_pos (by omega)]
    rfl
  | word c t hc hx =>
    have hsp : isSpace c = false := by
      unfold isSpace
      simp only [Bool.or_eq_false_iff, beq_eq_false_iff_ne, Bool.and_eq_false_iff, decide_eq_false_iff_not]
      refine ⟨hc.1, ?_⟩
      rcases hc.2.1 with h | h
      · left
        simp only [UInt8.le_iff_toNat_le, UInt8.lt_iff_toNat_lt] at *
        omega
      · right
        simp only [UInt8.le_iff_toNat_le, UInt8.lt_iff_toNat_lt] at *
        omega
    unfold strtoull
    rw [cstr_id h0, List.dropWhile_cons_of_neg (by rw [hsp]; simp)]
    have hs : dropSign (c :: t) = c :: t := by
      unfold dropSign
      rw [if_neg]
      simp [hc.2.2.1, hc.2.2.2]
    have hd : digits 10 (c :: t) = [] := by
      have := digits_front (ds := []) (t := c :: t) (by simp) (fun d hd => by cases hd; exact hx)
      simpa using this
    simp only [hs, dropPrefix_ten, hd]
    rfl

/-! ## One request -/

theorem formed_line {m : Msg} (h : m.Formed) : parseRequestLine (m.line ++ [13, 10]) = some ⟨m.method, parsePath m.target⟩ ∧
    (10 : UInt8) ∉ m.line := by
  obtain ⟨m', hm', hv⟩ : ∃ m' : Msg, (m'.line = m.line ∧ m'.method = m.method ∧ m'.target = m.target) ∧ m'.Valid :=
    ⟨{ m with fields := [], content := [] }, ⟨rfl, rfl, rfl⟩, h.target, h.size, by simp, rfl, .inr ⟨rfl, rfl⟩⟩
  have hp := parse_msg hv
  have hl := line_plain hv
  rw [hm'.1, hm'.2.1, hm'.2.2] at hp
  rw [hm'.1] at hl
  exact ⟨hp, fun hm => hl 10 hm (by decide)⟩

theorem next_formed (rs : List Route) (mp : Multipart) (bd : Bytes) (stop : Bytes → Nat) (dyn : List Field → Bytes → Endpoint → Reply)
    (close : Bool) {m : Msg} (h : m.Formed) : ∃ interim closed, serveNext rs mp bd stop dyn close m.text =
      (let hs := readHeaders (m.fields.map lineOf)
      (readBody mp m.method hs m.content).bind fun b =>
        match b with
        | .error st =>
          .ok (some ⟨interim, respond (closes close hs) m.method [] bd false ⟨st, [], []⟩, none, bodyRest mp stop m.method hs m.content, closed⟩)
        | .ok (b, more) =>
          let hs' := readHeaders (m.fields.map lineOf ++ more)
          .ok (some ⟨interim, answer rs (dyn hs' b) (closes close hs') [] bd ⟨m.method, parsePath m.target⟩,
            runs rs ⟨m.method, parsePath m.target⟩ hs' b, bodyRest mp stop m.method hs m.content, closed⟩)) := by
  have hl : ∀ l ∈ m.fields.map lineOf, ReadableLine l := by
    intro l hl
    obtain ⟨f, hf, rfl⟩ := List.mem_map.1 hl
    exact readable_line (h.fields f hf)
  have hrg : rangesOf (readHeaders (m.fields.map lineOf)) = ([], true) := by
    unfold rangesOf
    rw [if_neg]
    rw [hasField_named, named_msg h.fields, h.range]
    simp
  have hex : expectsContent m.method = true := by have := h.method; revert this; cases m.method <;> decide
  refine ⟨headerValue (readHeaders (m.fields.map lineOf)) (str "Expect") == str "100-continue",
    asksClose (m.line ++ [13, 10]) (readHeaders (m.fields.map lineOf)), ?_⟩
  unfold serveNext Msg.text
  have hsz := h.size
  rw [getLine_crlf _ (formed_line h).2]
  simp only
  rw [if_neg (by simp; omega), (formed_line h).1]
  simp only
  rw [readLines_all hl]
  simp only [hrg, hex, Bool.true_eq_false, if_false, if_true]
  rfl

theorem formed_multi {m : Msg} (h : m.Formed) :
    startsWith (str "multipart/form-data") (headerValue (readHeaders (m.fields.map lineOf)) (str "Content-Type")) = false := by
  rw [value_msg h.fields]
  cases hc : fieldsNamed (str "Content-Type") m.fields with
  | nil => decide
  | cons g r => exact startsWith_false (h.parts g (by rw [hc]; exact List.mem_cons_self))

/-- The content is that of a form. -/
def Msg.urlencoded (m : Msg) : Prop :=
  ∃ f, (fieldsNamed (str "Content-Type") m.fields).head? = some f ∧ str "application/x-www-form-urlencoded" <+: f.2

/-- **C140**, what the server does without the coding `chunked`: the first length counts, whatever the others are; of it the number with which
it begins, whatever follows; and other codings do not count. -/
theorem C140_exact (rs : List Route) (mp : Multipart) (bd : Bytes) (stop : Bytes → Nat) (dyn : List Field → Bytes → Endpoint → Reply)
    (close : Bool) {m : Msg} (h : m.Formed)
    (ht : ∀ f, (fieldsNamed (str "Transfer-Encoding") m.fields).head? = some f → f.2.map lower ≠ str "chunked")
    {f : Field} {gs : List Field} (hf : fieldsNamed (str "Content-Length") m.fields = f :: gs) {n : Nat} (hn : Front f.2 n) :
    ∃ d, serveNext rs mp bd stop dyn close m.text = .ok (some d) ∧ d.rest = m.content.drop n ∧
      (m.content.length < n → d.ran = none) ∧ (∀ e hs b, d.ran = some (e, hs, b) → b = m.content.take n ∧ b.length = n) ∧
      (n ≤ m.content.length → ¬ (m.urlencoded ∧ 8192 < n) → ∀ e, routing rs ⟨m.method, parsePath m.target⟩ = some (some e) →
        ∃ hs, d.ran = some (e, hs, m.content.take n) ∧ ∀ k, fieldsNamed k hs = fieldsNamed k m.fields) := by
  obtain ⟨interim, closed, start⟩ := next_formed rs mp bd stop dyn close h
  have hN := fun n => named_msg h.fields n
  have hmulti := formed_multi h
  have hfm : f ∈ m.fields := (List.mem_filter.1 (hf ▸ List.mem_cons_self : f ∈ fieldsNamed (str "Content-Length") m.fields)).1
  have hf0 : ∀ c ∈ f.2, c ≠ 0 := fun c hc e => (h.fields f hfm).2.2.1 c hc (by rw [e]; decide)
  have hlen : contentLength (readHeaders (m.fields.map lineOf)) = n := by
    unfold contentLength
    rw [find_named, hN, hf]
    exact front_length hn hf0
  have hhas : hasField (readHeaders (m.fields.map lineOf)) (str "Content-Length") = true := (hasField_named _ _).2 (by rw [hN, hf]; simp)
  have hch : isChunked (readHeaders (m.fields.map lineOf)) = false := by
    unfold isChunked
    rw [value_msg h.fields]
    cases hx : (fieldsNamed (str "Transfer-Encoding") m.fields).head? with
    | none => decide
    | some g =>
      have := ht g hx
      simpa using this
  have henc : headerValue (readHeaders (m.fields.map lineOf)) (str "Content-Encoding") = [] := headerValue_nil (by rw [hN]; exact h.encoding)
  have hcon : readContent (readHeaders (m.fields.map lineOf)) m.content =
      if m.content.length < n then .ok (.failed 400) else .ok (.read (m.content.take n) (m.content.drop n) []) := by
    unfold readContent
    simp only [henc, hch, hhas, hlen]
    rw [if_neg (by decide)]
    simp
  have hrest : bodyRest mp stop m.method (readHeaders (m.fields.map lineOf)) m.content = m.content.drop n := by
    unfold bodyRest
    simp only [hmulti, Bool.false_and, Bool.false_eq_true, if_false, hhas]
    rw [if_neg (by simp)]
    unfold contentRest
    simp only [henc, hch, hhas, hlen]
    rw [if_neg (by decide)]
    simp
  have hform : startsWith (str "application/x-www-form-urlencoded") (headerValue (readHeaders (m.fields.map lineOf)) (str "Content-Type")) = true ↔ m.urlencoded := by
    rw [value_msg h.fields]
    unfold Msg.urlencoded
    cases hx : (fieldsNamed (str "Content-Type") m.fields).head? with
    | none => simp; decide
    | some g =>
      simp only [Option.map_some, Option.getD_some, Option.some.injEq, exists_eq_left']
      constructor
      · intro hs
        refine Classical.byContradiction fun hx => ?_
        rw [startsWith_false hx] at hs
        cases hs
      · rintro ⟨t, ht⟩
        unfold startsWith
        rw [← ht, List.take_left]
        simp
  have hbody : readBody mp m.method (readHeaders (m.fields.map lineOf)) m.content =
      if m.content.length < n then .ok (.error 400)
      else if startsWith (str "application/x-www-form-urlencoded") (headerValue (readHeaders (m.fields.map lineOf)) (str "Content-Type")) = true ∧ 8192 < n then
        .ok (.error 413) else .ok (.ok (m.content.take n, [])) := by
    unfold readBody
    simp only [hmulti, Bool.false_and, Bool.false_eq_true, if_false, hhas, hcon]
    rw [if_neg (by simp)]
    split
    · rfl
    · rename_i hl
      simp only [bind'_ok, List.length_take, show Nat.min n m.content.length = n from Nat.min_eq_left (by omega)]
  rw [start]
  simp only [hbody, hrest]
  by_cases hl : m.content.length < n
  · rw [if_pos hl]
    exact ⟨_, rfl, rfl, fun _ => rfl, by simp, fun hx => absurd hl (by omega)⟩
  · rw [if_neg hl]
    split
    · rename_i hx
      exact ⟨_, rfl, rfl, fun _ => rfl, by simp, fun _ hy => absurd ⟨hform.1 hx.1, hx.2⟩ hy⟩
    · refine ⟨_, rfl, rfl, fun hx => absurd hx hl, ?_, ?_⟩
      · intro e hs b he
        simp only [runs] at he
        split at he
        · cases he
          exact ⟨rfl, by rw [List.length_take]; exact Nat.min_eq_left (by omega)⟩
        · cases he
      · intro _ _ e he
        simp only [runs, he, List.append_nil]
        exact ⟨_, rfl, hN⟩

theorem denotes_front {v : Bytes} {n : Nat} (h : Denotes v n) (hn : n < 2 ^ 64) : Front v n := by
  have := Front.number v [] n h hn (by simp [NoDigit])
  rwa [List.append_nil] at this

theorem unmeasured_named {m : Msg} {k : Bytes} (hk : ¬ SameName (str "Content-Length") k) :
    fieldsNamed k m.unmeasured.fields = fieldsNamed k m.fields := by
  unfold fieldsNamed Msg.unmeasured
  rw [List.filter_filter]
  refine List.filter_congr fun f _ => ?_
  by_cases h : SameName f.1 k
  · have : ¬ SameName f.1 (str "Content-Length") := fun h' => hk (h'.symm.trans h)
    simp [h, this]
  · simp [h]

/-- **C140**, as far as it goes: with one length, or several that agree, the handler sees that many bytes, and the rest is left; the coding
`chunked` overrides all lengths, but for DELETE. -/
theorem C140_partial (rs : List Route) (mp : Multipart) (bd : Bytes) (stop : Bytes → Nat) (dyn : List Field → Bytes → Endpoint → Reply)
    (close : Bool) {m : Msg} {d : Done} (h : m.Formed) (hd : serveNext rs mp bd stop dyn close m.text = .ok (some d)) :
    (∀ n b, n < 2 ^ 64 → Agreed m.fields n → Done.body d = some b → b = m.content.take n ∧ b.length = n ∧ d.rest = m.content.drop n) ∧
    (m.method ≠ .delete → (∃ f, (fieldsNamed (str "Transfer-Encoding") m.fields).head? = some f ∧ f.2.map lower = str "chunked") →
      ∀ d', serveNext rs mp bd stop dyn close m.unmeasured.text = .ok (some d') → Done.body d = Done.body d' ∧ d.rest = d'.rest) := by
  constructor
  · intro n b hn ⟨ht, hne, hall⟩ hb
    cases hf : fieldsNamed (str "Content-Length") m.fields with
    | nil => exact absurd hf hne
    | cons f gs =>
      obtain ⟨d', e, h1, h2, h3, -⟩ := C140_exact rs mp bd stop dyn close h (by rw [ht]; simp) hf
        (denotes_front (hall f (by rw [hf]; exact List.mem_cons_self)) hn)
      rw [hd] at e
      cases e
      unfold Done.body at hb
      cases hr : d.ran with
      | none => rw [hr] at hb; cases hb
      | some x =>
        obtain ⟨e, hs, b'⟩ := x
        rw [hr] at hb
        cases hb
        exact ⟨(h3 e hs _ hr).1, (h3 e hs _ hr).2, h1⟩
  · rintro hdel ⟨f, hf, hfc⟩ d' hd'
    have hu : m.unmeasured.Formed := by
      refine ⟨h.target, h.size, fun f hf => h.fields f (List.mem_filter.1 hf).1, h.method, ?_, ?_, ?_⟩
      · rw [unmeasured_named (by decide)]; exact h.encoding
      · rw [unmeasured_named (by decide)]; exact h.parts
      · rw [unmeasured_named (by decide)]; exact h.range
    obtain ⟨i1, c1, s1⟩ := next_formed rs mp bd stop dyn close h
    obtain ⟨i2, c2, s2⟩ := next_formed rs mp bd stop dyn close hu
    have hv : ∀ k, ¬ SameName (str "Content-Length") k →
        headerValue (readHeaders (m.unmeasured.fields.map lineOf)) k = headerValue (readHeaders (m.fields.map lineOf)) k := by
      intro k hk
      rw [value_msg hu.fields, value_msg h.fields, unmeasured_named hk]
    have hch : isChunked (readHeaders (m.fields.map lineOf)) = true := by
      unfold isChunked
      rw [value_msg h.fields, hf]
      simpa using hfc
    have hch' : isChunked (readHeaders (m.unmeasured.fields.map lineOf)) = true := by
      rw [isChunked, hv _ (by decide)]
      exact hch
    have hcon : ∀ s, readContent (readHeaders (m.unmeasured.fields.map lineOf)) s = readContent (readHeaders (m.fields.map lineOf)) s := by
      intro s
      unfold readContent
      rw [hv _ (by decide)]
      simp only [hch, hch', if_true]
    have hm : m.unmeasured.method = m.method := rfl
    have hc : m.unmeasured.content = m.content := rfl
    have htg : m.unmeasured.target = m.target := rfl
    have hbody : readBody mp m.method (readHeaders (m.unmeasured.fields.map lineOf)) m.content = readBody mp m.method (readHeaders (m.fields.map lineOf)) m.content := by
      unfold readBody
      simp only [hv _ (show ¬ SameName (str "Content-Length") (str "Content-Type") by decide), hcon, hdel, false_and, if_false]
    have hrest : bodyRest mp stop m.method (readHeaders (m.unmeasured.fields.map lineOf)) m.content = bodyRest mp stop m.method (readHeaders (m.fields.map lineOf)) m.content := by
      unfold bodyRest contentRest
      simp only [hv _ (show ¬ SameName (str "Content-Length") (str "Content-Type") by decide), hv _ (show ¬ SameName (str "Content-Length") (str "Content-Encoding") by decide),
        hcon, hdel, false_and, if_false, hch, hch', if_true]
    rw [hd] at s1
    rw [hd', hm, hc, htg] at s2
    simp only [hbody, hrest] at s1 s2
    cases hb : readBody mp m.method (readHeaders (m.fields.map lineOf)) m.content with
    | ub => rw [hb] at s1; cases s1
    | ok x =>
      rw [hb] at s1 s2
      cases x with
      | error st =>
        simp only [bind'_ok, Outcome.ok.injEq, Option.some.injEq] at s1 s2
        rw [s1, s2]
        exact ⟨rfl, rfl⟩
      | ok p =>
        obtain ⟨b, more⟩ := p
        simp only [bind'_ok, Outcome.ok.injEq, Option.some.injEq] at s1 s2
        rw [s1, s2]
        refine ⟨?_, rfl⟩
        simp only [Done.body, runs]
        cases routing rs ⟨m.method, parsePath m.target⟩ with
        | none => rfl
        | some o => cases o <;> rfl

/-! ## Violations and non-vacuity -/

/-- A request with these fields, three bytes of content and another request behind them. -/
def carrying (fs : List Field) : Msg := ⟨.post, str "/.well-known/brski/requestvoucher", false, fs, str "xyz" ++ hidden⟩

/-- Two lengths: that of the first three bytes and that of all. -/
def twoLengths : List Field := [(str "Content-Length", str "3"), (str "Content-Length", BoolTime.natDec (hidden.length + 3))]

/-- A length that is no number. -/
def noNumber : List Field := [(str "Content-Length", str "+3 and more")]

/-- A coding that does not end with `chunked`. -/
def otherCoding : List Field := [(str "Transfer-Encoding", str "chunked, identity"), (str "Content-Length", str "3")]

/-- A coding that ends with `chunked`. -/
def doubleCoding : List Field := [(str "Transfer-Encoding", str "gzip, chunked"), (str "Content-Length", str "3")]

/-- The fields of these examples: all can be sent, and none is about coding, parts or ranges. -/
def harmless (fs : List Field) : Bool :=
  decide (∀ f ∈ fs, Sendable f) && decide (fieldsNamed (str "Content-Encoding") fs = []) && decide (fieldsNamed (str "Content-Type") fs = []) &&
    decide (fieldsNamed (str "Range") fs = [])

theorem carrying_formed {fs : List Field} (h : harmless fs = true) : (carrying fs).Formed := by
  unfold harmless at h
  simp only [Bool.and_eq_true, decide_eq_true_eq] at h
  obtain ⟨⟨⟨h1, h2⟩, h3⟩, h4⟩ := h
  refine ⟨show str "/.well-known/brski/requestvoucher" ≠ [] ∧ ∀ c ∈ str "/.well-known/brski/requestvoucher", c ∉ [0, 9, 10, 32] by decide,
    show (Msg.line ⟨.post, str "/.well-known/brski/requestvoucher", false, [], []⟩).length + 2 ≤ 8192 by decide, h1,
    show Method.post ∈ withContent by decide, h2, fun f hf => ?_, h4⟩
  rw [show (carrying fs).fields = fs from rfl, h3] at hf
  exact absurd hf (by simp)

/-- What such a request does at the registrar, with handlers that answer with the body: the content the handler saw, and what is left. -/
def doesWith (m : Msg) : Option (Option Bytes × Bytes) :=
  match serveNext registrarRoutes noParts [] (fun _ => 0) (fun _ b _ => ⟨200, b⟩) false m.text with
  | .ok (some d) => some (Done.body d, d.rest)
  | _ => none

/-- **C140** is violated: with two different lengths the first one counts, and the rest is taken for another request; likewise with a length
that is no number and with a coding that is not understood. -/
theorem C140_violated_each : Unclear twoLengths ∧ Unclear noNumber ∧ Unclear otherCoding ∧
    ∀ fs ∈ [twoLengths, noNumber, otherCoding, doubleCoding], (carrying fs).Formed ∧
      doesWith (carrying fs) = some (some (str "xyz"), hidden) ∧
      seen (connection registrarRoutes noParts echoEnv (carrying fs).text) = [(200, some (str "xyz")), (200, some (str "abc"))] := by
  refine ⟨.differ (str "Content-Length", str "3") (str "Content-Length", BoolTime.natDec (hidden.length + 3)) (by decide +kernel) (by decide +kernel) 3 (hidden.length + 3)
      ⟨by decide, by decide, by decide⟩ (natDec_denotes _) (by decide), .number (str "Content-Length", str "+3 and more") (by decide +kernel) (by decide) ?_,
    .coding (str "Transfer-Encoding", str "chunked, identity") (by decide +kernel) (by decide +kernel), ?_⟩
  · intro n hn
    exact absurd (hn.2.1 43 (by decide)) (by decide)
  · intro fs hfs
    simp only [List.mem_cons, List.not_mem_nil, or_false] at hfs
    rcases hfs with rfl | rfl | rfl | rfl
    · exact ⟨carrying_formed (by decide +kernel), by decide +kernel, by decide +kernel⟩
    · exact ⟨carrying_formed (by decide +kernel), by decide +kernel, by decide +kernel⟩
    · exact ⟨carrying_formed (by decide +kernel), by decide +kernel, by decide +kernel⟩
    · exact ⟨carrying_formed (by decide +kernel), by decide +kernel, by decide +kernel⟩

/-- **C140** is violated. -/
theorem C140_violated : ¬ C140_statement := by
  intro h
  obtain ⟨hu, -, -, hall⟩ := C140_violated_each
  obtain ⟨hf, hd, -⟩ := hall twoLengths (by simp)
  unfold doesWith at hd
  split at hd
  · rename_i d he
    have := (h _ _ _ _ _ _ _ d hf he).1 hu
    simp only [Option.some.injEq, Prod.mk.injEq] at hd
    rw [this] at hd
    cases hd.1
  · cases hd

/-- A request with chunks, with a length that would count without them; and a DELETE request with them. -/
def chunkedToo (m : Method) : Msg :=
  ⟨m, str "/.well-known/brski/requestvoucher", false, [(str "transfer-encoding", str "Chunked"), (str "Content-Length", str "3")],
    str "2\r\nab\r\n0\r\n\r\nnext"⟩

/-- The chunks of a DELETE request are read only if there is a length beside them; otherwise they are taken for the next request. -/
theorem C140_violated_delete : doesWith (chunkedToo .delete) = some (none, str "next") ∧
    doesWith (chunkedToo .delete).unmeasured = some (none, (chunkedToo .delete).content) := by
  decide +kernel

/-- Non-vacuity of `C140_partial`: two lengths that agree, and chunks. -/
example : (carrying [(str "Content-Length", str "3"), (str "content-length", str "003")]).Formed ∧
    Agreed [(str "Content-Length", str "3"), (str "content-length", str "003")] 3 ∧
    doesWith (carrying [(str "Content-Length", str "3"), (str "content-length", str "003")]) = some (some (str "xyz"), hidden) ∧
    doesWith (chunkedToo .post) = some (some (str "ab"), str "next") ∧ doesWith (chunkedToo .post).unmeasured = some (some (str "ab"), str "next") := by
  refine ⟨carrying_formed (by decide +kernel), ⟨by decide, by decide, ?_⟩, by decide +kernel, by decide +kernel, by decide +kernel⟩
  intro f hf
  rw [show fieldsNamed (str "Content-Length") [(str "Content-Length", str "3"), (str "content-length", str "003")] =
    [(str "Content-Length", str "3"), (str "content-length", str "003")] by decide +kernel] at hf
  simp only [List.mem_cons, List.not_mem_nil, or_false] at hf
  rcases hf with rfl | rfl
  · exact ⟨by decide, by decide, by decide⟩
  · exact ⟨by decide, by decide, by decide⟩

/-- Non-vacuity of `C140_exact`, for each form of a length. -/
example : Front (str "3, 70") 3 ∧ Front (str "+3 and more") 3 ∧ Front (str "-1") (2 ^ 64 - 1) ∧ Front (str "99999999999999999999") (2 ^ 64 - 1) ∧
    Front (str "all") 0 := by
  refine ⟨.number (str "3") (str ", 70") 3 ⟨by decide, by decide, by decide⟩ (by decide) (by simp [NoDigit]; decide),
    .plus (str "3") (str " and more") 3 ⟨by decide, by decide, by decide⟩ (by decide) ?_,
    .minus (str "1") [] 1 ⟨by decide, by decide, by decide⟩ (by decide) (by decide) (by simp [NoDigit]),
    .large (str "99999999999999999999") [] 99999999999999999999 ⟨by decide, by decide, by decide⟩ (by decide) (by simp [NoDigit]),
    .word 97 (str "ll") (by decide) (by decide)⟩
  intro c hc
  rw [show (str " and more").head? = some 32 by decide] at hc
  cases hc
  decide

end Brski.Props
