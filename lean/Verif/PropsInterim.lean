import Verif.PropsAmbiguous

/-!
# C142: interim replies
-/

namespace Brski.Props
open Outcome Routes Wire

/-! ## Specification -/

/-- An interim reply (RFC 9110 section 15.2): status, reason and fields; it has no content. -/
structure Interim where
  code : Nat
  reason : Bytes
  fields : List Field

/-- The status is 1xx, the reason is a text without line end, the fields can be sent and their names are tokens, so that they have no
slash. -/
structure Interim.Valid (i : Interim) : Prop where
  informs : 100 ≤ i.code ∧ i.code < 200
  plain : ∀ c ∈ i.reason, c ∉ [0, 10, 13]
  fields : ∀ f ∈ i.fields, Sendable f ∧ (47 : UInt8) ∉ f.1

/-- An interim reply as it is sent. -/
def Interim.text (i : Interim) : Bytes :=
  str "HTTP/1.1 " ++ BoolTime.natDec i.code ++ [32] ++ i.reason ++ [13, 10] ++ ((i.fields.map lineOf).flatMap (· ++ [13, 10]) ++ [13, 10])

/-- **C142** as stated: what follows interim replies is read as if they had not been sent. -/
def C142_statement : Prop :=
  ∀ (is : List Interim), (∀ i ∈ is, i.Valid) → ∀ s : Bytes, readReply (is.flatMap Interim.text ++ s) = readReply s

/-! ## Lines -/

theorem statusOf_reason {st : Nat} (h : 100 ≤ st) (h' : st < 1000) {t : Bytes} (ht : ∀ c ∈ t, c ∉ [0, 10, 13]) :
    statusOf (str "HTTP/1.1 " ++ BoolTime.natDec st ++ [32] ++ t ++ [13, 10]) = some st := by
  have hpl : ∀ c ∈ str "HTTP/1.1 " ++ BoolTime.natDec st ++ [32] ++ t ++ [13, 10], c ≠ 0 := by
    intro c hc e
    simp only [List.mem_append] at hc
    rcases hc with (((hc | hc) | hc) | hc) | hc
    · have : ∀ c ∈ str "HTTP/1.1 ", c ≠ 0 := by decide
      exact this c hc e
    · exact natDec_plain st c hc (by rw [e]; decide)
    · rw [e] at hc; revert hc; decide
    · exact ht c hc (by rw [e]; decide)
    · rw [e] at hc; revert hc; decide
  unfold statusOf
  rw [cstr_id hpl]
  have e : str "HTTP/1.1 " ++ BoolTime.natDec st ++ [32] ++ t ++ [13, 10] = str "HTTP/1.1 " ++ (BoolTime.natDec st ++ ([32] ++ t ++ [13, 10])) := by
    simp only [List.append_assoc]
  rw [e]
  have e9 : (str "HTTP/1.1 ").length = 9 := by decide
  have e3 : (BoolTime.natDec st).length = 3 := by rw [natDec_small st h h']; rfl
  have t9 : (str "HTTP/1.1 " ++ (BoolTime.natDec st ++ ([32] ++ t ++ [13, 10]))).take 9 = str "HTTP/1.1 " := List.take_left' e9
  have d9 : (str "HTTP/1.1 " ++ (BoolTime.natDec st ++ ([32] ++ t ++ [13, 10]))).drop 9 = BoolTime.natDec st ++ ([32] ++ t ++ [13, 10]) :=
    List.drop_left' e9
  have d12 : (str "HTTP/1.1 " ++ (BoolTime.natDec st ++ ([32] ++ t ++ [13, 10]))).drop 12 = [32] ++ t ++ [13, 10] := by
    have : (12 : Nat) = 9 + 3 := rfl
    rw [this, ← List.drop_drop, d9]
    exact List.drop_left' e3
  simp only [t9, d9, d12]
  rw [List.take_left' e3, digits_dec (natDec_denotes st).2.1, natDec_small st h h']
  simp only [List.map_cons, List.map_nil, or_true, if_true]
  rw [if_pos]
  · simp only [dig_toNat (show st / 100 < 10 by omega), dig_toNat (show st / 10 % 10 < 10 by omega),
      dig_toNat (show st % 10 < 10 by omega), Option.some.injEq]
    omega
  · refine .inr ⟨rfl, endsCrlf_crlf _, ?_⟩
    intro c hc
    simp only [List.length_append, List.length_cons, List.length_nil, Nat.add_sub_cancel] at hc
    rw [List.take_left' (by simp [Nat.add_comm])] at hc
    rcases List.mem_append.1 hc with hc | hc
    · rw [List.mem_singleton.1 hc]; decide
    · have := ht c hc
      simp only [List.mem_cons, List.not_mem_nil, or_false, not_or] at this
      exact ⟨this.2.1, this.2.2⟩

/-- A line of a field is no status line. -/
theorem statusOf_field {f : Field} (hf : Sendable f) (hs : (47 : UInt8) ∉ f.1) : statusOf (lineOf f ++ [13, 10]) = none := by
  have key : ∀ (v : UInt8) (n t r : Bytes), (47 : UInt8) ∉ n → n ++ 58 :: t ≠ 72 :: 84 :: 84 :: 80 :: 47 :: r := by
    intro _ n t r hn e
    match n with
    | [] => cases e
    | [a] => simp at e
    | [a, b] => simp at e
    | [a, b, c] => simp at e
    | [a, b, c, d] => simp at e
    | a :: b :: c :: d :: x :: n =>
      simp only [List.cons_append, List.cons.injEq] at e
      exact hn (by rw [e.2.2.2.2.1]; simp)
  have h0 : ∀ c ∈ lineOf f ++ [13, 10], c ≠ 0 := by
    intro c hc e
    unfold lineOf at hc
    simp only [List.mem_append] at hc
    rcases hc with (((hc | hc) | hc) | hc) | hc
    · exact hf.2.1 c hc (by rw [e]; decide)
    · rw [e] at hc; revert hc; decide
    · rw [e] at hc; revert hc; decide
    · exact hf.2.2.1 c hc (by rw [e]; decide)
    · rw [e] at hc; revert hc; decide
  have no : ∀ w : Bytes, w.take 5 = [72, 84, 84, 80, 47] → w.length = 9 → (lineOf f ++ [13, 10]).take 9 ≠ w := by
    intro w h5 _ e
    have := congrArg (List.take 5) e
    rw [List.take_take, h5] at this
    have hsplit := List.take_append_drop 5 (lineOf f ++ [13, 10])
    rw [show min 5 9 = 5 from rfl] at this
    rw [this] at hsplit
    unfold lineOf at hsplit
    simp only [List.append_assoc, List.cons_append, List.nil_append] at hsplit
    exact key 0 _ _ _ hs hsplit.symm
  unfold statusOf
  rw [cstr_id h0]
  dsimp only
  rw [if_neg]
  rintro (h | h)
  · exact no _ (by decide) (by decide) h
  · exact no _ (by decide) (by decide) h

theorem statusOf_blank : statusOf [13, 10] = none := by decide

/-- One step of `readStatus`. -/
theorem readStatus_first {s l r : Bytes} (h : getLine s = some (l, r)) :
    readStatus s = match statusOf l with
      | none => none
      | some st => if st = 100 then (match getLine r with | none => none | some (_, r2) => readStatus r2) else some (st, r) := by
  rw [readStatus]
  split
  · rename_i he; rw [h] at he; cases he
  · rename_i l' r' he
    rw [h] at he
    cases he
    cases statusOf l with
    | none => rfl
    | some st =>
      dsimp only
      split
      · split
        · rename_i hg; rw [hg]
        · rename_i hg; rw [hg]
      · rfl

/-! ## One interim reply -/

theorem Interim.Valid.line {i : Interim} (h : i.Valid) (s : Bytes) :
    getLine (i.text ++ s) = some (str "HTTP/1.1 " ++ BoolTime.natDec i.code ++ [32] ++ i.reason ++ [13, 10],
      (i.fields.map lineOf).flatMap (· ++ [13, 10]) ++ [13, 10] ++ s) := by
  have h10 : (10 : UInt8) ∉ str "HTTP/1.1 " ++ BoolTime.natDec i.code ++ [32] ++ i.reason := by
    intro hc
    simp only [List.mem_append] at hc
    rcases hc with ((hc | hc) | hc) | hc
    · revert hc; decide
    · exact natDec_plain _ _ hc (by decide)
    · revert hc; decide
    · exact h.plain _ hc (by decide)
  have := getLine_crlf ((i.fields.map lineOf).flatMap (· ++ [13, 10]) ++ [13, 10] ++ s) h10
  unfold Interim.text
  simp only [List.append_assoc] at this ⊢
  exact this

theorem Interim.Valid.status {i : Interim} (h : i.Valid) :
    statusOf (str "HTTP/1.1 " ++ BoolTime.natDec i.code ++ [32] ++ i.reason ++ [13, 10]) = some i.code :=
  statusOf_reason h.informs.1 (by have := h.informs.2; omega) h.plain

theorem status_plain {i : Interim} (h : i.Valid) (hc : i.code = 100) (hf : i.fields = []) (s : Bytes) : readStatus (i.text ++ s) = readStatus s := by
  rw [readStatus_first (h.line s), h.status]
  dsimp only
  rw [if_pos hc, hf]
  have : getLine (([] : List Bytes).flatMap (· ++ [13, 10]) ++ [13, 10] ++ s) = some ([13, 10], s) := getLine_crlf (x := []) s (by simp)
  rw [List.map_nil, this]

theorem status_fields {i : Interim} (h : i.Valid) (hc : i.code = 100) (hf : i.fields ≠ []) (s : Bytes) : readStatus (i.text ++ s) = none := by
  rw [readStatus_first (h.line s), h.status]
  dsimp only
  rw [if_pos hc]
  obtain ⟨f, fs, e⟩ : ∃ f fs, i.fields = f :: fs := by
    cases he : i.fields with
    | nil => exact absurd he hf
    | cons f fs => exact ⟨f, fs, rfl⟩
  have hall : ∀ g ∈ f :: fs, Sendable g ∧ (47 : UInt8) ∉ g.1 := e ▸ h.fields
  rw [e]
  have g1 := getLine_crlf ((fs.map lineOf).flatMap (· ++ [13, 10]) ++ [13, 10] ++ s) (readable_line (hall f List.mem_cons_self).1).1
  have eq : ((f :: fs).map lineOf).flatMap (· ++ [13, 10]) ++ [13, 10] ++ s =
      lineOf f ++ [13, 10] ++ ((fs.map lineOf).flatMap (· ++ [13, 10]) ++ [13, 10] ++ s) := by
    simp only [List.map_cons, List.flatMap_cons, List.append_assoc]
  rw [eq, g1]
  dsimp only
  cases fs with
  | nil =>
    have : getLine (([] : List Bytes).flatMap (· ++ [13, 10]) ++ [13, 10] ++ s) = some ([13, 10], s) := getLine_crlf (x := []) s (by simp)
    rw [List.map_nil, readStatus_first this, statusOf_blank]
  | cons g gs =>
    have hg := hall g (by simp)
    have g2 := getLine_crlf ((gs.map lineOf).flatMap (· ++ [13, 10]) ++ [13, 10] ++ s) (readable_line hg.1).1
    have eq : ((g :: gs).map lineOf).flatMap (· ++ [13, 10]) ++ [13, 10] ++ s =
        lineOf g ++ [13, 10] ++ ((gs.map lineOf).flatMap (· ++ [13, 10]) ++ [13, 10] ++ s) := by
      simp only [List.map_cons, List.flatMap_cons, List.append_assoc]
    rw [eq, readStatus_first g2, statusOf_field hg.1 hg.2]

theorem status_other {i : Interim} (h : i.Valid) (hc : i.code ≠ 100) (s : Bytes) :
    readStatus (i.text ++ s) = some (i.code, (i.fields.map lineOf).flatMap (· ++ [13, 10]) ++ [13, 10] ++ s) := by
  rw [readStatus_first (h.line s), h.status]
  dsimp only
  rw [if_neg hc]

theorem interim_lines {i : Interim} (h : i.Valid) (s : Bytes) :
    readLines ((i.fields.map lineOf).flatMap (· ++ [13, 10]) ++ [13, 10] ++ s) = (i.fields.map lineOf, some s) := by
  refine readLines_all ?_ s
  intro l hl
  obtain ⟨f, hf, rfl⟩ := List.mem_map.1 hl
  exact readable_line (h.fields f hf).1

theorem readReply_status {s t : Bytes} (h : readStatus s = readStatus t) : readReply s = readReply t := by
  unfold readReply
  rw [h]

/-! ## C142 -/

/-- **C142**, the part that holds: any number of replies `100 Continue` without fields make no difference. -/
theorem C142_partial (is : List Interim) (h : ∀ i ∈ is, i.Valid ∧ i.code = 100 ∧ i.fields = []) (s : Bytes) :
    readReply (is.flatMap Interim.text ++ s) = readReply s := by
  induction is with
  | nil => rfl
  | cons i is ih =>
    obtain ⟨h1, h2, h3⟩ := h i List.mem_cons_self
    rw [List.flatMap_cons, List.append_assoc, readReply_status (status_plain h1 h2 h3 _), ih fun j hj => h j (List.mem_cons_of_mem _ hj)]

/-- After `100 Continue` with a field the reply is lost, whatever it is. -/
theorem C142_fields {i : Interim} (h : i.Valid) (hc : i.code = 100) (hf : i.fields ≠ []) (s : Bytes) : readReply (i.text ++ s) = .ok none := by
  unfold readReply
  rw [status_fields h hc hf s]

/-- Any other interim reply is taken for the reply, and what follows, the reply itself, for its content; unless its fields announce some
content. -/
theorem C142_taken {i : Interim} (h : i.Valid) (hc : i.code ≠ 100)
    (hf : ∀ k ∈ [str "Content-Encoding", str "Transfer-Encoding", str "Content-Length"], fieldsNamed k i.fields = []) (s : Bytes) :
    readReply (i.text ++ s) = .ok (some (i.code, s)) := by
  have hn := named_msg (fun f hf => (h.fields f hf).1)
  unfold readReply
  rw [status_other h hc s]
  dsimp only
  rw [interim_lines h s]
  dsimp only
  have h1 := hf (str "Content-Encoding") (by simp)
  have h2 := hf (str "Transfer-Encoding") (by simp)
  have h3 := hf (str "Content-Length") (by simp)
  rw [← hn] at h1 h2 h3
  have hch : isChunked (readHeaders (i.fields.map lineOf)) = false := by
    unfold isChunked
    rw [headerValue_nil h2]
    decide
  have hl : hasField (readHeaders (i.fields.map lineOf)) (str "Content-Length") = false := by
    refine Classical.byContradiction fun hx => ?_
    exact (hasField_named _ _).1 (by simpa using hx) h3
  rw [if_neg (by have := h.informs.2; omega)]
  unfold readContent
  dsimp only
  rw [headerValue_nil h1, if_neg (by decide), hch, hl]
  simp [bind'_ok]

/-- A reply of 200 with the body `ok`. -/
def okReply : Bytes := str "HTTP/1.1 200 OK" ++ [13, 10] ++ str "Content-Length: 2" ++ [13, 10, 13, 10] ++ str "ok"

theorem okReply_read : readReply okReply = .ok (some (200, str "ok")) := by decide +kernel

/-- Exactly the replies `100 Continue` without fields are skipped. -/
theorem C142_exact {i : Interim} (h : i.Valid) : (∀ s, readReply (i.text ++ s) = readReply s) ↔ i.code = 100 ∧ i.fields = [] := by
  constructor
  · intro hs
    have hs := hs okReply
    rw [okReply_read] at hs
    by_cases hc : i.code = 100
    · refine ⟨hc, Classical.byContradiction fun hf => ?_⟩
      rw [C142_fields h hc hf] at hs
      cases hs
    · exfalso
      unfold readReply at hs
      rw [status_other h hc] at hs
      dsimp only at hs
      rw [interim_lines h] at hs
      dsimp only at hs
      have hlt := h.informs.2
      rw [if_neg (by omega)] at hs
      cases hr : readContent (readHeaders (i.fields.map lineOf)) okReply with
      | ub => rw [hr] at hs; cases hs
      | ok c =>
        rw [hr] at hs
        cases c with
        | failed st => cases hs
        | read b r t =>
          simp only [bind'_ok] at hs
          injection hs with hs
          injection hs with hs
          injection hs with hs _
          omega
  · rintro ⟨hc, hf⟩ s
    exact readReply_status (status_plain h hc hf s)

/-- `103 Early Hints` (RFC 8297). -/
def earlyHints : Interim := ⟨103, str "Early Hints", [(str "Link", str "</style.css>; rel=preload")]⟩

/-- `100 Continue` with a date. -/
def datedContinue : Interim := ⟨100, str "Continue", [(str "Date", str "Tue, 17 Nov 2026 04:00:00 GMT")]⟩

/-- `100 Continue`. -/
def plainContinue : Interim := ⟨100, str "Continue", []⟩

theorem earlyHints_valid : earlyHints.Valid := ⟨by decide, by decide, by decide +kernel⟩

theorem datedContinue_valid : datedContinue.Valid := ⟨by decide, by decide, by decide +kernel⟩

theorem plainContinue_valid : plainContinue.Valid := ⟨by decide, by decide, by decide⟩

/-- **C142** is violated: the reply arrives as the content of the interim reply before it; and not at all behind `100 Continue` with a date. -/
theorem C142_violated_each : readReply (earlyHints.text ++ okReply) = .ok (some (103, okReply)) ∧
    readReply (datedContinue.text ++ okReply) = .ok none :=
  ⟨C142_taken earlyHints_valid (by decide) (by decide) _, C142_fields datedContinue_valid rfl (by decide) _⟩

/-- **C142** is violated. -/
theorem C142_violated : ¬ C142_statement := by
  intro h
  have := h [earlyHints] (by intro i hi; rw [List.mem_singleton.1 hi]; exact earlyHints_valid) okReply
  simp only [List.flatMap_cons, List.flatMap_nil, List.append_nil] at this
  rw [C142_violated_each.1, okReply_read] at this
  revert this
  decide

/-- Non-vacuity of `C142_partial`: two replies `100 Continue`. -/
example : readReply ([plainContinue, plainContinue].flatMap Interim.text ++ okReply) = .ok (some (200, str "ok")) := by
  rw [C142_partial _ (by intro i hi; simp only [List.mem_cons, List.not_mem_nil, or_false, or_self] at hi; rw [hi]; exact ⟨plainContinue_valid, rfl, rfl⟩),
    okReply_read]

end Brski.Props
