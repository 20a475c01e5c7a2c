import Verif.CutForm
import Verif.PropsCut

/-!
# C109 for forms

Multipart content depends on the pieces it arrives in (`C109_violated`).  Here is what holds: a correct form is read, in whatever
pieces it arrives, when the first read of the content contains the first boundary.
-/

namespace Brski.Props
open Outcome Routes Brski.Cut

/-! ## Specification -/

/-- A part of a form: lines of header fields and content. -/
structure FormPart where
  lines : List Bytes
  content : Bytes

/-- `a` comes first right behind `c`, not before and not across the end of `c`. -/
def FirstBehind (a c : Bytes) : Prop := ¬ a <:+: c ++ a.dropLast

/-- What separates parts. -/
def separator (bd : Bytes) : Bytes := [13, 10, 45, 45] ++ bd

/-- A part on the wire, with the separator behind it. -/
def FormPart.text (bd : Bytes) (p : FormPart) : Bytes := p.lines.flatMap (· ++ [13, 10]) ++ [13, 10] ++ p.content ++ separator bd

/-- A form (RFC 2046 section 5.1.1), with or without a line end. -/
def formText (bd : Bytes) (parts : List FormPart) (lineEnd : Bool) : Bytes :=
  [45, 45] ++ bd ++ (parts.flatMap fun p => [13, 10] ++ p.text bd) ++ [45, 45] ++ (if lineEnd then [13, 10] else [])

/-- A correct part: its lines are not empty, not too long, contain no line end and are accepted; its content does not contain the
separator. -/
structure FormPart.Correct (ok : Bytes → Bool) (bd : Bytes) (p : FormPart) : Prop where
  lines : ∀ l ∈ p.lines, l ≠ [] ∧ FirstBehind [13, 10] l ∧ l.length < 8192 ∧ ok l = true
  content : FirstBehind (separator bd) p.content

/-- A text in quotes. -/
def Quoted (v : Bytes) : Prop := ∃ w, v = [34] ++ w ++ [34]

/-- The content type names this boundary: behind the first `boundary=` and up to a semicolon or the end, with or without
quotes. -/
def NamesBoundary (ct bd : Bytes) : Prop :=
  bd ≠ [] ∧ ∃ pre v rest, ct = pre ++ str "boundary=" ++ v ++ rest ∧ FirstBehind (str "boundary=") pre ∧ 59 ∉ v ∧
    (rest = [] ∨ rest.head? = some 59) ∧ (v = [34] ++ bd ++ [34] ∨ v = bd ∧ ¬ Quoted v)

/-- The header announces a form of this length and with this boundary. -/
structure AnnouncesForm (hs : List Field) (bd : Bytes) (len : Nat) : Prop where
  type : str "multipart/form-data" <+: Wire.headerValue hs (str "Content-Type")
  boundary : NamesBoundary (Wire.headerValue hs (str "Content-Type")) bd
  coding : Wire.hasField hs (str "Content-Encoding") = false
  transfer : Wire.hasField hs (str "Transfer-Encoding") = false
  has : Wire.hasField hs (str "Content-Length") = true
  length : Wire.contentLength hs = len

/-- The first read of content of this length finds the preamble and the first boundary with its line end. -/
def FirstWhole (s : Strm) (len : Nat) (pre bd : Bytes) : Prop :=
  ∃ b s', s.read (min len 4096) = .data b s' ∧ pre ++ ([45, 45] ++ bd ++ [13, 10]) <+: b

/-! ## Proofs -/

theorem findAt_le_behind {a : Bytes} (ha : a ≠ []) : ∀ c, findAt a (c ++ a) ≤ c.length
  | [] => by
    cases a with
    | nil => exact absurd rfl ha
    | cons x a =>
      rw [List.nil_append, findAt, if_pos (List.isPrefixOf_iff_prefix.2 (List.prefix_refl _))]
      exact Nat.le_refl _
  | y :: c => by
    rw [List.cons_append, findAt]
    split
    · exact Nat.zero_le _
    · have := findAt_le_behind ha c
      simp only [List.length_cons]
      omega

theorem findAt_behind {a c : Bytes} (ha : a ≠ []) (h : FirstBehind a c) : findAt a (c ++ a) = c.length := by
  have h1 := findAt_le_behind ha c
  have hpos : 0 < a.length := List.length_pos_iff.2 ha
  by_cases hlt : findAt a (c ++ a) < c.length
  · exfalso
    have h2 := findAt_prefix (p := a) (s := c ++ a) (by rw [List.length_append]; omega)
    apply h
    obtain ⟨u, hu⟩ := h2
    have e : c ++ a = (c ++ a).take (findAt a (c ++ a)) ++ (a ++ u) := by rw [hu, List.take_append_drop]
    have hun : u ≠ [] := by
      rintro rfl
      have := congrArg List.length hu
      simp only [List.append_nil, List.length_drop, List.length_append] at this
      omega
    have e2 : c ++ a.dropLast = (c ++ a).dropLast := by rw [List.dropLast_append_of_ne_nil ha]
    rw [e2, e, ← List.append_assoc, List.dropLast_append_of_ne_nil hun]
    exact ⟨_, _, rfl⟩
  · omega

/-- What comes before the first occurrence. -/
theorem firstBehind_take {p s : Bytes} (h : findAt p s < s.length) (hp : p ≠ []) : FirstBehind p (s.take (findAt p s)) := by
  have hpos : 0 < p.length := List.length_pos_iff.2 hp
  rintro ⟨u, v, huv⟩
  have h1 := findAt_le_behind hp u
  have hlen := congrArg List.length huv
  have hfit := findAt_fits h
  simp only [List.length_append, List.length_take, List.length_dropLast] at hlen
  have h2 : findAt p (u ++ p ++ v) = findAt p (u ++ p) :=
    findAt_append (by rw [List.length_append]; omega) v
  obtain ⟨w, hw⟩ := findAt_prefix h
  have h3 : s = s.take (findAt p s) ++ p.dropLast ++ (p.drop (p.length - 1) ++ w) := by
    conv => lhs; rw [← List.take_append_drop (findAt p s) s, ← hw]
    rw [List.append_assoc, List.dropLast_eq_take, ← List.append_assoc (p.take _), List.take_append_drop]
  have h4 := findAt_append (p := p) (s := s.take (findAt p s) ++ p.dropLast) (by
    rw [← huv, h2]; simp only [List.length_append]; omega) (p.drop (p.length - 1) ++ w)
  rw [← h3, ← huv, h2] at h4
  omega

theorem unquote_quoted (w : Bytes) : unquote ([34] ++ w ++ [34]) = w := by
  have h : ([34] ++ w ++ [34] : Bytes).length = w.length + 2 := by simp
  rw [unquote, if_pos ⟨by omega, rfl, List.getLast?_concat⟩, h]
  simp

theorem unquote_plain {v : Bytes} (h : ¬ Quoted v) : unquote v = v := by
  rw [unquote, if_neg]
  rintro ⟨h1, h2, h3⟩
  refine h ?_
  cases v with
  | nil => simp at h2
  | cons c v =>
    simp only [List.head?_cons, Option.some.injEq] at h2
    subst h2
    have hv : v ≠ [] := by rintro rfl; simp at h1
    rw [List.getLast?_eq_some_getLast (by simp), List.getLast_cons hv] at h3
    refine ⟨v.dropLast, ?_⟩
    rw [List.append_assoc, ← Option.some.inj h3, List.dropLast_concat_getLast hv]
    rfl

/-- The boundary is found exactly where the specification puts it. -/
theorem C109_boundary (ct bd : Bytes) : boundaryOf ct = some bd ↔ NamesBoundary ct bd := by
  have hk : str "boundary=" ≠ [] := by decide
  have hkl : (str "boundary=").length = 9 := by decide
  constructor
  · intro h
    unfold boundaryOf at h
    split at h
    · rename_i hf
      simp only at h
      split at h
      · cases h
      · rename_i hv
        have he := Option.some.inj h
        rw [he] at hv
        refine ⟨hv, ct.take (findAt (str "boundary=") ct),
          (ct.drop (findAt (str "boundary=") ct + 9)).takeWhile (· ≠ 59),
          (ct.drop (findAt (str "boundary=") ct + 9)).dropWhile (· ≠ 59), ?_, firstBehind_take hf hk, ?_, ?_, ?_⟩
        · rw [List.append_assoc, List.takeWhile_append_dropWhile]
          obtain ⟨w, hw⟩ := findAt_prefix hf
          have : ct.drop (findAt (str "boundary=") ct + 9) = w := by
            rw [← List.drop_drop, ← hw, ← hkl, List.drop_left]
          rw [this, List.append_assoc, hw, List.take_append_drop]
        · intro hm
          have := List.all_eq_true.1 (List.all_takeWhile (p := (· ≠ (59 : UInt8)))
            (l := ct.drop (findAt (str "boundary=") ct + 9))) 59 hm
          simp at this
        · match hd : (ct.drop (findAt (str "boundary=") ct + 9)).dropWhile (· ≠ 59) with
          | [] => exact .inl hd
          | c :: r =>
            have := List.head_dropWhile_not (· ≠ (59 : UInt8)) (l := ct.drop (findAt (str "boundary=") ct + 9)) (by rw [hd]; simp)
            simp only [hd, List.head_cons] at this
            refine .inr ?_
            rw [hd]
            simpa using this
        · by_cases hq : Quoted ((ct.drop (findAt (str "boundary=") ct + 9)).takeWhile (· ≠ 59))
          · obtain ⟨w, hw⟩ := hq
            rw [hw, unquote_quoted] at he
            exact .inl (by rw [hw, he])
          · rw [unquote_plain hq] at he
            exact .inr ⟨he, hq⟩
    · cases h
  · rintro ⟨hb, pre, v, rest, rfl, hpre, hv, hr, hq⟩
    have hf : findAt (str "boundary=") (pre ++ str "boundary=" ++ v ++ rest) = pre.length := by
      rw [List.append_assoc, findAt_append _ _, findAt_behind hk hpre]
      rw [findAt_behind hk hpre, List.length_append, hkl]; omega
    have hd : (pre ++ str "boundary=" ++ v ++ rest).drop (pre.length + 9) = v ++ rest := by
      rw [← hkl, ← List.length_append, List.append_assoc, List.drop_left]
    have ht : (v ++ rest).takeWhile (· ≠ 59) = v := by
      rw [List.takeWhile_append_of_pos (by intro a ha; simp only [ne_eq, decide_not, Bool.not_eq_true', decide_eq_false_iff_not]; rintro rfl; exact hv ha)]
      rcases hr with rfl | hr
      · simp
      · cases rest with
        | nil => simp
        | cons c r => simp only [List.head?_cons, Option.some.injEq] at hr; subst hr; simp
    unfold boundaryOf
    rw [hf, if_pos (by simp only [List.length_append, hkl]; omega)]
    simp only [hd, ht]
    have : unquote v = bd := by
      rcases hq with rfl | ⟨rfl, hq⟩
      · exact unquote_quoted bd
      · exact unquote_plain hq
    rw [this, if_neg hb]

/-- Concrete cases: the boundary in quotes, followed by another parameter, and an empty one. -/
example : NamesBoundary (str "multipart/form-data; boundary=\"a b\"; x=y") (str "a b") ∧
    NamesBoundary (str "multipart/form-data; boundary=b;x") (str "b") ∧
    (∀ bd, ¬ NamesBoundary (str "multipart/form-data; boundary=") bd) ∧
    ∀ bd, ¬ NamesBoundary (str "multipart/form-data; boundary=\"\"") bd := by
  refine ⟨(C109_boundary _ _).1 (by decide +kernel), (C109_boundary _ _).1 (by decide +kernel), fun bd h => ?_, fun bd h => ?_⟩
  · have h := (C109_boundary _ _).2 h
    rw [show boundaryOf (str "multipart/form-data; boundary=") = none by decide +kernel] at h
    cases h
  · have h := (C109_boundary _ _).2 h
    rw [show boundaryOf (str "multipart/form-data; boundary=\"\"") = none by decide +kernel] at h
    cases h

theorem good_lines {ok : Bytes → Bool} {bd : Bytes} {n : Nat} {t : Bytes} (ht : Good ok bd .headers n t) (ls : List Bytes)
    (h : ∀ l ∈ ls, l ≠ [] ∧ FirstBehind [13, 10] l ∧ l.length < 8192 ∧ ok l = true) :
    Good ok bd .headers n (ls.flatMap (· ++ [13, 10]) ++ t) := by
  induction ls with
  | nil => exact ht
  | cons l ls ih =>
    obtain ⟨h1, h2, h3, h4⟩ := h l List.mem_cons_self
    rw [List.flatMap_cons, List.append_assoc]
    exact .line h1 (findAt_behind (by decide) h2) h3 h4 (ih fun l hl => h l (List.mem_cons_of_mem _ hl))

theorem good_form {ok : Bytes → Bool} {bd : Bytes} {e : Bytes} (he : e = [] ∨ e = [13, 10]) (ps : List FormPart) : ∀ n,
    (∀ p ∈ ps, p.Correct ok bd) → n + ps.length ≤ 1024 →
    Good ok bd .boundary n ((ps.flatMap fun p => [13, 10] ++ p.text bd) ++ ([45, 45] ++ e)) := by
  induction ps with
  | nil => exact fun n _ _ => .last n he
  | cons p ps ih =>
    intro n h hn
    have hp := h p List.mem_cons_self
    rw [List.flatMap_cons]
    simp only [List.length_cons] at hn
    have hg := ih (n + 1) (fun q hq => h q (List.mem_cons_of_mem _ hq)) (by omega)
    have e : [13, 10] ++ p.text bd ++ (ps.flatMap fun p => [13, 10] ++ p.text bd) ++ ([45, 45] ++ e) =
        crlf ++ (p.lines.flatMap (· ++ [13, 10]) ++ (crlf ++ (p.content ++ (crlf ++ dash ++ bd) ++
          ((ps.flatMap fun p => [13, 10] ++ p.text bd) ++ ([45, 45] ++ e))))) := by
      simp only [FormPart.text, separator, crlf, dash, List.append_assoc]
      rfl
    rw [e]
    exact .more (.entry (good_lines (.blank (by omega) (.content (findAt_behind (by simp [crlf]) hp.content) hg)) _ hp.lines))

/-- Reading content of a given length hands over nonempty pieces; the first one is what the first read finds. -/
theorem withLength_first {len : Nat} {s : Strm} (hl : len ≤ s.bytes.length) :
    ∃ (ps : List Bytes) (s' : Strm), ps.flatten = s.bytes.take len ∧ (∀ b ∈ ps, b ≠ []) ∧
      (∀ b t, 0 < len → s.read (min len 4096) = .data b t → ps.head? = some b) ∧
      ∀ {σ : Type} (out : σ → Bytes → Option σ) (x : σ), withLength out len x s = (ps.foldlM out x).map (·, s') := by
  by_cases h0 : len = 0
  · refine ⟨[], s, ?_, by simp, fun _ _ h => absurd h0 (by omega), ?_⟩
    · simp [h0]
    · intro σ out x
      rw [withLength, dif_pos h0]
      rfl
  · have hb : s.bytes ≠ [] := by intro h; rw [h] at hl; simp at hl; exact h0 hl
    obtain ⟨k, hk, hkn, hks, hr⟩ := read_data (n := min len 4096) hb (by omega)
    obtain ⟨ps, s', h1, h2, h3, h4⟩ := withLength_first (len := len - k) (s := ⟨s.bytes.drop k, s.cuts.tail, s.orderly⟩)
      (by simp only [List.length_drop]; omega)
    have hlk : (s.bytes.take k).length = k := by rw [List.length_take]; omega
    refine ⟨s.bytes.take k :: ps, s', ?_, ?_, ?_, ?_⟩
    · rw [List.flatten_cons, h1]
      have : len = k + (len - k) := by omega
      conv => rhs; rw [this]
      rw [List.take_add]
    · intro b hb
      rcases List.mem_cons.1 hb with rfl | hb
      · intro h
        rw [h] at hlk
        simp at hlk
        omega
      · exact h2 b hb
    · intro b t _ hr'
      rw [hr] at hr'
      injection hr' with h5 _
      rw [← h5]
      rfl
    · intro σ out x
      rw [withLength, dif_neg h0]
      split
      · rename_i b t hr'
        rw [hr] at hr'
        have h' : b = s.bytes.take k ∧ t = ⟨s.bytes.drop k, s.cuts.tail, s.orderly⟩ := by
          injection hr' with h1 h2; exact ⟨h1.symm, h2.symm⟩
        obtain ⟨rfl, rfl⟩ := h'
        rw [List.foldlM_cons]
        cases out x (s.bytes.take k) with
        | none => rfl
        | some y =>
          dsimp only
          rw [hlk, h4]
          rfl
      · rename_i hr'
        exact absurd hr (hr' _ _)
termination_by s.bytes.length
decreasing_by simp only [List.length_drop]; omega

/-- The first piece of a form. -/
theorem parse_opening (ok : Bytes → Bool) {bd pre x : Bytes} (hpre : FirstBehind ([45, 45] ++ bd ++ [13, 10]) pre) :
    Parser.parse ok (Parser.new bd) (pre ++ ([45, 45] ++ bd ++ [13, 10]) ++ x) = Parser.loop ok ⟨bd, .entry, false, x, 0⟩ := by
  unfold Parser.parse
  rw [loop_step]
  have ho : ∀ b, (Parser.opening { Parser.new bd with buf := b }) = [45, 45] ++ bd ++ [13, 10] := fun _ => rfl
  have hne : [45, 45] ++ bd ++ [13, 10] ≠ [] := by simp
  generalize hO : [45, 45] ++ bd ++ [13, 10] = O at *
  have hf : findAt O (pre ++ O ++ x) = pre.length := by
    have h1 := findAt_behind hne hpre
    have : 0 < O.length := List.length_pos_iff.2 hne
    rw [findAt_append (by rw [h1, List.length_append]; omega), h1]
  have hb : (Parser.new bd).buf ++ (pre ++ O ++ x) = pre ++ O ++ x := rfl
  simp only [hb, ho, hf]
  rw [if_neg (by intro h; exact hne (List.append_eq_nil_iff.1 (List.append_eq_nil_iff.1 h).1).2)]
  show (if O.length > (List.drop pre.length (pre ++ O ++ x)).length then _ else _) = _
  rw [List.append_assoc, List.drop_left, if_neg (by rw [List.length_append]; omega),
    if_pos (List.isPrefixOf_iff_prefix.2 (List.prefix_append _ _)), List.drop_left]
  rfl

theorem value_absent {hs : List Field} {k : Bytes} (h : Wire.hasField hs k = false) : Wire.headerValue hs k = [] := by
  unfold Wire.hasField at h
  unfold Wire.headerValue
  rw [List.find?_eq_none.2 fun x hx => by rw [List.any_eq_false] at h; exact h x hx]
  rfl

/-- **C109** for forms: a correct form is read, whatever the pieces, when the first boundary is not cut. -/
theorem C109_form (ok : Bytes → Bool) (m : Method) {hs : List Field} {bd pre : Bytes} {parts : List FormPart} {lineEnd : Bool} {s : Strm}
    {more : Bytes} (hh : AnnouncesForm hs bd (pre ++ formText bd parts lineEnd).length) (hp : ∀ p ∈ parts, p.Correct ok bd)
    (hn : parts ≠ [] ∧ parts.length ≤ 1024) (hpre : FirstBehind ([45, 45] ++ bd ++ [13, 10]) pre)
    (hs' : s.bytes = pre ++ formText bd parts lineEnd ++ more) (hw : FirstWhole s (pre ++ formText bd parts lineEnd).length pre bd) :
    readBody ok m hs s = .ok (.ok ([], [])) := by
  obtain ⟨b, t, hr, x, hb⟩ := hw
  generalize hL : (pre ++ formText bd parts lineEnd).length = len at *
  have hpos : 0 < len := by
    rw [← hL]
    simp [formText]
    omega
  obtain ⟨ps, s2, h1, h2, h3, h4⟩ := withLength_first (len := len) (s := s) (by rw [hs', List.length_append, hL]; omega)
  have hread : ∃ q, ps.foldlM (Parser.parse ok) (Parser.new bd) = some q ∧ q.valid = true := by
    have hhead := h3 b t hpos hr
    cases ps with
    | nil => cases hhead
    | cons b' ps =>
      cases hhead
      have htake : s.bytes.take len = pre ++ formText bd parts lineEnd := by
        rw [hs', ← hL, List.take_left]
      rw [htake, List.flatten_cons, ← hb] at h1
      obtain ⟨p0, parts', rfl⟩ : ∃ p ps, parts = p :: ps := by
        cases parts with
        | nil => exact absurd rfl hn.1
        | cons p ps => exact ⟨p, ps, rfl⟩
      have hg := good_form (ok := ok) (bd := bd) (e := if lineEnd then [13, 10] else []) (by cases lineEnd <;> simp) (p0 :: parts') 0 hp
        (by rw [Nat.zero_add]; exact hn.2)
      rw [List.flatMap_cons] at hg
      have hx : x ++ ps.flatten = p0.text bd ++ (parts'.flatMap fun p => [13, 10] ++ p.text bd) ++ ([45, 45] ++ if lineEnd then [13, 10] else []) := by
        have : pre ++ ([45, 45] ++ bd ++ [13, 10]) ++ (x ++ ps.flatten) = pre ++ ([45, 45] ++ bd ++ [13, 10]) ++
            (p0.text bd ++ (parts'.flatMap fun p => [13, 10] ++ p.text bd) ++ ([45, 45] ++ if lineEnd then [13, 10] else [])) := by
          rw [← List.append_assoc, h1]
          simp only [formText, List.flatMap_cons, List.append_assoc]
        exact List.append_cancel_left this
      have hg' : Good ok bd .entry 0 (x ++ ps.flatten) := by
        rw [hx]
        generalize hE : ([45, 45] ++ if lineEnd then [13, 10] else [] : Bytes) = E at *
        have e : [13, 10] ++ p0.text bd ++ (parts'.flatMap fun p => [13, 10] ++ p.text bd) ++ E =
            crlf ++ (p0.text bd ++ (parts'.flatMap fun p => [13, 10] ++ p.text bd) ++ E) := by
          simp only [crlf, List.append_assoc]
        rw [e] at hg
        generalize p0.text bd ++ (parts'.flatMap fun p => [13, 10] ++ p.text bd) ++ E = u at hg
        generalize hv : crlf ++ u = v at hg
        cases hg with
        | last n he => exact absurd hv (by simp [crlf, dash])
        | more h => rw [List.append_cancel_left hv]; exact h
      rw [List.foldlM_cons]
      obtain ⟨q, k1, k2⟩ := loop_good ⟨bd, .entry, false, x, 0⟩ ps.flatten hg'
      rw [← hb, parse_opening ok hpre, k1]
      have hps' : ∀ y ∈ ps, y ≠ [] := fun y hy => h2 y (List.mem_cons_of_mem _ hy)
      show ∃ q', ps.foldlM (Parser.parse ok) q = some q' ∧ q'.valid = true
      rcases k2 with k2 | ⟨k2, k3⟩
      · exact pieces_finished ps k2 hps'
      · exact pieces_good ps k3 (by rintro rfl; exact k2 rfl) hps'
  obtain ⟨q, hq, hv⟩ := hread
  have henc : Wire.headerValue hs (str "Content-Encoding") = [] := value_absent hh.coding
  have hch : Wire.isChunked hs = false := by
    unfold Wire.isChunked
    rw [value_absent hh.transfer]
    decide
  have htype : Wire.startsWith (str "multipart/form-data") (Wire.headerValue hs (str "Content-Type")) = true := by
    simp only [Wire.startsWith, beq_iff_eq]
    exact (List.prefix_iff_eq_take.1 hh.type).symm
  unfold readBody readContent
  simp only [htype, if_true, (C109_boundary _ _).2 hh.boundary, hh.has, henc, hch, hh.length, h4, hq]
  rw [if_neg (by simp), if_neg (by decide)]
  simp [hv, Outcome.bind]

/-- **C109** for requests with forms: the reply depends on the bytes only, for all arrivals that do not cut the first boundary. -/
theorem C109_form_reply (rs : List Route) (ok : Bytes → Bool) (dyn : List Field → Bytes → Endpoint → Reply) (close : Bool) {s r r' : Strm}
    {l : Bytes} {line : Line} {ls : List Bytes} {bd pre : Bytes} {parts : List FormPart} {lineEnd : Bool} {more : Bytes}
    (h1 : getline [] s = some (l, r)) (h2 : l.length ≤ 8192) (h3 : parseRequestLine l = some line)
    (h4 : Wire.expectsContent line.method = true) (h5 : readLines r = (ls, some r'))
    (hh : AnnouncesForm (readHeaders ls) bd (pre ++ formText bd parts lineEnd).length) (hp : ∀ p ∈ parts, p.Correct ok bd)
    (hn : parts ≠ [] ∧ parts.length ≤ 1024) (hpre : FirstBehind ([45, 45] ++ bd ++ [13, 10]) pre)
    (hs' : r'.bytes = pre ++ formText bd parts lineEnd ++ more) (hw : FirstWhole r' (pre ++ formText bd parts lineEnd).length pre bd) :
    serve rs ok dyn close s = .ok (some (process rs (dyn (readHeaders ls) []) (Wire.closes close (readHeaders ls)) l)) := by
  unfold serve
  rw [h1]
  simp only
  rw [if_neg (by omega), h3]
  simp only [h5, h4, if_true, C109_form ok line.method hh hp hn hpre hs' hw, bind'_ok, List.append_nil]

/-- A part with a line of header fields. -/
def namedPart : FormPart := ⟨[str "Content-Disposition: form-data; name=a"], str "--b"⟩

instance (a c : Bytes) : Decidable (FirstBehind a c) := inferInstanceAs (Decidable (¬ a <:+: c ++ a.dropLast))

/-- The header fields of a request with a form. -/
def namedFields (len : Nat) : List Field :=
  [(str "Content-Type", str "multipart/form-data; boundary=b"), (str "Content-Length", BoolTime.natDec len)]

/-- Whether content was read, or the status of the refusal. -/
def readsForm : Outcome (Except Nat (Bytes × List Bytes)) → Option Nat
  | .ok (.ok _) => none
  | .ok (.error n) => some n
  | .ub => some 0

/-- Non-vacuity of C109 for forms: the form arrives in pieces of 9 bytes, then of 1. -/
example :
    let f := str "hi\r\n" ++ formText (str "b") [namedPart, namedPart] true
    let s : Strm := ⟨f ++ str "GET", [9, 9, 9] ++ List.replicate 200 1, true⟩
    AnnouncesForm (namedFields f.length) (str "b") f.length ∧ (∀ p ∈ [namedPart, namedPart], p.Correct (fun _ => true) (str "b")) ∧
      FirstBehind ([45, 45] ++ str "b" ++ [13, 10]) (str "hi\r\n") ∧ FirstWhole s f.length (str "hi\r\n") (str "b") ∧
      readsForm (readBody (fun _ => true) .post (namedFields f.length) s) = none := by
  refine ⟨⟨by decide +kernel, (C109_boundary _ _).1 (by decide +kernel), by decide +kernel, by decide +kernel, by decide +kernel, by decide +kernel⟩, ?_,
    by decide +kernel, ⟨_, _, rfl, by decide +kernel⟩, by decide +kernel⟩
  intro p hp
  have : p = namedPart := by simpa using hp
  subst this
  refine ⟨?_, by decide +kernel⟩
  intro l hl
  have : l = str "Content-Disposition: form-data; name=a" := by simpa [namedPart] using hl
  subst this
  decide +kernel

/-- Non-vacuity of the theorem about replies: the request of `form_cut` whose content arrives in pieces of 8, 1, 3 and more bytes. -/
example :
    let s : Strm := ⟨formHead ++ formBody, List.replicate formHead.length 1 ++ [8, 1, 3], true⟩
    formBody = [] ++ formText (str "b") [⟨[], str "x"⟩] true ∧ FirstBehind ([45, 45] ++ str "b" ++ [13, 10]) [] ∧
      FirstBehind (separator (str "b")) (str "x") ∧ FirstWhole ⟨formBody, [8, 1, 3], true⟩ formBody.length [] (str "b") ∧
      (getline [] s).map (fun p => ((parseRequestLine p.1).map (·.method), (readLines p.2).2)) =
        some (some .post, some ⟨formBody, [8, 1, 3], true⟩) ∧
      formAnswer s.cuts = .ok (some 200) :=
  ⟨by decide +kernel, by decide +kernel, by decide +kernel, ⟨_, _, rfl, by decide +kernel⟩, by decide +kernel, form_cut.2.1⟩

/-- Cut one byte earlier it is refused. -/
example :
    let f := str "hi\r\n" ++ formText (str "b") [namedPart] true
    readsForm (readBody (fun _ => true) .post (namedFields f.length) ⟨f, [8], true⟩) = some 400 := by
  decide +kernel

end Brski.Props
