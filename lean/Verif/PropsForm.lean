import Verif.FormReads
import Verif.PropsTarget
import Verif.PropsRanges

/-!
# How multipart content is taken apart: C135, C136
-/

namespace Brski.Props
open Outcome Routes Scan Form
open Cut (findAt crlf dash findAt_append)

/-! ## C135 -/

/-- What is in use of the buffer. -/
def inUse (b : Buf) : Bytes := (b.data.take b.epos).drop b.spos

theorem holds_inUse {b : Buf} {v : Bytes} (h : Holds b v) : b.spos ≤ b.epos ∧ b.epos ≤ b.data.length ∧ inUse b = v := by
  obtain ⟨x, y, rfl⟩ := h
  refine ⟨Nat.le_add_right _ _, by simp only [List.length_append]; omega, ?_⟩
  show ((x ++ (v ++ y)).take (x.length + v.length)).drop x.length = v
  rw [← List.append_assoc, ← List.length_append, List.take_left, List.drop_left]

/-- What was read and what is still in the buffer, for a parser that has got the bytes `t`. -/
structure Kept (l : View) (t : Bytes) : Prop where
  rest : l.buf <:+ t
  contents : ∀ f ∈ l.files, f.content <:+: t
  current : l.phase = .body → ∃ fs f, l.files = fs ++ [f] ∧ f.content ++ l.buf <:+ t
  file : l.file.content = []

theorem readLine_content {f g : File} {h : Bytes} (e : readLine f h = some g) : g.content = f.content := by
  unfold readLine at e
  split at e
  · cases e
  · split at e
    · cases e; rfl
    · split at e
      · cases e; rfl
      · dsimp only at e
        split at e
        · cases e
        · split at e
          · cases e
            split <;> rfl
          · obtain ⟨y, _, rfl⟩ := Option.map_eq_some_iff.1 e
            split <;> rfl

theorem kept_heads {l : View} {t : Bytes} (h : Kept l t) (hp : l.phase = .headers) : ∀ m, l.heads = .go m ∨ l.heads = .wait m → Kept m t := by
  rw [View.heads]
  split
  · rename_i hlt
    split
    · rename_i h0
      split
      · rintro m (e | e) <;> cases e
      · rintro m (e | e)
        · cases e
          have hs : l.buf.drop 2 <:+ t := (List.drop_suffix 2 l.buf).trans h.rest
          refine ⟨hs, ?_, fun _ => ⟨l.files, l.file, rfl, by rw [h.file]; exact hs⟩, h.file⟩
          intro f hf
          rcases List.mem_append.1 hf with hf | hf
          · exact h.contents f hf
          · rw [List.mem_singleton.1 hf, h.file]
            exact ⟨[], t, rfl⟩
        · cases e
    · split
      · rintro m (e | e) <;> cases e
      · rename_i g hg
        have h' : Kept { l with file := g, buf := l.buf.drop (findAt crlf l.buf + 2) } t :=
          ⟨(List.drop_suffix _ l.buf).trans h.rest, h.contents, fun e => absurd (hp.symm.trans e) (by decide), (readLine_content hg).trans h.file⟩
        exact kept_heads h' hp
  · rintro m (e | e)
    · cases e
    · cases e; exact h
termination_by l.buf.length
decreasing_by
  simp only [List.length_drop]
  have := Cut.findAt_fits (by assumption)
  omega

theorem longer_last : ∀ (fs : List File) (f : File) (x : Bytes), longer (fs ++ [f]) x = fs ++ [{ f with content := f.content ++ x }]
  | [], _, _ => rfl
  | [a], f, x => rfl
  | a :: b :: fs, f, x => by
    have ih := longer_last (b :: fs) f x
    simp only [List.cons_append] at ih ⊢
    rw [longer, ih]

theorem kept_turn {l : View} {t : Bytes} (h : Kept l t) : ∀ m, l.turn = .go m ∨ l.turn = .wait m → Kept m t := by
  have drop : ∀ (n : Nat), l.buf.drop n <:+ t := fun n => (List.drop_suffix n l.buf).trans h.rest
  have part : l.phase = .body → ∀ n, (∀ f ∈ longer l.files (l.buf.take n), f.content <:+: t) ∧
      ∃ fs f, longer l.files (l.buf.take n) = fs ++ [f] ∧ f.content ++ l.buf.drop n <:+ t := by
    intro hp n
    obtain ⟨fs, f, e, hc⟩ := h.current hp
    have hs : f.content ++ l.buf.take n ++ l.buf.drop n <:+ t := by rw [List.append_assoc, List.take_append_drop]; exact hc
    rw [e, longer_last]
    refine ⟨?_, fs, _, rfl, hs⟩
    intro g hg
    rcases List.mem_append.1 hg with hg | hg
    · exact h.contents g (by rw [e]; exact List.mem_append_left _ hg)
    · rw [List.mem_singleton.1 hg]
      exact List.IsInfix.trans (List.prefix_append _ _).isInfix hs.isInfix
  intro m hm
  unfold View.turn at hm
  split at hm
  · dsimp only at hm
    rename_i hp
    split at hm
    · rcases hm with e | e
      · cases e
      · cases e; exact ⟨drop _, h.contents, fun e => absurd (hp.symm.trans e) (by decide), h.file⟩
    · split at hm
      · rcases hm with e | e
        · cases e
          refine ⟨?_, h.contents, fun e => (by cases e), h.file⟩
          exact (List.drop_suffix _ _).trans (drop _)
        · cases e
      · rcases hm with e | e <;> cases e
  · rcases hm with e | e
    · cases e; exact ⟨h.rest, h.contents, fun e => (by cases e), h.file⟩
    · cases e
  · rename_i hp
    split at hm
    · rcases hm with e | e <;> cases e
    · exact kept_heads h hp m hm
  · rename_i hp
    split at hm
    · rcases hm with e | e
      · cases e
      · cases e; exact h
    · split at hm
      · rcases hm with e | e
        · cases e
          exact ⟨drop _, (part hp _).1, fun e => (by cases e), h.file⟩
        · cases e
      · split at hm
        · rcases hm with e | e
          · cases e
          · cases e
            exact ⟨drop _, (part hp _).1, fun _ => (part hp _).2, h.file⟩
        · rcases hm with e | e
          · cases e
          · cases e; exact h
  · rename_i hp
    split at hm
    · rcases hm with e | e
      · cases e
      · cases e; exact h
    · split at hm
      · rcases hm with e | e
        · cases e; exact ⟨drop _, h.contents, fun e => (by cases e), h.file⟩
        · cases e
      · split at hm
        · rcases hm with e | e
          · cases e; exact ⟨List.nil_suffix, h.contents, fun e => absurd (hp.symm.trans e) (by decide), h.file⟩
          · cases e
        · rcases hm with e | e
          · cases e
          · cases e; exact h

theorem kept_ends {l m : View} {r : Option View} (h : Ends l r) (hr : r = some m) {t : Bytes} (hk : Kept l t) : Kept m t := by
  induction h with
  | empty _ => cases hr; exact hk
  | refuse _ _ => cases hr
  | wait _ ht => cases hr; exact kept_turn hk _ (.inr ht)
  | go _ ht _ ih => exact ih hr (kept_turn hk _ (.inl ht))

theorem kept_fed {l m : View} {xs : List Bytes} {r : Option View} (h : Fed l xs r) (hr : r = some m) : ∀ {t : Bytes}, Kept l t → Kept m (t ++ xs.flatten) := by
  induction h with
  | done => cases hr; intro t hk; simpa using hk
  | refuse _ => cases hr
  | @next l m' x xs r h _ ih =>
    intro t hk
    have hk' : Kept { l with buf := l.buf ++ x } (t ++ x) := by
      refine ⟨?_, fun f hf => (hk.contents f hf).trans (List.prefix_append _ _).isInfix, ?_, hk.file⟩
      · obtain ⟨a, ha⟩ := hk.rest
        exact ⟨a, by rw [← ha, List.append_assoc]⟩
      · intro hp
        obtain ⟨fs, f, e, a, ha⟩ := hk.current hp
        exact ⟨fs, f, e, a, by rw [← ha]; simp⟩
    have := ih hr (kept_ends h rfl hk')
    simpa using this

/-- The parser of a new body. -/
def newView (bd : Bytes) : View := ⟨bd, .first, false, File.none, [], []⟩

theorem new_same (bd : Bytes) : Same (Form.Parser.new bd) (newView bd) :=
  ⟨⟨⟨[], 0, 0⟩, rfl, [], [], rfl⟩, nofun⟩

/-- **C135**: whatever arrives, in whatever pieces, the parser of multipart content stays within its buffer and its loops end.
What is in use of the buffer afterwards is the end of what has arrived, and the content of every part is a contiguous piece of
what has arrived. -/
theorem C135 (bd : Bytes) (ps : List Bytes) (h : ps.flatten.length < 2 ^ 64 - 1) :
    ∃ r, (Form.Parser.new bd).feed ps = .ok r ∧ ∀ p, r = some p →
      p.buf.spos ≤ p.buf.epos ∧ p.buf.epos ≤ p.buf.data.length ∧ inUse p.buf <:+ ps.flatten ∧ ∀ f ∈ p.files, f.content <:+: ps.flatten := by
  obtain ⟨r, m, h1, h2, h3⟩ := feed_eq ps (new_same bd) (by simpa [newView] using h)
  refine ⟨r, h1, ?_⟩
  rintro p rfl
  cases m with
  | none => exact h3.elim
  | some m =>
    obtain ⟨⟨⟨b, rfl, hb⟩, _⟩, _⟩ := h3
    obtain ⟨k1, k2, k3⟩ := holds_inUse hb
    have hk := kept_fed h2 rfl (t := []) ⟨List.nil_suffix, by simp [newView], nofun, rfl⟩
    rw [List.nil_append] at hk
    exact ⟨k1, k2, by rw [show (m.within b).buf = b from rfl, k3]; exact hk.rest, hk.contents⟩

/-- The parser without its positions and with the number of its parts. -/
def inShort (p : Form.Parser) : Cut.Parser := ⟨p.boundary, p.phase, p.valid, inUse p.buf, p.files.length⟩

/-- The parser decides as the one of C109, with the lines accepted that it reads. -/
theorem C135_short (bd : Bytes) (ps : List Bytes) (h : ps.flatten.length < 2 ^ 64 - 1) :
    ∃ r, (Form.Parser.new bd).feed ps = .ok r ∧ ps.foldlM (Cut.Parser.parse lineOk) (Cut.Parser.new bd) = r.map inShort := by
  obtain ⟨r, m, h1, h2, h3⟩ := feed_eq ps (new_same bd) (by simpa [newView] using h)
  refine ⟨r, h1, ?_⟩
  have hc := fed_cut h2
  rw [show (newView bd).cut = Cut.Parser.new bd from rfl] at hc
  rw [hc]
  cases r with
  | none =>
    cases m with
    | none => rfl
    | some m => exact h3.elim
  | some p =>
    cases m with
    | none => exact h3.elim
    | some m =>
      obtain ⟨⟨⟨b, rfl, hb⟩, _⟩, _⟩ := h3
      obtain ⟨_, _, k3⟩ := holds_inUse hb
      rw [Option.map_some, Option.map_some, inShort, show (m.within b).buf = b from rfl, k3]
      rfl

/-! ## C136 -/

/-- A part as it is sent. -/
structure Sent where
  name : Bytes
  filename : Option Bytes
  type : Option Bytes
  content : Bytes

/-- A text in quotes. -/
def withQuotes (s : Bytes) : Bytes := [34] ++ s ++ [34]

/-- The name of a file, if there is one. -/
def fileText : Option Bytes → Bytes
  | none => []
  | some f => str "; filename=" ++ withQuotes f

/-- The type of a part, if there is one. -/
def typeLines : Option Bytes → List Bytes
  | none => []
  | some t => [str "Content-Type: " ++ t]

/-- The header fields of a part (RFC 7578 section 4). -/
def Sent.lines (p : Sent) : List Bytes :=
  (str "Content-Disposition: form-data; name=" ++ withQuotes p.name ++ fileText p.filename) :: typeLines p.type

/-- A part on the wire. -/
def Sent.part (p : Sent) : FormPart := ⟨p.lines, p.content⟩

/-- A part as it is to be received. -/
def Sent.file (p : Sent) : File := ⟨p.name, p.filename.getD [], p.type.getD [], p.content⟩

/-- A text that may be in quotes: no quote and no line end. -/
def Quotable (s : Bytes) : Prop := ∀ c ∈ s, c ≠ 34 ∧ c ≠ 13 ∧ c ≠ 10

/-- A text without blanks at its ends. -/
def Flush (s : Bytes) : Prop := (∃ a r, s = a :: r ∧ a ≠ 32 ∧ a ≠ 9) ∧ ∃ a r, s = r ++ [a] ∧ a ≠ 32 ∧ a ≠ 9

/-- A part that can be sent: names that can be in quotes, a type without line ends and without blanks at its ends, lines that
are not too long, content without the separator. -/
structure Sent.Lawful (bd : Bytes) (p : Sent) : Prop where
  name : Quotable p.name
  filename : ∀ f ∈ p.filename, Quotable f
  type : ∀ t ∈ p.type, Flush t ∧ ∀ c ∈ t, c ≠ 13 ∧ c ≠ 10
  short : ∀ l ∈ p.lines, l.length < 8192
  content : FirstBehind (separator bd) p.content

/-- The parts of a form are received as they were sent, in whatever pieces the form arrives. -/
def C136_statement : Prop :=
  ∀ (bd pre epi : Bytes) (parts : List Sent) (ps : List Bytes), parts ≠ [] → parts.length ≤ 1024 → (∀ p ∈ parts, p.Lawful bd) →
    FirstBehind ([45, 45] ++ bd ++ [13, 10]) pre → (∀ b ∈ ps, b ≠ []) → ps.flatten = pre ++ formText bd (parts.map Sent.part) true ++ epi →
    ps.flatten.length < 2 ^ 64 - 1 →
    ∃ p, (Form.Parser.new bd).feed ps = .ok (some p) ∧ p.valid = true ∧ p.files = parts.map Sent.file

/-- A name that is not cut. -/
def Uncut (s : Bytes) : Prop := 59 ∉ s ∧ 61 ∉ s

theorem unquote_quotes (s : Bytes) : Cut.unquote (withQuotes s) = s := by
  have e : withQuotes s = 34 :: (s ++ [34]) := by simp [withQuotes]
  have hl : (34 :: (s ++ [34])).getLast? = some 34 := by
    rw [← List.cons_append, List.getLast?_append]
    rfl
  rw [Cut.unquote, e, if_pos ⟨by simp, rfl, hl⟩]
  simp

theorem unquote_id {s : Bytes} (h : s.head? ≠ some 34) : Cut.unquote s = s := by
  rw [Cut.unquote, if_neg (fun e => h e.2.1)]

theorem trim_tight (u : Bytes) (hu : ∀ c ∈ u, isBlank c = true) {s : Bytes} (h : Flush s) : trim (u ++ s) = s := by
  obtain ⟨⟨a, r, h1, h2, h3⟩, b, q, h4, h5, h6⟩ := h
  have := trim_core (u := u) (x := s) (w := []) hu (by simp) ⟨a, r, h1, by simp [isBlank, h2, h3]⟩ ⟨b, q, h4, by simp [isBlank, h5, h6]⟩
  simpa using this

theorem trim_self {s : Bytes} (h : Flush s) : trim s = s := trim_tight [] (by simp) h

theorem tight_between {a b : UInt8} {s : Bytes} (h : a ≠ 32 ∧ a ≠ 9) (h' : b ≠ 32 ∧ b ≠ 9) : Flush (a :: (s ++ [b])) :=
  ⟨⟨a, _, rfl, h⟩, b, a :: s, by simp, h'⟩

theorem quotes_tight (s : Bytes) : Flush (withQuotes s) := by
  have : withQuotes s = 34 :: (s ++ [34]) := by simp [withQuotes]
  rw [this]
  exact tight_between (by decide) (by decide)

theorem parseHeader_some {k v : Bytes} (hk : (58 : UInt8) ∉ k) (h0 : k ≠ []) (hv : Flush v) : (parseHeader (k ++ (58 :: 32 :: v))).isNone = false := by
  obtain ⟨⟨a, r, h1, h2, h3⟩, b, q, h4, h5, h6⟩ := hv
  have hb : isBlank b = false := by simp [isBlank, h5, h6]
  have ha : isBlank a = false := by simp [isBlank, h2, h3]
  have hs : ((k ++ (58 :: 32 :: v)).reverse.dropWhile isBlank).reverse = k ++ (58 :: 32 :: v) := by
    rw [h4]
    have : (k ++ 58 :: 32 :: (q ++ [b])).reverse = b :: (k ++ 58 :: 32 :: q).reverse := by simp
    rw [this, List.dropWhile_cons_of_neg (by simp [hb]), ← this, List.reverse_reverse]
  have hne : ∀ c ∈ k, decide (c ≠ 58) = true := fun c hc => decide_eq_true fun e => hk (e ▸ hc)
  have hd : (k ++ (58 :: 32 :: v)).dropWhile (· ≠ 58) = 58 :: 32 :: v := by
    rw [dropWhile_all _ hne, List.dropWhile_cons_of_neg (by simp)]
  have ht : (k ++ (58 :: 32 :: v)).takeWhile (· ≠ 58) = k := by
    rw [List.takeWhile_append_of_pos hne, List.takeWhile_cons_of_neg (by simp), List.append_nil]
  have hw : (32 :: v).dropWhile isBlank = v := by
    rw [List.dropWhile_cons_of_pos (by decide), h1, List.dropWhile_cons_of_neg (by simp [ha])]
  unfold parseHeader
  simp only [hs, ht, hd, hw]
  rw [if_neg (by rintro (h | h); · rw [h1] at h; cases h
                 · exact h0 h)]
  rfl

theorem splitAll_one {d : UInt8} {s : Bytes} (h : d ∉ s) (ht : trim s ≠ []) : splitAll d s = [trim s] := by
  rw [splitAll, pieces_none h]
  simp [ht]

theorem splitAll_two {d : UInt8} {s r : Bytes} (h : d ∉ s) (ht : trim s ≠ []) : splitAll d (s ++ d :: r) = trim s :: splitAll d r := by
  rw [splitAll, pieces_cons r h]
  simp [ht, splitAll]

theorem tight_ne {s : Bytes} (h : Flush s) : s ≠ [] := by
  obtain ⟨⟨a, r, h, _⟩, _⟩ := h
  rw [h]
  simp

/-- A parameter of which neither side is cut. -/
theorem dispParam_eq {k v : Bytes} (hk : (61 : UInt8) ∉ k) (hkt : Flush k) (hq : k.head? ≠ some 34) (hv : 61 ∉ v) :
    dispParam (k ++ 61 :: withQuotes v) = some (k, v) := by
  have h1 : trim k = k := trim_self hkt
  have h2 : trim (withQuotes v) = withQuotes v := trim_self (quotes_tight v)
  have h3 : (61 : UInt8) ∉ withQuotes v := by simp [withQuotes, hv]
  rw [dispParam, splitAll_two hk (by rw [h1]; exact tight_ne hkt), splitAll_one h3 (by rw [h2]; exact tight_ne (quotes_tight v)), h1, h2]
  simp only [List.getLast?_singleton, Option.getD_some]
  rw [unquote_id hq, unquote_quotes]

theorem isSpace_dropWhile {c : UInt8} (h : isSpace c = false) (s : Bytes) : (32 :: c :: s).dropWhile isSpace = c :: s := by
  rw [List.dropWhile_cons_of_pos (by decide), List.dropWhile_cons_of_neg (by simp [h])]

theorem behind_append (p s : Bytes) : behind p (p ++ s) = some s := by
  rw [behind, List.take_left, if_pos rfl, List.drop_left]

theorem disposition_eq {c : UInt8} {d : Bytes} (hc : isSpace c = false) (hd : oneLine (c :: d) = true) :
    disposition (str "Content-Disposition: form-data; " ++ (c :: d)) = some (c :: d) := by
  have e1 : str "Content-Disposition: form-data; " ++ (c :: d) = str "Content-Disposition:" ++ (32 :: 102 :: (str "orm-data; " ++ (c :: d))) := by
    rw [show str "Content-Disposition: form-data; " = str "Content-Disposition:" ++ (32 :: 102 :: str "orm-data; ") from by decide]
    simp only [List.append_assoc, List.cons_append, List.nil_append, List.append_nil]
  have e2 : (102 :: (str "orm-data; " ++ (c :: d))) = str "form-data;" ++ (32 :: c :: d) := by
    rw [show str "orm-data; " = str "orm-data;" ++ [32] from by decide, show str "form-data;" = 102 :: str "orm-data;" from by decide]
    simp only [List.append_assoc, List.cons_append, List.nil_append, List.append_nil]
  rw [disposition, e1, behind_append]
  rw [Option.bind_some, isSpace_dropWhile (by decide), e2, behind_append]
  rw [Option.bind_some, isSpace_dropWhile hc, if_pos hd]

theorem oneLine_quotable {s : Bytes} (h : Quotable s) : ∀ c ∈ s, (c != 10 && c != 13) = true := by
  intro c hc
  obtain ⟨_, h1, h2⟩ := h c hc
  simp [h1, h2]

/-- The line that names a part. -/
theorem readLine_name {f : File} {n : Bytes} {fn : Option Bytes} (hn : Quotable n) (hn' : Uncut n) (hf : ∀ x ∈ fn, Quotable x ∧ Uncut x)
    (he : f.filename = []) :
    readLine f (str "Content-Disposition: form-data; name=" ++ withQuotes n ++ fileText fn) = some { f with name := n, filename := fn.getD [] } := by
  have hk : dispParam (str "name" ++ 61 :: withQuotes n) = some (str "name", n) :=
    dispParam_eq (by decide) ⟨⟨110, str "ame", by decide⟩, 101, str "nam", by decide⟩ (by decide) hn'.2
  have key : ∀ tail : Bytes, (tail = [] ∨ ∃ x, fn = some x ∧ tail = str "; filename=" ++ withQuotes x) →
      let h := str "Content-Disposition: form-data; name=" ++ withQuotes n ++ tail
      (parseHeader h).isNone = false ∧ disposition h = some (str "name" ++ 61 :: withQuotes n ++ tail) ∧
        ¬ (h.take 13).map lower = (str "Content-Type:").map lower := by
    intro tail ht
    dsimp only
    have e : str "Content-Disposition: form-data; name=" ++ withQuotes n ++ tail =
        str "Content-Disposition" ++ (58 :: 32 :: (102 :: (str "orm-data; name=" ++ [34] ++ n ++ [34] ++ tail))) := by
      rw [show str "Content-Disposition: form-data; name=" = str "Content-Disposition" ++ (58 :: 32 :: 102 :: str "orm-data; name=") from by decide]
      simp only [withQuotes, List.append_assoc, List.cons_append, List.nil_append, List.append_nil]
    have e2 : str "Content-Disposition: form-data; name=" ++ withQuotes n ++ tail =
        str "Content-Disposition: form-data; " ++ (110 :: (str "ame" ++ 61 :: withQuotes n ++ tail)) := by
      rw [show str "Content-Disposition: form-data; name=" = str "Content-Disposition: form-data; " ++ (110 :: (str "ame" ++ [61])) from by decide]
      simp only [List.append_assoc, List.cons_append, List.nil_append, List.append_nil]
    have htail : ∀ c ∈ tail, (c != 10 && c != 13) = true := by
      rcases ht with rfl | ⟨x, hx, rfl⟩
      · simp
      · intro c hc
        rcases List.mem_append.1 hc with hc | hc
        · exact (show ∀ c ∈ str "; filename=", (c != 10 && c != 13) = true from by decide) c hc
        · simp only [withQuotes, List.mem_append, List.mem_singleton] at hc
          rcases hc with (rfl | hc) | rfl
          · decide
          · exact oneLine_quotable (hf x hx).1 c hc
          · decide
    refine ⟨?_, ?_, ?_⟩
    · rw [e]
      refine parseHeader_some (by decide) (by decide) ⟨⟨102, _, rfl, by decide⟩, 34, ?_⟩
      rcases ht with rfl | ⟨x, _, rfl⟩
      · exact ⟨102 :: (str "orm-data; name=" ++ [34] ++ n), by simp only [List.append_assoc, List.cons_append, List.nil_append, List.append_nil], by decide⟩
      · exact ⟨102 :: (str "orm-data; name=" ++ [34] ++ n ++ [34] ++ str "; filename=" ++ [34] ++ x), by simp only [withQuotes, List.append_assoc, List.cons_append, List.nil_append, List.append_nil], by decide⟩
    · rw [e2, disposition_eq (by decide) ?_]
      · rfl
      · rw [oneLine, List.all_eq_true]
        intro c hc
        simp only [withQuotes, List.mem_cons, List.mem_append, List.mem_singleton, List.not_mem_nil, or_false] at hc
        rcases hc with rfl | (hc | rfl | (rfl | hc) | rfl) | hc
        · decide
        · exact (show ∀ c ∈ str "ame", (c != 10 && c != 13) = true from by decide) c hc
        · decide
        · decide
        · exact oneLine_quotable hn c hc
        · decide
        · exact htail c hc
    · rw [List.append_assoc, List.take_append_of_le_length (by decide)]
      decide
  have hn59 : (59 : UInt8) ∉ str "name" ++ 61 :: withQuotes n := by
    simp only [withQuotes, List.mem_append, List.mem_cons, List.mem_singleton, List.not_mem_nil, or_false, not_or]
    exact ⟨by decide, by decide, ⟨by decide, hn'.1⟩, by decide⟩
  have htn : trim (str "name" ++ 61 :: withQuotes n) = str "name" ++ 61 :: withQuotes n :=
    trim_self ⟨⟨110, str "ame" ++ 61 :: withQuotes n, rfl, by decide⟩, 34, str "name" ++ 61 :: ([34] ++ n), by simp only [withQuotes, List.append_assoc, List.cons_append, List.nil_append, List.append_nil], by decide⟩
  have hnn : str "name" ++ 61 :: withQuotes n ≠ [] := fun e => absurd (List.append_eq_nil_iff.1 e).2 (by simp)
  cases fn with
  | none =>
    obtain ⟨k1, k2, k3⟩ := key [] (.inl rfl)
    rw [fileText, readLine, if_neg (by rw [k1]; decide), if_neg k3, k2]
    rw [List.append_nil]
    dsimp only
    rw [splitAll_one hn59 (by rw [htn]; exact hnn), htn, dispParams, if_neg (by simp), hk, dispParams]
    simp only [Option.toList, List.append_nil]
    rw [show param [(str "name", n)] (str "name") = some n from by
        rw [param, List.find?_cons_of_pos (by simp)]; rfl,
      show param [(str "name", n)] (str "filename") = none from by
        rw [param, List.find?_cons_of_neg (by rw [beq_iff_eq]; exact (by decide : str "name" ≠ str "filename"))]; rfl,
      show param [(str "name", n)] (str "filename*") = none from by
        rw [param, List.find?_cons_of_neg (by rw [beq_iff_eq]; exact (by decide : str "name" ≠ str "filename*"))]; rfl]
    simp only [Option.getD_none, he]
  | some x =>
    obtain ⟨hx, hx'⟩ := hf x rfl
    obtain ⟨k1, k2, k3⟩ := key (str "; filename=" ++ withQuotes x) (.inr ⟨x, rfl, rfl⟩)
    rw [fileText, readLine, if_neg (by rw [k1]; decide), if_neg k3, k2]
    dsimp only
    have e3 : str "; filename=" ++ withQuotes x = 59 :: (32 :: (str "filename" ++ 61 :: withQuotes x)) := by
      rw [show str "; filename=" = 59 :: 32 :: (str "filename" ++ [61]) from by decide]
      simp only [List.append_assoc, List.cons_append, List.nil_append, List.append_nil]
    have hk2 : dispParam (str "filename" ++ 61 :: withQuotes x) = some (str "filename", x) :=
      dispParam_eq (by decide) ⟨⟨102, str "ilename", by decide⟩, 101, str "filenam", by decide⟩ (by decide) hx'.2
    have hx59 : (59 : UInt8) ∉ 32 :: (str "filename" ++ 61 :: withQuotes x) := by
      simp only [withQuotes, List.mem_append, List.mem_cons, List.mem_singleton, List.not_mem_nil, or_false, not_or]
      exact ⟨by decide, by decide, by decide, ⟨by decide, hx'.1⟩, by decide⟩
    have htx : trim (32 :: (str "filename" ++ 61 :: withQuotes x)) = str "filename" ++ 61 :: withQuotes x :=
      trim_tight [32] (by decide)
        (s := str "filename" ++ 61 :: withQuotes x) ⟨⟨102, str "ilename" ++ 61 :: withQuotes x, rfl, by decide⟩, 34, str "filename" ++ 61 :: ([34] ++ x), by simp only [withQuotes, List.append_assoc, List.cons_append, List.nil_append, List.append_nil], by decide⟩
    have hxn : str "filename" ++ 61 :: withQuotes x ≠ [] := fun e => absurd (List.append_eq_nil_iff.1 e).2 (by simp)
    have hne : str "filename" ++ 61 :: withQuotes x ∉ [str "name" ++ 61 :: withQuotes n] := by
      intro h
      have := congrArg List.head? (List.mem_singleton.1 h)
      exact absurd (show some (102 : UInt8) = some 110 from this) (by decide)
    rw [e3, splitAll_two hn59 (by rw [htn]; exact hnn), htn, splitAll_one hx59 (by rw [htx]; exact hxn), htx, dispParams, if_neg (by simp), hk,
      dispParams, if_neg hne, hk2, dispParams]
    simp only [Option.toList, List.append_nil, List.cons_append, List.nil_append]
    rw [show param [(str "name", n), (str "filename", x)] (str "name") = some n from by
        rw [param, List.find?_cons_of_pos (by simp)]; rfl,
      show param [(str "name", n), (str "filename", x)] (str "filename") = some x from by
        rw [param, List.find?_cons_of_neg (by rw [beq_iff_eq]; exact (by decide : str "name" ≠ str "filename")), List.find?_cons_of_pos (by simp)]; rfl,
      show param [(str "name", n), (str "filename", x)] (str "filename*") = none from by
        rw [param, List.find?_cons_of_neg (by rw [beq_iff_eq]; exact (by decide : str "name" ≠ str "filename*")), List.find?_cons_of_neg (by rw [beq_iff_eq]; exact (by decide : str "filename" ≠ str "filename*"))]; rfl]
    simp only [Option.getD_some]

/-- The line that tells the type of a part. -/
theorem readLine_type {f : File} {t : Bytes} (ht : Flush t) : readLine f (str "Content-Type: " ++ t) = some { f with contentType := t } := by
  have e : str "Content-Type: " ++ t = str "Content-Type" ++ 58 :: 32 :: t := by
    rw [show str "Content-Type: " = str "Content-Type" ++ [58, 32] from by decide]
    simp only [List.append_assoc, List.cons_append, List.nil_append, List.append_nil]
  have e2 : str "Content-Type: " ++ t = str "Content-Type:" ++ (32 :: t) := by
    rw [show str "Content-Type: " = str "Content-Type:" ++ [32] from by decide]
    simp only [List.append_assoc, List.cons_append, List.nil_append, List.append_nil]
  have h1 : (parseHeader (str "Content-Type: " ++ t)).isNone = false := by
    rw [e]
    exact parseHeader_some (by decide) (by decide) ht
  rw [readLine, if_neg (by rw [h1]; decide), if_pos (by rw [List.take_append_of_le_length (by decide)]; decide)]
  rw [e2, show (13 : Nat) = (str "Content-Type:").length from by decide, List.drop_left]
  rw [show (32 :: t) = [32] ++ t from rfl, trim_tight [32] (by decide) ht]

theorem first_line {l : Bytes} (h : (10 : UInt8) ∉ l) : findAt crlf (l ++ crlf) = l.length := by
  refine findAt_behind (by decide) ?_
  rintro ⟨a, b, e⟩
  have : (10 : UInt8) ∈ l ++ [13] := by
    rw [show crlf.dropLast = [13] from by decide] at e
    rw [← e]
    simp [crlf]
  simp [h] at this

/-- A part is read. -/
theorem reads_part {bd t : Bytes} {p : Sent} {f : File} {fs out : List File} (hp : p.Lawful bd) (hn : Uncut p.name) (hf : ∀ x ∈ p.filename, Uncut x)
    (hc : f.content = []) (hl : fs.length < 1024)
    (h : ∀ g : File, g.content = [] → Reads bd .boundary g (fs ++ [p.file]) t out) :
    Reads bd .entry f fs (p.part.text bd ++ t) out := by
  obtain ⟨n, fn, ty, c⟩ := p
  have h1 := readLine_name (f := { f with name := [], filename := [], contentType := [] }) hp.name hn (fun x hx => ⟨hp.filename x hx, hf x hx⟩) rfl
  dsimp only at h1
  have hsep : crlf ++ dash ++ bd ≠ [] := by simp [crlf]
  have hbody : ∀ g : File, g = { f with name := n, filename := fn.getD [], contentType := ty.getD [] } →
      Reads bd .headers g fs (crlf ++ (c ++ (crlf ++ dash ++ bd) ++ t)) out := by
    rintro g rfl
    refine .blank hl (.content (findAt_behind hsep hp.content) ?_)
    rw [longer_last]
    have := h { f with name := n, filename := fn.getD [], contentType := ty.getD [] } hc
    rw [show (⟨n, fn.getD [], ty.getD [], f.content ++ c⟩ : File) = Sent.file ⟨n, fn, ty, c⟩ from by rw [hc]; rfl]
    exact this
  have hshort := hp.short
  generalize hL1 : str "Content-Disposition: form-data; name=" ++ withQuotes n ++ fileText fn = L1 at h1
  have hL1' : Sent.lines ⟨n, fn, ty, c⟩ = L1 :: typeLines ty := by rw [← hL1]; rfl
  have h10 : (10 : UInt8) ∉ L1 := by
    rw [← hL1]
    have hq : ∀ s : Bytes, Quotable s → (10 : UInt8) ∉ withQuotes s := by
      intro s hs hm
      simp only [withQuotes, List.mem_append, List.mem_singleton] at hm
      rcases hm with (hm | hm) | hm
      · cases hm
      · exact (hs 10 hm).2.2 rfl
      · cases hm
    intro hm
    rcases List.mem_append.1 hm with hm | hm
    · rcases List.mem_append.1 hm with hm | hm
      · exact absurd hm (by decide)
      · exact hq n hp.name hm
    · cases fn with
      | none => cases hm
      | some x =>
        rcases List.mem_append.1 hm with hm | hm
        · exact absurd hm (by decide)
        · exact hq x (hp.filename x rfl) hm
  have hne : L1 ≠ [] := by
    rw [← hL1]
    intro e
    have := (List.append_eq_nil_iff.1 (List.append_eq_nil_iff.1 e).1).1
    exact absurd this (by decide)
  rw [hL1'] at hshort
  refine .entry ?_
  rw [FormPart.text, Sent.part]
  dsimp only
  rw [hL1']
  cases ty with
  | none =>
    have e : (List.flatMap (· ++ [13, 10]) (L1 :: typeLines none) ++ [13, 10] ++ c ++ separator bd ++ t) = L1 ++ crlf ++ (crlf ++ (c ++ (crlf ++ dash ++ bd) ++ t)) := by
      simp [typeLines, separator, crlf, dash]
    rw [e]
    exact .line hne (first_line h10) (hshort _ List.mem_cons_self) h1 (hbody _ (by simp))
  | some ty =>
    obtain ⟨ht, hc2⟩ := hp.type ty rfl
    have e : (List.flatMap (· ++ [13, 10]) (L1 :: typeLines (some ty)) ++ [13, 10] ++ c ++ separator bd ++ t) =
        L1 ++ crlf ++ ((str "Content-Type: " ++ ty) ++ crlf ++ (crlf ++ (c ++ (crlf ++ dash ++ bd) ++ t))) := by
      simp only [typeLines, List.flatMap_cons, List.flatMap_nil, separator, crlf, dash, List.append_assoc, List.cons_append, List.nil_append, List.append_nil]
    rw [e]
    refine .line hne (first_line h10) (hshort _ List.mem_cons_self) h1 (.line ?_ (first_line ?_) (hshort _ (List.mem_cons_of_mem _ List.mem_cons_self)) (readLine_type ht) (hbody _ rfl))
    · intro e
      exact absurd (List.append_eq_nil_iff.1 e).1 (by decide)
    · intro hm
      rcases List.mem_append.1 hm with hm | hm
      · exact absurd hm (by decide)
      · exact (hc2 10 hm).2 rfl

/-- A form is read. -/
theorem reads_form {bd e : Bytes} (he : e = [] ∨ e = crlf) : ∀ (parts : List Sent) (f : File) (fs : List File),
    (∀ p ∈ parts, p.Lawful bd ∧ Uncut p.name ∧ ∀ x ∈ p.filename, Uncut x) → fs.length + parts.length ≤ 1024 → f.content = [] →
    Reads bd .boundary f fs (((parts.map Sent.part).flatMap fun p => [13, 10] ++ p.text bd) ++ ([45, 45] ++ e)) (fs ++ parts.map Sent.file)
  | [], f, fs, _, _, _ => by
    rw [show fs ++ List.map Sent.file [] = fs from List.append_nil fs]
    exact .last fs he
  | p :: parts, f, fs, h, hl, hc => by
    obtain ⟨h1, h2, h3⟩ := h p List.mem_cons_self
    simp only [List.length_cons] at hl
    have e1 : (((p :: parts).map Sent.part).flatMap fun p => [13, 10] ++ p.text bd) ++ ([45, 45] ++ e) =
        crlf ++ (p.part.text bd ++ (((parts.map Sent.part).flatMap fun p => [13, 10] ++ p.text bd) ++ ([45, 45] ++ e))) := by
      simp [crlf]
    rw [e1]
    refine .more (reads_part h1 h2 h3 hc (by omega) fun g hg => ?_)
    have := reads_form he parts g (fs ++ [p.file]) (fun q hq => h q (List.mem_cons_of_mem _ hq)) (by simp; omega) hg
    simpa using this

theorem first_turn {bd pre x : Bytes} {l : View} (hb : l.boundary = bd) (hp : l.phase = .first)
    (hpre : FirstBehind ([45, 45] ++ bd ++ [13, 10]) pre) (hx : l.buf = pre ++ ([45, 45] ++ bd ++ [13, 10]) ++ x) :
    l.turn = .go { l with buf := x, phase := .entry } := by
  have ho : l.opening = [45, 45] ++ bd ++ [13, 10] := by rw [← hb]; rfl
  have hne : [45, 45] ++ bd ++ [13, 10] ≠ [] := by simp
  unfold View.turn
  rw [hp]
  dsimp only
  rw [ho]
  generalize [45, 45] ++ bd ++ [13, 10] = O at *
  have hf : findAt O l.buf = pre.length := by
    have h1 := findAt_behind hne hpre
    have : 0 < O.length := List.length_pos_iff.2 hne
    rw [hx, findAt_append (by rw [h1, List.length_append]; omega), h1]
  have hd : l.buf.drop pre.length = O ++ x := by rw [hx, List.append_assoc, List.drop_left]
  rw [hf, hd, if_neg (by simp), if_pos (List.isPrefixOf_iff_prefix.2 (List.prefix_append _ _)), List.drop_left]

/-- **C136** (what holds): parts with names without `;` and `=` are received as they were sent, in the order in which they were
sent and in whatever pieces, if the first piece contains the first boundary and nothing follows the form. -/
theorem C136_partial {bd pre : Bytes} {parts : List Sent} {lineEnd : Bool} {b : Bytes} {ps : List Bytes}
    (hn : parts ≠ []) (hl : parts.length ≤ 1024) (hp : ∀ p ∈ parts, p.Lawful bd ∧ Uncut p.name ∧ ∀ x ∈ p.filename, Uncut x)
    (hpre : FirstBehind ([45, 45] ++ bd ++ [13, 10]) pre) (hb : pre ++ ([45, 45] ++ bd ++ [13, 10]) <+: b) (hps : ∀ x ∈ ps, x ≠ [])
    (hf : (b :: ps).flatten = pre ++ formText bd (parts.map Sent.part) lineEnd) (hs : (b :: ps).flatten.length < 2 ^ 64 - 1) :
    ∃ p, (Form.Parser.new bd).feed (b :: ps) = .ok (some p) ∧ p.valid = true ∧ p.files = parts.map Sent.file := by
  obtain ⟨x, rfl⟩ := hb
  obtain ⟨r, m, h1, h2, h3⟩ := feed_eq ((pre ++ ([45, 45] ++ bd ++ [13, 10]) ++ x) :: ps) (new_same bd) (by simpa only [newView, List.length_nil, Nat.zero_add] using hs)
  have main : ∃ l, m = some l ∧ l.valid = true ∧ l.files = parts.map Sent.file := by
    obtain ⟨p0, parts', rfl⟩ : ∃ p ps, parts = p :: ps := by
      cases parts with
      | nil => exact absurd rfl hn
      | cons p ps => exact ⟨p, ps, rfl⟩
    have hg := reads_form (bd := bd) (e := if lineEnd then crlf else []) (by cases lineEnd <;> simp) (p0 :: parts') File.none [] hp
      (by simpa using hl) rfl
    rw [List.nil_append] at hg
    have hx : x ++ ps.flatten = p0.part.text bd ++ (((parts'.map Sent.part).flatMap fun p => [13, 10] ++ p.text bd) ++
        ([45, 45] ++ if lineEnd then crlf else [])) := by
      have : pre ++ ([45, 45] ++ bd ++ [13, 10]) ++ (x ++ ps.flatten) = pre ++ ([45, 45] ++ bd ++ [13, 10]) ++
          (p0.part.text bd ++ (((parts'.map Sent.part).flatMap fun p => [13, 10] ++ p.text bd) ++ ([45, 45] ++ if lineEnd then crlf else []))) := by
        rw [← List.append_assoc, ← List.flatten_cons, hf]
        simp only [formText, List.map_cons, List.flatMap_cons, List.append_assoc]
        rfl
      exact List.append_cancel_left this
    have hg' : Reads bd .entry File.none [] (x ++ ps.flatten) ((p0 :: parts').map Sent.file) := by
      rw [hx]
      rw [show (((p0 :: parts').map Sent.part).flatMap fun p => [13, 10] ++ p.text bd) ++ ([45, 45] ++ if lineEnd then crlf else []) =
        crlf ++ (p0.part.text bd ++ (((parts'.map Sent.part).flatMap fun p => [13, 10] ++ p.text bd) ++ ([45, 45] ++ if lineEnd then crlf else []))) from by
          simp [crlf]] at hg
      generalize p0.part.text bd ++ (((parts'.map Sent.part).flatMap fun p => [13, 10] ++ p.text bd) ++ ([45, 45] ++ if lineEnd then crlf else [])) = u at hg
      generalize hv : crlf ++ u = v at hg
      generalize hw : ((p0 :: parts').map Sent.file) = w at hg
      cases hg with
      | last n he => exact absurd hv (by simp [crlf, dash])
      | more h => rw [List.append_cancel_left hv]; exact h
    have turn := first_turn (l := { newView bd with buf := [] ++ (pre ++ ([45, 45] ++ bd ++ [13, 10]) ++ x) }) (bd := bd) (pre := pre) (x := x) rfl rfl hpre
      (by simp)
    have hps' : ∀ {l : View} {r : Option View}, Fed l ps r → ∀ out, After l ps.flatten out ∨ (ps.flatten ≠ [] ∧ Before l ps.flatten out) →
        ∃ m, r = some m ∧ m.valid = true ∧ m.files = out := by
      intro l r h out k
      rcases k with k | ⟨k1, k2⟩
      · exact fed_after h k hps
      · exact fed_reads h k2 (by rintro rfl; exact k1 rfl) hps
    have hends : ∀ r, Ends { newView bd with buf := (newView bd).buf ++ (pre ++ ([45, 45] ++ bd ++ [13, 10]) ++ x) } r →
        ∃ m, r = some m ∧ (After m ps.flatten ((p0 :: parts').map Sent.file) ∨ (ps.flatten ≠ [] ∧ Before m ps.flatten ((p0 :: parts').map Sent.file))) := by
      intro r h
      cases h with
      | empty h => simp [newView] at h
      | refuse _ h => exact absurd (turn.symm.trans h) (by simp)
      | wait _ h => exact absurd (turn.symm.trans h) (by simp)
      | go _ h h' =>
        have := turn.symm.trans h
        cases this
        exact ends_reads h' hg'
    cases h2 with
    | refuse h =>
      obtain ⟨m, e, _⟩ := hends _ h
      cases e
    | next h h' =>
      obtain ⟨m, e, k⟩ := hends _ h
      cases e
      exact hps' h' _ k
  obtain ⟨l, rfl, hv, hfs⟩ := main
  cases r with
  | none => exact h3.elim
  | some p =>
    obtain ⟨⟨⟨b, rfl, _⟩, _⟩, _⟩ := h3
    exact ⟨l.within b, h1, hv, hfs⟩

/-- What the parser has at the end: whether the form is complete, and its parts. -/
def gives (bd : Bytes) (ps : List Bytes) : Outcome (Option (Bool × List File)) :=
  ((Form.Parser.new bd).feed ps).bind fun r => .ok (r.map fun p => (p.valid, p.files))

/-- A form with one part of this name. -/
def oneField (n : Bytes) : Bytes := formText (str "b") [Sent.part ⟨n, none, none, str "x"⟩] true

/-- **C136 is violated**: the name `a=b` arrives as `b"`. -/
theorem C136_violated : ¬ C136_statement := by
  intro h
  obtain ⟨p, h1, _, h3⟩ := h (str "b") [] [] [⟨str "a=b", none, none, str "x"⟩] [oneField (str "a=b")] (by simp) (by decide)
    (by
      intro p hp
      cases List.mem_singleton.1 hp
      refine ⟨?_, nofun, nofun, by decide +kernel, by decide +kernel⟩
      show ∀ c ∈ str "a=b", _
      decide)
    (by decide +kernel) (by decide +kernel) (by decide +kernel) (by decide +kernel)
  have h4 : gives (str "b") [oneField (str "a=b")] = .ok (some (true, [⟨str "b\"", [], [], str "x"⟩])) := by decide +kernel
  rw [gives, h1] at h4
  have h5 : some (p.valid, p.files) = some (true, [⟨str "b\"", [], [], str "x"⟩]) := by injection h4
  injection h5 with h5
  have h6 := congrArg Prod.snd h5
  dsimp only at h6
  rw [h3] at h6
  exact absurd h6 (by decide +kernel)

/-- A semicolon in a name begins another parameter: the name `a; filename=c` arrives as `"a`, and the part has got the file name
`c"`. -/
theorem C136_violated_semicolon :
    gives (str "b") [oneField (str "a; filename=c")] = .ok (some (true, [⟨str "\"a", str "c\"", [], str "x"⟩])) := by
  decide +kernel

/-- What follows a form is ignored if it arrives with the end of the form, and begins another part, without a name, if it arrives
later. -/
theorem C136_violated_epilogue :
    gives (str "b") [oneField (str "a") ++ str "\r\n\r\n"] = .ok (some (true, [⟨str "a", [], [], str "x"⟩])) ∧
      gives (str "b") [oneField (str "a"), str "\r\n\r\n"] = .ok (some (true, [⟨str "a", [], [], str "x"⟩, ⟨[], [], [], []⟩])) := by
  decide +kernel

/-- A form whose first boundary arrives in two pieces is incomplete at its end, and nothing of it was read. -/
theorem C136_violated_first :
    gives (str "b") [(oneField (str "a")).take 4, (oneField (str "a")).drop 4] = .ok (some (false, [])) ∧
      gives (str "b") [(oneField (str "a")).take 5, (oneField (str "a")).drop 5] = .ok (some (true, [⟨str "a", [], [], str "x"⟩])) := by
  decide +kernel

theorem pieces_split (d : UInt8) (r : Bytes) : ∀ s : Bytes, pieces d (s ++ d :: r) = pieces d s ++ pieces d r
  | [] => by simp [pieces]
  | c :: s => by
    have ih := pieces_split d r s
    simp only [List.cons_append, pieces]
    by_cases h : c = d
    · rw [if_pos h, if_pos h, ih]
      rfl
    · rw [if_neg h, if_neg h, ih]
      cases hs : pieces d s with
      | nil => exact absurd hs (by cases s <;> simp only [pieces] <;> (repeat' split) <;> simp)
      | cons p ps => rfl

/-- **C136**, exactly for a parameter with `=` in its value: what is received is what follows the last `=`, without the blanks at
its beginning and with the closing quote. -/
theorem C136_equals {k u v : Bytes} (hk : (61 : UInt8) ∉ k) (hkt : Flush k) (hq : k.head? ≠ some 34) (hv : (61 : UInt8) ∉ v) (h34 : (34 : UInt8) ∉ v) :
    dispParam (k ++ 61 :: withQuotes (u ++ 61 :: v)) = some (k, v.dropWhile isBlank ++ [34]) := by
  have e : k ++ 61 :: withQuotes (u ++ 61 :: v) = k ++ 61 :: (([34] ++ u) ++ 61 :: (v ++ [34])) := by simp [withQuotes]
  have hv' : (61 : UInt8) ∉ v ++ [34] := by simp [hv]
  have hd : trim (v ++ [34]) = v.dropWhile isBlank ++ [34] := by
    have : ∀ w : Bytes, (w ++ [34]).dropWhile isBlank = w.dropWhile isBlank ++ [34] := by
      intro w
      induction w with
      | nil => rfl
      | cons c w ih =>
        rw [List.cons_append, List.dropWhile_cons, List.dropWhile_cons, ih]
        split <;> rfl
    rw [trim, this, List.reverse_append]
    show (List.dropWhile isBlank (34 :: (v.dropWhile isBlank).reverse)).reverse = _
    rw [List.dropWhile_cons_of_neg (by decide), List.reverse_cons, List.reverse_reverse]
  have h0 : v.dropWhile isBlank ++ [34] ≠ [] := by simp
  have hkk : trim k = k := trim_self hkt
  rw [dispParam, e, splitAll_two hk (by rw [hkk]; exact tight_ne hkt)]
  dsimp only
  have hl : (splitAll 61 (([34] ++ u) ++ 61 :: (v ++ [34]))).getLast? = some (v.dropWhile isBlank ++ [34]) := by
    rw [splitAll, pieces_split, pieces_none hv', List.map_append, List.filter_append]
    simp only [List.map_cons, List.map_nil, hd]
    rw [List.filter_cons_of_pos (by simp), List.filter_nil, List.getLast?_append]
    rfl
  rw [hl, hkk, Option.getD_some, unquote_id hq]
  cases hvv : v.dropWhile isBlank with
  | nil => rfl
  | cons a r =>
    have ha : a ≠ 34 := by
      rintro rfl
      exact h34 ((List.dropWhile_suffix isBlank).subset (hvv ▸ List.mem_cons_self))
    rw [unquote_id (by simpa using ha)]

/-! ## Examples -/

/-- A part with everything. -/
def fullPart : Sent := ⟨str "cert", some (str "c v.pem"), some (str "text/plain"), str "--b\r\n--"⟩

theorem fullPart_lawful : fullPart.Lawful (str "b") ∧ Uncut fullPart.name ∧ ∀ x ∈ fullPart.filename, Uncut x := by
  refine ⟨⟨?_, ?_, ?_, by decide +kernel, by decide +kernel⟩, by unfold Uncut; decide +kernel, ?_⟩
  · show ∀ c ∈ str "cert", _
    decide
  · intro f hf
    cases hf
    show ∀ c ∈ str "c v.pem", _
    decide
  · intro t ht
    cases ht
    exact ⟨⟨⟨116, str "ext/plain", by decide⟩, 110, str "text/plai", by decide⟩, by decide⟩
  · intro x hx
    cases hx
    unfold Uncut
    decide

/-- Non-vacuity of C135 and C136: a form of two parts with a preamble, its first boundary in one piece and every other byte in
its own. -/
example :
    let f := str "hi\r\n" ++ formText (str "b") [fullPart.part, fullPart.part] true
    f.length < 2 ^ 64 - 1 ∧ FirstBehind ([45, 45] ++ str "b" ++ [13, 10]) (str "hi\r\n") ∧
      str "hi\r\n" ++ ([45, 45] ++ str "b" ++ [13, 10]) <+: f.take 12 ∧ f.take 12 ++ (f.drop 12) = f ∧
      gives (str "b") (f.take 12 :: (f.drop 12).map fun c => [c]) = .ok (some (true, [fullPart.file, fullPart.file])) := by
  decide +kernel

/-- The positions of the buffer and its length, what is in use of it and the contents of the parts. -/
def leaves (bd : Bytes) (ps : List Bytes) : Option (List Nat × List Bytes) :=
  match (Form.Parser.new bd).feed ps with
  | .ok (some p) => some ([p.buf.spos, p.buf.epos, p.buf.data.length], inUse p.buf :: p.files.map (·.content))
  | _ => none

/-- The parts of a body that is no correct form are pieces of it, too; what is in use of the buffer is its end. -/
example : leaves (str "b") [str "--b\r\n\r\nabcde", str "fghi\r\n--", str "a"] = some ([1, 6, 13], [str "\r\n--a", str "abcdefghi"]) := by
  decide +kernel

/-- The name `a=b` (see `C136_equals`). -/
example : dispParam (str "name" ++ 61 :: withQuotes (str "a=b")) = some (str "name", str "b\"") := by decide +kernel

end Brski.Props
