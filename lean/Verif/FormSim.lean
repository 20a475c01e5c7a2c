import Verif.FormLemmas

/-!
# The parser for multipart content by what is in its buffer (lemmas)
-/

namespace Brski.Form
open Outcome Routes Scan Cut Props

/-! ## Lines of header fields -/

/-- A parameter of a disposition: the first part and the last of the others, without quotes. -/
def dispParam (kv : Bytes) : Option (Bytes × Bytes) :=
  match splitAll 61 kv with
  | [] => none
  | k :: vs => some (unquote k, unquote (vs.getLast?.getD []))

/-- The parameters of a disposition, repetitions of a text left out. -/
def dispParams : List Bytes → List Bytes → List (Bytes × Bytes)
  | _, [] => []
  | seen, kv :: r => if kv ∈ seen then dispParams seen r else (dispParam kv).toList ++ dispParams (kv :: seen) r

theorem paramLoop_eq : ∀ (ps cache : List Bytes) (out : List (Bytes × Bytes)), (∀ x ∈ ps, x.length < 2 ^ 64 - 1) →
    paramLoop ps cache out = .ok (out ++ dispParams cache ps)
  | [], _, out, _ => by simp [paramLoop, dispParams]
  | kv :: r, cache, out, h => by
    have hr := fun x hx => h x (List.mem_cons_of_mem _ hx)
    rw [paramLoop, dispParams]
    by_cases hm : kv ∈ cache
    · rw [if_pos hm, if_pos hm]
      exact paramLoop_eq r cache out hr
    · rw [if_neg hm, if_neg hm, splitAll_scan 61 (h kv (List.mem_cons_self ..)), bind'_ok, dispParam]
      cases hs : splitAll 61 kv with
      | nil =>
        show (if ([] : Bytes) ≠ [] then _ else paramLoop r (kv :: cache) out) = _
        rw [if_neg (by simp)]
        exact paramLoop_eq r _ out hr
      | cons k vs =>
        have hk : k ≠ [] := splitAll_mem (d := 61) (s := kv) (by rw [hs]; exact List.mem_cons_self ..)
        have hf : (k :: vs).foldl keyVal ([], []) = (k, vs.getLast?.getD []) := by
          rw [List.foldl_cons, keyVal, if_pos rfl]
          exact keyVal_fold k hk vs []
        simp only [hf, ne_eq, hk, not_false_eq_true, if_true]
        rw [paramLoop_eq r _ _ hr]
        simp

theorem params_eq {s : Bytes} (h : s.length < 2 ^ 64 - 1) : params s = .ok (dispParams [] (splitAll 59 s)) := by
  rw [params, splitAll_scan 59 h, bind'_ok, paramLoop_eq _ _ _ (fun x hx => by have := splitAll_le hx; omega)]
  rfl

theorem ignoreLoop_eq : ∀ (b a v : Bytes), b.length ≤ v.length →
    ignoreLoop (a ++ v) a.length b = .ok ((v.take b.length).map lower == b.map lower)
  | [], a, v, _ => by simp [ignoreLoop]
  | c :: b, a, [], h => by simp at h
  | c :: b, a, x :: v, h => by
    rw [ignoreLoop, charAt_app, bind'_ok]
    simp only [List.length_cons, List.take_succ_cons, List.map_cons]
    by_cases hx : lower x = lower c
    · rw [if_neg (by simp [hx])]
      have := ignoreLoop_eq b (a ++ [x]) v (by simpa using h)
      simp only [List.append_assoc, List.cons_append, List.nil_append, List.length_append, List.length_cons, List.length_nil] at this
      rw [this, hx]
      simp
    · rw [if_pos hx]
      simp [hx]

theorem startIgnore_eq (a b : Bytes) : startIgnore a b = .ok ((a.take b.length).map lower == b.map lower) := by
  rw [startIgnore]
  split
  · rename_i h
    congr 1
    rw [Eq.comm, beq_eq_false_iff_ne]
    intro e
    have := congrArg List.length e
    simp only [List.length_map, List.length_take] at this
    omega
  · rename_i h
    have := ignoreLoop_eq b [] a (by omega)
    simpa using this

theorem trimCopy_eq (s : Bytes) : trimCopy s = .ok (trim s) := by
  unfold trimCopy
  rcases blank_cases s with h | ⟨u, x, w, e, hu, hw, h1, h2⟩
  · have h1 := trimLeft_blank [] s [] h
    rw [trim_blank h]
    simp only [List.nil_append, List.append_nil, List.length_nil, Nat.zero_add] at h1
    have h4 : trimLeft s s.length = .ok s.length := by rw [trimLeft, dif_neg (by omega)]
    rw [h1, h4, bind'_ok]
    obtain ⟨k, h2, h3⟩ := trimRight_le s s.length (Nat.le_refl _)
    rw [h2, bind'_ok, if_pos (Nat.le_refl _), List.drop_length, List.take_nil]
  · have hl : trimLeft s 0 = .ok u.length := by
      obtain ⟨a, r, e1, ha⟩ := h1
      have t1 := trimLeft_blank (x ++ w) u [] hu
      have t2 := trimLeft_stop u ha (r ++ w)
      subst e; subst e1
      simp only [List.nil_append, List.length_nil, Nat.zero_add, List.cons_append] at t1 t2 ⊢
      rw [t1, t2]
    have hr : trimRight s s.length = .ok (u.length + x.length) := by
      obtain ⟨b, q, e2, hb⟩ := h2
      have t1 := trimRight_blank (u ++ x) [] w.reverse (fun c hc => hw c (List.mem_reverse.mp hc))
      have t2 := trimRight_stop (u ++ q) hb w
      subst e; subst e2
      simp only [List.reverse_reverse, List.length_reverse, List.append_assoc, List.cons_append, List.nil_append, List.append_nil, List.length_append,
        List.length_cons, List.length_nil, Nat.zero_add] at t1 t2 ⊢
      rw [show u.length + (q.length + (w.length + 1)) = u.length + (q.length + 1) + w.length from by omega, t1,
        show u.length + (q.length + 1) = u.length + q.length + 1 from by omega, t2]
    rw [hl, bind'_ok, hr, bind'_ok, e, trim_core hu hw h1 h2, if_pos (by simp), if_pos (by omega), List.drop_left,
      Nat.add_sub_cancel_left, List.take_left]

/-- What a line of header fields tells about a part. -/
def readLine (f : File) (h : Bytes) : Option File :=
  if (parseHeader h).isNone then none
  else if (h.take 13).map lower = (str "Content-Type:").map lower then some { f with contentType := trim (h.drop 13) }
  else
    match disposition h with
    | none => some f
    | some d =>
      let ps := dispParams [] (splitAll 59 d)
      match param ps (str "name") with
      | none => none
      | some n =>
        let f := { f with name := n }
        let f := match param ps (str "filename") with
          | none => f
          | some x => { f with filename := x }
        match param ps (str "filename*") with
        | none => some f
        | some v => (extended v).map fun x => { f with filename := decodeUrl x }

theorem behind_le {p s r : Bytes} (h : behind p s = some r) : r.length ≤ s.length := by
  unfold behind at h
  split at h
  · cases h; rw [List.length_drop]; omega
  · cases h

theorem disposition_le {h d : Bytes} (hd : disposition h = some d) : d.length ≤ h.length := by
  unfold disposition at hd
  obtain ⟨r, h1, hd⟩ := Option.bind_eq_some_iff.1 hd
  obtain ⟨t, h2, hd⟩ := Option.bind_eq_some_iff.1 hd
  have k1 := behind_le h1
  have k2 := behind_le h2
  have k3 := dropWhile_len isSpace r
  have k4 := dropWhile_len isSpace t
  split at hd
  · cases hd; omega
  · cases hd

theorem line_eq (f : File) {h : Bytes} (hl : h.length < 2 ^ 64 - 1) : line f h = .ok (readLine f h) := by
  unfold line readLine
  rw [header_scan, bind'_ok]
  cases hp : parseHeader h with
  | none => rfl
  | some p =>
    simp only [Option.isNone, Bool.false_eq_true, if_false]
    rw [startIgnore_eq, bind'_ok, show (str "Content-Type:").length = 13 from by decide]
    by_cases hc : (h.take 13).map lower = (str "Content-Type:").map lower
    · have hlen : 13 ≤ h.length := by
        have := congrArg List.length hc
        rw [List.length_map, List.length_take, List.length_map, show (str "Content-Type:").length = 13 from by decide] at this
        omega
      rw [if_pos (by simpa using hc), if_pos hc, if_pos hlen, trimCopy_eq, bind'_ok]
    · rw [if_neg (by simpa using hc), if_neg hc]
      cases hd : disposition h with
      | none => rfl
      | some d =>
        dsimp only
        rw [params_eq (by have := disposition_le hd; omega), bind'_ok]
        unfold named
        generalize dispParams [] (splitAll 59 d) = ps
        cases param ps (str "name") with
        | none => rfl
        | some n =>
          dsimp only
          cases param ps (str "filename*") with
          | none => rfl
          | some v =>
            dsimp only
            cases extended v with
            | none => rfl
            | some x => dsimp only; rw [decode_scan]; rfl

/-! ## The parser -/

/-- The parser with the bytes that are in use instead of the buffer. -/
structure View where
  boundary : Bytes
  phase : Phase
  valid : Bool
  file : File
  buf : Bytes
  files : List File

/-- The parser with this buffer. -/
def View.within (l : View) (b : Buf) : Parser := ⟨l.boundary, l.phase, l.valid, l.file, b, l.files⟩

/-- The parser of `Cut`. -/
def View.cut (l : View) : Cut.Parser := ⟨l.boundary, l.phase, l.valid, l.buf, l.files.length⟩

def View.opening (p : View) : Bytes := dash ++ p.boundary ++ crlf

def View.closing (p : View) : Bytes := crlf ++ dash ++ p.boundary

/-- A round of the loop. -/
inductive Turn where
  | refuse
  | wait (p : View)
  | go (p : View)

/-- The file that came last gets more content. -/
def longer : List File → Bytes → List File
  | [], _ => []
  | [f], x => [{ f with content := f.content ++ x }]
  | f :: g :: fs, x => f :: longer (g :: fs) x

theorem longer_length : ∀ (fs : List File) (x : Bytes), (longer fs x).length = fs.length
  | [], _ => rfl
  | [f], x => rfl
  | f :: g :: fs, x => by rw [longer, List.length_cons, longer_length (g :: fs) x]; rfl

theorem longer_concat (f : File) (x : Bytes) : ∀ fs : List File, longer (fs ++ [f]) x = fs ++ [{ f with content := f.content ++ x }]
  | [] => rfl
  | [g] => rfl
  | g :: g' :: fs => by
    have := longer_concat f x (g' :: fs)
    rw [List.cons_append] at this
    rw [List.cons_append, List.cons_append, longer, this]
    rfl

theorem received_eq {fs : List File} (h : fs ≠ []) (x : Bytes) : received fs x = .ok (longer fs x) := by
  have e := List.dropLast_concat_getLast h
  rw [received, List.getLast?_eq_some_getLast h]
  dsimp only
  conv => rhs; rw [← e]
  rw [longer_concat]

/-- The loop over the lines. -/
def View.heads (l : View) : Turn :=
  if _h : findAt crlf l.buf < l.buf.length then
    if findAt crlf l.buf = 0 then
      if l.files.length = 1024 then .refuse
      else .go { l with buf := l.buf.drop 2, phase := .body, files := l.files ++ [l.file] }
    else
      match readLine l.file (l.buf.take (findAt crlf l.buf)) with
      | none => .refuse
      | some f => View.heads { l with file := f, buf := l.buf.drop (findAt crlf l.buf + 2) }
  else .wait l
termination_by l.buf.length
decreasing_by simp only [List.length_drop]; omega

/-- One round. -/
def View.turn (p : View) : Turn :=
  match p.phase with
  | .first =>
    let b := p.buf.drop (findAt p.opening p.buf)
    if p.opening.length > b.length then .wait { p with buf := b }
    else if p.opening.isPrefixOf b then .go { p with buf := b.drop p.opening.length, phase := .entry }
    else .refuse
  | .entry => .go { p with file := { p.file with name := [], filename := [], contentType := [] }, phase := .headers }
  | .headers => if findAt crlf p.buf > 8192 then .refuse else p.heads
  | .body =>
    if p.closing.length > p.buf.length then .wait p
    else if findAt p.closing p.buf < p.buf.length then
      .go { p with buf := p.buf.drop (findAt p.closing p.buf + p.closing.length), phase := .boundary,
                   files := longer p.files (p.buf.take (findAt p.closing p.buf)) }
    else if p.buf.length - p.closing.length > 0 then
      .wait { p with buf := p.buf.drop (p.buf.length - p.closing.length),
                     files := longer p.files (p.buf.take (p.buf.length - p.closing.length)) }
    else .wait p
  | .boundary =>
    if 2 > p.buf.length then .wait p
    else if crlf.isPrefixOf p.buf then .go { p with buf := p.buf.drop 2, phase := .entry }
    else if dash.isPrefixOf p.buf then .go { p with valid := true, buf := [] }
    else .wait p

/-- A part is there while its content is read. -/
def View.Sane (p : View) : Prop := p.phase = .body → p.files ≠ []

/-- The parser and what it stands for. -/
def Same (p : Parser) (l : View) : Prop := (∃ b, p = l.within b ∧ Holds b l.buf) ∧ l.Sane

/-- The rounds and what they stand for; a round that is not the last uses up some of the buffer. -/
def SameTurn (l : View) : Round → Turn → Prop
  | .refuse, .refuse => True
  | .wait q, .wait m => Same q m ∧ m.buf.length ≤ l.buf.length
  | .go q, .go m => Same q m ∧ 2 * m.buf.length + m.phase.rank < 2 * l.buf.length + l.phase.rank
  | _, _ => False

theorem headLoop_eq : ∀ (k : Nat) (l : View) (b : Buf), Holds b l.buf → l.phase = .headers → l.buf.length < k → l.buf.length < 2 ^ 64 - 1 →
    ∃ r, headLoop k (l.within b) (findAt crlf l.buf) = .ok r ∧ SameTurn l r l.heads
  | 0, l, b, _, _, h, _ => by omega
  | k + 1, l, b, hb, hp, hk, hl => by
    rw [headLoop, View.heads]
    have hs : (l.within b).buf.size = .ok l.buf.length := holds_size hb
    rw [hs, bind'_ok]
    by_cases h : findAt crlf l.buf < l.buf.length
    · have h2 := findAt_fits h
      have hc : crlf.length = 2 := rfl
      rw [if_pos h, dif_pos h]
      by_cases h0 : findAt crlf l.buf = 0
      · rw [if_pos h0, if_pos h0]
        show ∃ r, (if l.files.length = 1024 then _ else _) = _ ∧ _
        by_cases hn : l.files.length = 1024
        · rw [if_pos hn, if_pos hn]
          exact ⟨_, rfl, trivial⟩
        · rw [if_neg hn, if_neg hn]
          refine ⟨_, rfl, ⟨⟨b.erase 2, rfl, holds_erase hb (by omega)⟩, fun _ => by simp⟩, ?_⟩
          simp only [List.length_drop, hp, Phase.rank]
          omega
      · rw [if_neg h0, if_neg h0]
        have hh : (l.within b).buf.head (findAt crlf l.buf) = .ok (l.buf.take (findAt crlf l.buf)) := holds_head hb (by omega)
        rw [hh, bind'_ok, line_eq _ (by rw [List.length_take]; omega), bind'_ok]
        have hfile : (l.within b).file = l.file := rfl
        rw [hfile]
        cases hr : readLine l.file (l.buf.take (findAt crlf l.buf)) with
        | none => exact ⟨_, rfl, trivial⟩
        | some f =>
          dsimp only
          have hb' : Holds (b.erase (findAt crlf l.buf + 2)) (l.buf.drop (findAt crlf l.buf + 2)) := holds_erase hb (by omega)
          have hf : ((l.within b).buf.erase (findAt crlf l.buf + 2)).find crlf = .ok (findAt crlf (l.buf.drop (findAt crlf l.buf + 2))) :=
            holds_find hb' (by decide)
          rw [hf, bind'_ok]
          obtain ⟨r, h3, h4⟩ := headLoop_eq k { l with file := f, buf := l.buf.drop (findAt crlf l.buf + 2) } _ hb' hp
            (by simp only [List.length_drop]; omega) (by simp only [List.length_drop]; omega)
          refine ⟨r, h3, ?_⟩
          revert h4
          generalize View.heads _ = t
          cases r <;> cases t <;> simp only [SameTurn, imp_self, List.length_drop] <;> (rintro ⟨h5, h6⟩; refine ⟨h5, ?_⟩; omega)
    · rw [if_neg h, dif_neg h]
      exact ⟨_, rfl, ⟨⟨b, rfl, hb⟩, fun h => by rw [hp] at h; cases h⟩, Nat.le_refl _⟩

theorem round_eq (l : View) (b : Buf) (hb : Holds b l.buf) (hs : l.Sane) (hne : l.buf ≠ []) (hl : l.buf.length < 2 ^ 64 - 1) :
    ∃ r, (l.within b).round l.buf.length = .ok r ∧ SameTurn l r l.turn := by
  have hpos : 0 < l.buf.length := List.length_pos_iff.2 hne
  unfold Parser.round View.turn
  have hph : (l.within b).phase = l.phase := rfl
  have hbuf : (l.within b).buf = b := rfl
  have hop : (l.within b).opening = l.opening := rfl
  have hcl : (l.within b).closing = l.closing := rfl
  have hfs : (l.within b).files = l.files := rfl
  rw [hph, hbuf, hop, hcl, hfs]
  have ho4 : 4 ≤ l.opening.length := by simp [View.opening, dash, crlf]
  have hc4 : 4 ≤ l.closing.length := by simp [View.closing, dash, crlf]
  have ho0 : l.opening ≠ [] := by intro h; rw [h] at ho4; simp at ho4
  have hc0 : l.closing ≠ [] := by intro h; rw [h] at hc4; simp at hc4
  cases hp : l.phase with
  | first =>
    dsimp only
    have hfl := findAt_le l.opening l.buf
    rw [holds_find hb ho0, bind'_ok]
    have hb' := holds_erase hb hfl
    rw [holds_size hb', bind'_ok]
    by_cases h1 : l.opening.length > (l.buf.drop (findAt l.opening l.buf)).length
    · rw [if_pos h1, if_pos h1]
      refine ⟨_, rfl, ⟨⟨_, rfl, hb'⟩, fun h => ?_⟩, ?_⟩
      · simp only [hp] at h; cases h
      · simp only [List.length_drop]; omega
    · rw [if_neg h1, if_neg h1, holds_start hb', bind'_ok]
      cases hpre : l.opening.isPrefixOf (l.buf.drop (findAt l.opening l.buf)) with
      | true =>
        rw [if_pos rfl, if_pos rfl]
        refine ⟨_, rfl, ⟨⟨_, rfl, holds_erase hb' (by omega)⟩, fun h => by cases h⟩, ?_⟩
        simp only [List.length_drop, hp, Phase.rank] at h1 ⊢
        omega
      | false => exact ⟨_, rfl, trivial⟩
  | entry =>
    refine ⟨_, rfl, ⟨⟨b, rfl, hb⟩, fun h => by cases h⟩, ?_⟩
    simp only [hp, Phase.rank]
    omega
  | headers =>
    dsimp only
    rw [holds_find hb (by decide), bind'_ok]
    by_cases h1 : findAt crlf l.buf > 8192
    · rw [if_pos h1, if_pos h1]
      exact ⟨_, rfl, trivial⟩
    · rw [if_neg h1, if_neg h1]
      exact headLoop_eq _ l b hb hp (by omega) hl
  | body =>
    dsimp only
    by_cases h1 : l.closing.length > l.buf.length
    · rw [if_pos h1, if_pos h1]
      exact ⟨_, rfl, ⟨⟨b, rfl, hb⟩, hs⟩, Nat.le_refl _⟩
    · rw [if_neg h1, if_neg h1, holds_find hb hc0, bind'_ok]
      by_cases h2 : findAt l.closing l.buf < l.buf.length
      · have h3 := findAt_fits h2
        rw [if_pos h2, if_pos h2, holds_bytes hb (by omega), bind'_ok, received_eq (hs hp), bind'_ok]
        refine ⟨_, rfl, ⟨⟨_, rfl, holds_erase hb (by omega)⟩, fun h => by cases h⟩, ?_⟩
        simp only [List.length_drop, hp, Phase.rank]
        omega
      · rw [if_neg h2, if_neg h2]
        by_cases h3 : l.buf.length - l.closing.length > 0
        · rw [if_pos h3, if_pos h3, holds_bytes hb (by omega), bind'_ok, received_eq (hs hp), bind'_ok]
          refine ⟨_, rfl, ⟨⟨_, rfl, holds_erase hb (by omega)⟩, fun _ => ?_⟩, ?_⟩
          · intro h
            have := congrArg List.length h
            simp only [longer_length, List.length_nil] at this
            exact hs hp (List.length_eq_zero_iff.1 this)
          · simp only [List.length_drop]; omega
        · rw [if_neg h3, if_neg h3]
          exact ⟨_, rfl, ⟨⟨b, rfl, hb⟩, hs⟩, Nat.le_refl _⟩
  | boundary =>
    dsimp only
    by_cases h1 : 2 > l.buf.length
    · rw [if_pos h1, if_pos h1]
      exact ⟨_, rfl, ⟨⟨b, rfl, hb⟩, hs⟩, Nat.le_refl _⟩
    · rw [if_neg h1, if_neg h1, holds_start hb, bind'_ok]
      cases crlf.isPrefixOf l.buf with
      | true =>
        rw [if_pos rfl, if_pos rfl]
        refine ⟨_, rfl, ⟨⟨_, rfl, holds_erase hb (by omega)⟩, fun h => by cases h⟩, ?_⟩
        simp only [List.length_drop, hp, Phase.rank]
        omega
      | false =>
        rw [if_neg (by simp), if_neg (by simp), holds_start hb, bind'_ok]
        cases dash.isPrefixOf l.buf with
        | true =>
          have hb2 := holds_erase (n := 2) hb (by omega)
          rw [if_pos rfl, if_pos rfl]
          rw [holds_size hb2, bind'_ok]
          refine ⟨_, rfl, ⟨⟨_, rfl, ?_⟩, fun h => ?_⟩, ?_⟩
          · have := holds_erase hb2 (Nat.le_refl _)
            rwa [List.drop_length] at this
          · simp only [hp] at h; cases h
          · simp only [hp, Phase.rank, List.length_nil]; omega
        | false =>
          rw [if_neg (by simp), if_neg (by simp)]
          exact ⟨_, rfl, ⟨⟨b, rfl, hb⟩, hs⟩, Nat.le_refl _⟩

/-- The loop by what is in the buffer. -/
inductive Ends : View → Option View → Prop
  | empty {l} : l.buf = [] → Ends l (some l)
  | refuse {l} : l.buf ≠ [] → l.turn = .refuse → Ends l none
  | wait {l m} : l.buf ≠ [] → l.turn = .wait m → Ends l (some m)
  | go {l m r} : l.buf ≠ [] → l.turn = .go m → Ends m r → Ends l r

/-- What the loop leaves. -/
def SameEnd (n : Nat) : Option Parser → Option View → Prop
  | none, none => True
  | some q, some m => Same q m ∧ m.buf.length ≤ n
  | _, _ => False

theorem run_eq : ∀ (k : Nat) (p : Parser) (l : View), Same p l → l.buf.length < 2 ^ 64 - 1 → 2 * l.buf.length + l.phase.rank < k →
    ∃ r m, Parser.run k p = .ok r ∧ Ends l m ∧ SameEnd l.buf.length r m
  | 0, p, l, _, _, h => by omega
  | k + 1, p, l, hsame, hl, hk => by
    obtain ⟨⟨b, rfl, hb⟩, hs⟩ := hsame
    rw [Parser.run]
    have hz : (l.within b).buf.size = .ok l.buf.length := holds_size hb
    rw [hz, bind'_ok]
    by_cases h0 : l.buf = []
    · rw [if_neg (by simp [h0])]
      exact ⟨_, some l, rfl, .empty h0, ⟨⟨⟨b, rfl, hb⟩, hs⟩, Nat.le_refl _⟩⟩
    · rw [if_pos (List.length_pos_iff.2 h0)]
      obtain ⟨r, h1, h2⟩ := round_eq l b hb hs h0 hl
      rw [h1, bind'_ok]
      cases ht : l.turn with
      | refuse =>
        cases r <;> simp only [SameTurn, ht] at h2
        exact ⟨_, none, rfl, .refuse h0 ht, trivial⟩
      | wait m =>
        cases r <;> simp only [SameTurn, ht] at h2
        exact ⟨_, some m, rfl, .wait h0 ht, h2⟩
      | go m =>
        cases r with
        | refuse => simp only [SameTurn, ht] at h2
        | wait q => simp only [SameTurn, ht] at h2
        | go q =>
          simp only [SameTurn, ht] at h2
          have hr : m.phase.rank ≤ 1 := by cases m.phase <;> simp [Phase.rank]
          have hr2 : l.phase.rank ≤ 1 := by cases l.phase <;> simp [Phase.rank]
          obtain ⟨r, e, h3, h4, h5⟩ := run_eq k q m h2.1 (by omega) (by omega)
          refine ⟨r, e, h3, .go h0 ht h4, ?_⟩
          revert h5
          cases r <;> cases e <;> simp only [SameEnd, imp_self]
          rintro ⟨h6, h7⟩
          refine ⟨h6, ?_⟩
          omega

/-- A piece. -/
theorem parse_eq {p : Parser} {l : View} (h : Same p l) (x : Bytes) (hl : l.buf.length + x.length < 2 ^ 64 - 1) :
    ∃ r m, p.parse x = .ok r ∧ Ends { l with buf := l.buf ++ x } m ∧ SameEnd (l.buf.length + x.length) r m := by
  obtain ⟨⟨b, rfl, hb⟩, hs⟩ := h
  obtain ⟨b', h1, h2⟩ := holds_append hb x
  unfold Parser.parse
  have hz : (l.within b).buf.append x = .ok b' := h1
  rw [hz, bind'_ok, holds_size h2, bind'_ok]
  have hr : l.phase.rank ≤ 1 := by cases l.phase <;> simp [Phase.rank]
  have := run_eq (2 * (l.buf ++ x).length + 2) (View.within { l with buf := l.buf ++ x } b') { l with buf := l.buf ++ x }
    ⟨⟨b', rfl, h2⟩, hs⟩ (by simp only [List.length_append]; omega) (by dsimp only; omega)
  simp only [List.length_append] at this ⊢
  exact this

/-- A body. -/
inductive Fed : View → List Bytes → Option View → Prop
  | done {l} : Fed l [] (some l)
  | refuse {l x xs} : Ends { l with buf := l.buf ++ x } none → Fed l (x :: xs) none
  | next {l m x xs r} : Ends { l with buf := l.buf ++ x } (some m) → Fed m xs r → Fed l (x :: xs) r

theorem feed_eq : ∀ (xs : List Bytes) {p : Parser} {l : View}, Same p l → l.buf.length + xs.flatten.length < 2 ^ 64 - 1 →
    ∃ r m, p.feed xs = .ok r ∧ Fed l xs m ∧ SameEnd (2 ^ 64 - 2) r m
  | [], p, l, h, hl => ⟨_, _, rfl, .done, h, by omega⟩
  | x :: xs, p, l, h, hl => by
    simp only [List.flatten_cons, List.length_append] at hl
    obtain ⟨r, m, h1, h2, h3⟩ := parse_eq h x (by omega)
    rw [Parser.feed, h1, bind'_ok]
    cases r with
    | none =>
      cases m with
      | none => exact ⟨_, none, rfl, .refuse h2, trivial⟩
      | some m => exact h3.elim
    | some q =>
      cases m with
      | none => exact h3.elim
      | some m =>
        obtain ⟨r, e, h4, h5, h6⟩ := feed_eq xs h3.1 (by have := h3.2; omega)
        exact ⟨r, e, h4, .next h2 h5, h6⟩

/-! ## The parser of `Cut` -/

/-- Whether a line is accepted. -/
def lineOk (h : Bytes) : Bool := (readLine File.none h).isSome

theorem lineOk_eq (f : File) (h : Bytes) : (readLine f h).isSome = lineOk h := by
  unfold lineOk readLine
  split
  · rfl
  · split
    · rfl
    · cases disposition h with
      | none => rfl
      | some d =>
        dsimp only
        generalize dispParams [] (splitAll 59 d) = ps
        cases param ps (str "name") with
        | none => rfl
        | some n =>
          dsimp only
          cases param ps (str "filename*") with
          | none => rfl
          | some v => simp

/-- What a round is for `Cut`. -/
def headsCut : Turn → Option (Bool × Bytes × Nat)
  | .refuse => none
  | .wait m => some (false, m.buf, m.files.length)
  | .go m => some (true, m.buf, m.files.length)

theorem heads_same (l : View) : (match l.heads with
    | .refuse => True
    | .wait m => m.boundary = l.boundary ∧ m.phase = l.phase ∧ m.valid = l.valid
    | .go m => m.boundary = l.boundary ∧ m.phase = .body ∧ m.valid = l.valid) ∧
    headerLoop lineOk l.files.length l.buf = headsCut l.heads := by
  rw [View.heads, headerLoop]
  by_cases h : findAt crlf l.buf < l.buf.length
  · rw [dif_pos h, dif_pos h]
    by_cases h0 : findAt crlf l.buf = 0
    · rw [if_pos h0, if_pos h0]
      by_cases hn : l.files.length = 1024
      · rw [if_pos hn, if_pos hn]
        exact ⟨trivial, rfl⟩
      · rw [if_neg hn, if_neg hn]
        refine ⟨⟨rfl, rfl, rfl⟩, ?_⟩
        simp [headsCut]
    · rw [if_neg h0, if_neg h0]
      have hok := lineOk_eq l.file (l.buf.take (findAt crlf l.buf))
      cases hr : readLine l.file (l.buf.take (findAt crlf l.buf)) with
      | none =>
        rw [hr] at hok
        rw [if_neg (by rw [← hok]; simp)]
        exact ⟨trivial, rfl⟩
      | some f =>
        rw [hr] at hok
        rw [if_pos (by rw [← hok]; rfl)]
        exact heads_same { l with file := f, buf := l.buf.drop (findAt crlf l.buf + 2) }
  · rw [dif_neg h, dif_neg h]
    exact ⟨⟨rfl, rfl, rfl⟩, rfl⟩
termination_by l.buf.length
decreasing_by simp only [List.length_drop]; omega

theorem ends_cut {l : View} {r : Option View} (h : Ends l r) : Parser.loop lineOk l.cut = r.map View.cut := by
  have hb : ∀ m : View, m.cut.buf = m.buf := fun _ => rfl
  have hop : ∀ m : View, m.cut.opening = m.opening := fun _ => rfl
  have hcl : ∀ m : View, m.cut.closing = m.closing := fun _ => rfl
  have hfl : ∀ m : View, m.cut.files = m.files.length := fun _ => rfl
  have key : ∀ l : View, l.buf ≠ [] → Parser.loop lineOk l.cut = match l.turn with
      | .refuse => none
      | .wait m => some m.cut
      | .go m => Parser.loop lineOk m.cut := by
    intro l hne
    rw [loop_step, if_neg (by rw [hb]; exact hne), View.turn]
    have hph : l.cut.phase = l.phase := rfl
    rw [hph]
    cases hp : l.phase with
    | first =>
      simp only [hop, hb]
      by_cases h1 : l.opening.length > (l.buf.drop (findAt l.opening l.buf)).length
      · rw [if_pos h1, if_pos h1]
        rfl
      · rw [if_neg h1, if_neg h1]
        cases l.opening.isPrefixOf (l.buf.drop (findAt l.opening l.buf)) <;> rfl
    | entry => rfl
    | headers =>
      simp only [hb, hfl]
      by_cases h1 : findAt crlf l.buf > 8192
      · rw [if_pos h1, if_pos h1]
      · rw [if_neg h1, if_neg h1]
        obtain ⟨k1, k2⟩ := heads_same l
        rw [k2]
        revert k1
        cases l.heads with
        | refuse => exact fun _ => rfl
        | wait m =>
          rintro ⟨e1, e2, e3⟩
          simp only [headsCut, View.cut]
          rw [e1, e2, e3, hp]
        | go m =>
          rintro ⟨e1, e2, e3⟩
          simp only [headsCut, View.cut]
          rw [e1, e2, e3]
    | body =>
      simp only [hcl, hb]
      by_cases h1 : l.closing.length > l.buf.length
      · rw [if_pos h1, if_pos h1]
      · rw [if_neg h1, if_neg h1]
        by_cases h2 : findAt l.closing l.buf < l.buf.length
        · rw [if_pos h2, if_pos h2]
          simp only [View.cut, longer_length]
        · rw [if_neg h2, if_neg h2]
          by_cases h3 : l.buf.length - l.closing.length > 0
          · rw [if_pos h3]
            simp only [View.cut, longer_length]
          · rw [if_neg h3, show l.buf.length - l.closing.length = 0 by omega]
            simp only [View.cut, List.drop_zero, hp]
    | boundary =>
      simp only [hb]
      by_cases h1 : 2 > l.buf.length
      · rw [if_pos h1, if_pos h1]
      · rw [if_neg h1, if_neg h1]
        cases crlf.isPrefixOf l.buf with
        | true => rfl
        | false =>
          cases dash.isPrefixOf l.buf with
          | true =>
            simp only [Bool.false_eq_true, if_false, if_true]
            symm
            rw [loop_step]
            exact if_pos rfl
          | false => simp only [Bool.false_eq_true, if_false, View.cut, hp]
  induction h with
  | empty h => rw [loop_step]; exact if_pos h
  | refuse h1 h2 => rw [key _ h1, h2]; rfl
  | wait h1 h2 => rw [key _ h1, h2]; rfl
  | go h1 h2 _ ih => rw [key _ h1, h2]; exact ih

theorem fed_cut {l : View} {xs : List Bytes} {r : Option View} (h : Fed l xs r) :
    xs.foldlM (Cut.Parser.parse lineOk) l.cut = r.map View.cut := by
  induction h with
  | done => rfl
  | @refuse l x xs h =>
    have h : Cut.Parser.parse lineOk l.cut x = none := ends_cut h
    rw [List.foldlM_cons, h]
    rfl
  | @next l m x xs r h _ ih =>
    have h : Cut.Parser.parse lineOk l.cut x = some m.cut := ends_cut h
    rw [List.foldlM_cons, h]
    exact ih

end Brski.Form
