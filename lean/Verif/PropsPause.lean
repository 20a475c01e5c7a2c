import Verif.Pause
import Verif.PropsCutConn

/-!
# C139: a client that pauses
-/

namespace Brski.Props
open Outcome Routes Wire Ranges Conn

/-! ## Specification -/

/-- Requests that are sent with pauses: all of them arrive in the end, in parts that are not empty, and each part but the last is followed
by a read that fails. -/
structure Paused (ms : List Msg) (s : Cut.Strm) (later : List Cut.Strm) : Prop where
  whole : (s :: later).flatMap (·.bytes) = ms.flatMap Msg.text
  parts : ∀ t ∈ s :: later, t.bytes ≠ []
  pauses : ∀ t ∈ (s :: later).dropLast, t.orderly = false

/-- **C139** as stated: every handler that runs has been asked for by the client, and sees the content the client has sent to it. -/
def C139_statement : Prop :=
  ∀ (rs : List Route) (ok : Bytes → Bool) (E : Env) (ms : List Msg) (s : Cut.Strm) (later : List Cut.Strm),
    (∀ m ∈ ms, m.Valid ∧ m.Simple) → Paused ms s later → ∀ ds, Pause.connection rs ok E s later = .ok ds →
      ∀ d ∈ ds, ∀ e hs b, d.ran = some (e, hs, b) → ∃ m ∈ ms, b = m.content

/-- The request was refused and no handler ran. -/
def TurnedDown (d : Done) : Prop := d.ran = none ∧ ∃ c m rg bd, d.reply = respond c m rg bd false ⟨400, [], []⟩

/-! ## Requests that are whole, whatever comes behind them -/

theorem getline_crlf {l r : Bytes} (h : (10 : UInt8) ∉ l) {s : Cut.Strm} (hs : s.bytes = l ++ [13, 10] ++ r) :
    ∃ s', Cut.getline [] s = some (l ++ [13, 10], s') ∧ s'.bytes = r ∧ s'.orderly = s.orderly := by
  have hg := getLine_crlf r h
  rw [← hs] at hg
  cases ho : s.orderly with
  | true =>
    obtain ⟨s', h1, h2, h3⟩ := Cut.getline_some ho hg
    exact ⟨s', h1, h2, h3⟩
  | false =>
    have hm : (10 : UInt8) ∈ s.bytes := by rw [hs]; simp
    unfold getLine at hg
    rw [if_neg (fun e => by rw [e] at hm; cases hm)] at hg
    simp only [Option.some.injEq, Prod.mk.injEq] at hg
    rw [Cut.getline_failing [] ho, if_pos hm]
    exact ⟨_, by rw [hg.1, List.nil_append], hg.2, rfl⟩

theorem readLines_whole {ls : List Bytes} (h : ∀ l ∈ ls, ReadableLine l) {r : Bytes} {s : Cut.Strm}
    (hs : s.bytes = ls.flatMap (· ++ [13, 10]) ++ [13, 10] ++ r) :
    ∃ s', Cut.readLines s = (ls, some s') ∧ s'.bytes = r ∧ s'.orderly = s.orderly := by
  induction ls generalizing s with
  | nil =>
    obtain ⟨s', h1, h2, h3⟩ := getline_crlf (l := []) (r := r) (by simp) (by simpa using hs)
    refine ⟨s', ?_, h2, h3⟩
    rw [Cut.readLines_step, h1]
    rfl
  | cons l ls ih =>
    obtain ⟨g1, g2, g3⟩ := h l List.mem_cons_self
    obtain ⟨s1, h1, h2, h3⟩ := getline_crlf (l := l) (r := ls.flatMap (· ++ [13, 10]) ++ [13, 10] ++ r) g1 (by simpa using hs)
    obtain ⟨s2, k1, k2, k3⟩ := ih (fun l hl => h l (List.mem_cons_of_mem _ hl)) h2
    refine ⟨s2, ?_, k2, k3.trans h3⟩
    have hpos : 0 < l.length := List.length_pos_iff.2 g2
    rw [Cut.readLines_step, h1]
    simp only [endsCrlf_crlf, if_true, List.length_append, List.length_cons, List.length_nil]
    rw [if_neg (by omega), if_neg (by omega), k1]
    simp

theorem lengthRest_bytes (len : Nat) (x : Bytes) (s : Cut.Strm) :
    (CutConn.lengthRest Cut.append len x s).bytes = s.bytes.drop len ∧
      (CutConn.lengthRest Cut.append len x s).orderly = s.orderly := by
  rw [CutConn.lengthRest]
  split
  · rename_i h0
    exact ⟨by simp [h0], rfl⟩
  · rename_i h0
    split
    · rename_i b t hr
      have hb : s.bytes ≠ [] := by
        intro h
        rw [Cut.read_nil h] at hr
        split at hr <;> cases hr
      obtain ⟨k, hk, hkn, hks, hr2⟩ := Cut.read_data (n := min len 4096) hb (by omega)
      rw [hr] at hr2
      have h' : b = s.bytes.take k ∧ t = ⟨s.bytes.drop k, s.cuts.tail, s.orderly⟩ := by
        injection hr2 with h1 h2; exact ⟨h1, h2⟩
      obtain ⟨rfl, rfl⟩ := h'
      have hlk : (s.bytes.take k).length = k := by rw [List.length_take]; omega
      show (CutConn.lengthRest Cut.append (len - (s.bytes.take k).length) _ _).bytes = _ ∧
        (CutConn.lengthRest Cut.append (len - (s.bytes.take k).length) _ _).orderly = _
      have ih := lengthRest_bytes (len - (s.bytes.take k).length) (x ++ s.bytes.take k) ⟨s.bytes.drop k, s.cuts.tail, s.orderly⟩
      refine ⟨ih.1.trans ?_, ih.2⟩
      simp only [List.drop_drop, hlk]
      congr 1
      omega
    · rename_i hn
      have hb : s.bytes = [] := by
        by_cases hb : s.bytes = []
        · exact hb
        · obtain ⟨k, _, _, _, hr2⟩ := Cut.read_data (n := min len 4096) hb (by omega)
          exact absurd hr2 (hn _ _)
      exact ⟨by simp [hb], rfl⟩
termination_by s.bytes.length
decreasing_by simp only [List.length_drop]; omega

theorem msg_readable {m : Msg} (hv : m.Valid) : ∀ l ∈ m.fields.map lineOf, ReadableLine l := by
  intro l hl
  obtain ⟨f, hf, rfl⟩ := List.mem_map.1 hl
  exact readable_line (hv.fields f hf)

/-- The fields of a simple request with content, as `readContent` looks at them. -/
theorem simple_content {m : Msg} (hv : m.Valid) (hs : m.Simple) (hm : m.method ∈ withContent) :
    let hs := readHeaders (m.fields.map lineOf)
    startsWith (str "multipart/form-data") (headerValue hs (str "Content-Type")) = false ∧
      hasField hs (str "Content-Length") = true ∧ contentLength hs = m.content.length ∧ isChunked hs = false ∧
      headerValue hs (str "Content-Encoding") = [] := by
  obtain ⟨hlen, henc, hct⟩ := hs.content hm
  obtain ⟨f, hf, hd, hn⟩ : ∃ f, fieldsNamed (str "Content-Length") m.fields = [f] ∧ Denotes f.2 m.content.length ∧ m.content.length < 2 ^ 64 :=
    hv.framed.resolve_right fun h => hlen h.1
  have hN := fun n => named_msg hv.fields n
  refine ⟨?_, (hasField_named _ _).2 (by rw [hN]; exact hlen), ?_, ?_, headerValue_nil (by rw [hN]; exact henc)⟩
  · rw [value_msg hv.fields]
    cases hc : fieldsNamed (str "Content-Type") m.fields with
    | nil => decide
    | cons g r => exact startsWith_false (hct g (by rw [hc]; exact List.mem_cons_self))
  · unfold contentLength
    rw [find_named, hN, hf]
    simp only [List.head?_cons, strtoull_denotes hd hn, Option.getD_some]
  · unfold isChunked
    rw [headerValue_nil (by rw [hN]; exact hv.coding)]
    decide

/-- Content with a length, read as far as it is there. -/
theorem simple_readContent {m : Msg} (hv : m.Valid) (hs : m.Simple) (hm : m.method ∈ withContent) (s : Cut.Strm) :
    (∀ r, s.bytes = m.content ++ r → ∃ s', Cut.readContent Cut.append [] (readHeaders (m.fields.map lineOf)) s = .ok (.ok (m.content, s', []))) ∧
      (s.bytes.length < m.content.length → Cut.readContent Cut.append [] (readHeaders (m.fields.map lineOf)) s = .ok (.error 400)) ∧
      CutConn.contentRest Cut.append [] (readHeaders (m.fields.map lineOf)) s = CutConn.lengthRest Cut.append m.content.length [] s := by
  obtain ⟨-, h2, h3, h4, h5⟩ := simple_content hv hs hm
  refine ⟨fun r hr => ?_, fun hlt => ?_, ?_⟩
  · obtain ⟨s', k1, -⟩ := Cut.withLength_append (len := m.content.length) (s := s) [] (by rw [hr]; simp)
    refine ⟨s', ?_⟩
    unfold Cut.readContent
    simp only [h5, h4, h2, h3]
    rw [if_neg (by decide), k1, hr]
    simp
  · unfold Cut.readContent
    simp only [h5, h4, h2, h3]
    rw [if_neg (by decide), Cut.withLength_short hlt]
    simp
  · unfold CutConn.contentRest
    simp only [h5, h4, h2, h3]
    rw [if_neg (by decide)]
    simp

theorem simple_range {m : Msg} (hv : m.Valid) (hs : m.Simple) : (rangesOf (readHeaders (m.fields.map lineOf))).2 = true := by
  unfold rangesOf
  split
  · rw [value_msg hv.fields]
    cases hf : (fieldsNamed (str "Range") m.fields).head? with
    | none =>
      rename_i h
      rw [hasField_named, named_msg hv.fields] at h
      exact absurd (List.head?_eq_none_iff.1 hf) h
    | some f => exact hs.range f hf
  · rfl

/-- A whole request: what is done does not depend on the pieces nor on how the connection ends. -/
theorem whole_next (rs : List Route) (ok : Bytes → Bool) (bd : Bytes) (dyn : List Field → Bytes → Endpoint → Reply) (close : Bool)
    {m : Msg} (hv : m.Valid) (hs : m.Simple) (r : Bytes) : ∃ d, ∀ s : Cut.Strm, s.bytes = m.text ++ r →
      ∃ t, CutConn.serveNext rs ok bd dyn close s = .ok (some (d, t)) ∧ t.bytes = r ∧ t.orderly = s.orderly := by
  have hsz := hv.size
  have start : ∀ s : Cut.Strm, s.bytes = m.text ++ r → ∃ s1 s2, Cut.getline [] s = some (m.line ++ [13, 10], s1) ∧
      Cut.readLines s1 = (m.fields.map lineOf, some s2) ∧ s2.bytes = m.content ++ r ∧ s2.orderly = s.orderly := by
    intro s hb
    unfold Msg.text at hb
    rw [List.append_assoc] at hb
    obtain ⟨s1, h1, h2, h3⟩ := getline_crlf (fun hm => line_plain hv 10 hm (by decide)) hb
    rw [List.append_assoc] at h2
    obtain ⟨s2, k1, k2, k3⟩ := readLines_whole (msg_readable hv) h2
    exact ⟨s1, s2, h1, k1, k2, k3.trans h3⟩
  have hnl : ¬ 8192 < (m.line ++ [13, 10]).length := by simp; omega
  have hrg := simple_range hv hs
  by_cases hm : m.method ∈ withContent
  · have hex : expectsContent m.method = true := by revert hm; cases m.method <;> decide
    obtain ⟨hmulti, hhas, -⟩ := simple_content hv hs hm
    by_cases hform : startsWith (str "application/x-www-form-urlencoded") (headerValue (readHeaders (m.fields.map lineOf)) (str "Content-Type")) = true ∧
          m.content.length > 8192
    · refine ⟨⟨headerValue (readHeaders (m.fields.map lineOf)) (str "Expect") == str "100-continue", respond (closes close (readHeaders (m.fields.map lineOf))) m.method (rangesOf (readHeaders (m.fields.map lineOf))).1 bd false ⟨413, [], []⟩,
        none, r, asksClose (m.line ++ [13, 10]) (readHeaders (m.fields.map lineOf))⟩, fun s hb => ?_⟩
      obtain ⟨s1, s2, h1, h2, h3, h4⟩ := start s hb
      obtain ⟨c1, -, c3⟩ := simple_readContent hv hs hm s2
      obtain ⟨s3, c1⟩ := c1 r h3
      obtain ⟨l1, l2⟩ := lengthRest_bytes m.content.length [] s2
      refine ⟨CutConn.lengthRest Cut.append m.content.length [] s2, ?_, by rw [l1, h3, List.drop_left], l2.trans h4⟩
      unfold CutConn.serveNext
      rw [h1]
      simp only [if_neg hnl, parse_msg hv, h2, hrg, Bool.true_eq_false, if_false, hex, if_true]
      unfold Cut.readBody CutConn.bodyRest
      simp only [hmulti, Bool.false_eq_true, if_false, hhas, c1, bind'_ok, Bool.true_eq_false, and_false, if_pos hform, c3]
      unfold CutConn.leave
      rw [l1, h3, List.drop_left]
    · refine ⟨⟨headerValue (readHeaders (m.fields.map lineOf)) (str "Expect") == str "100-continue",
        answer rs (dyn (readHeaders (m.fields.map lineOf ++ [])) m.content) (closes close (readHeaders (m.fields.map lineOf ++ []))) (rangesOf (readHeaders (m.fields.map lineOf))).1 bd ⟨m.method, parsePath m.target⟩,
        runs rs ⟨m.method, parsePath m.target⟩ (readHeaders (m.fields.map lineOf ++ [])) m.content, r, asksClose (m.line ++ [13, 10]) (readHeaders (m.fields.map lineOf))⟩, fun s hb => ?_⟩
      obtain ⟨s1, s2, h1, h2, h3, h4⟩ := start s hb
      obtain ⟨c1, -, c3⟩ := simple_readContent hv hs hm s2
      obtain ⟨s3, c1⟩ := c1 r h3
      obtain ⟨l1, l2⟩ := lengthRest_bytes m.content.length [] s2
      refine ⟨CutConn.lengthRest Cut.append m.content.length [] s2, ?_, by rw [l1, h3, List.drop_left], l2.trans h4⟩
      unfold CutConn.serveNext
      rw [h1]
      simp only [if_neg hnl, parse_msg hv, h2, hrg, Bool.true_eq_false, if_false, hex, if_true]
      unfold Cut.readBody CutConn.bodyRest
      simp only [hmulti, Bool.false_eq_true, if_false, hhas, c1, bind'_ok, Bool.true_eq_false, and_false, if_neg hform, c3]
      unfold CutConn.leave
      rw [l1, h3, List.drop_left]
  · have hex : expectsContent m.method = false := by revert hm; cases m.method <;> decide
    have hc := hs.none hm
    refine ⟨⟨headerValue (readHeaders (m.fields.map lineOf)) (str "Expect") == str "100-continue",
        answer rs (dyn (readHeaders (m.fields.map lineOf)) []) (closes close (readHeaders (m.fields.map lineOf))) (rangesOf (readHeaders (m.fields.map lineOf))).1 bd ⟨m.method, parsePath m.target⟩,
        runs rs ⟨m.method, parsePath m.target⟩ (readHeaders (m.fields.map lineOf)) [], r, asksClose (m.line ++ [13, 10]) (readHeaders (m.fields.map lineOf))⟩, fun s hb => ?_⟩
    obtain ⟨s1, s2, h1, h2, h3, h4⟩ := start s hb
    rw [hc, List.nil_append] at h3
    refine ⟨s2, ?_, h3, h4⟩
    unfold CutConn.serveNext
    rw [h1]
    simp only [if_neg hnl, parse_msg hv, h2, hrg, Bool.true_eq_false, if_false, hex, Bool.false_eq_true]
    unfold CutConn.leave
    rw [h3]

/-- So it is what `Conn` makes of it. -/
theorem whole_agree (rs : List Route) (ok : Bytes → Bool) (mp : Multipart) (bd : Bytes) (stop : Bytes → Nat)
    (dyn : List Field → Bytes → Endpoint → Reply) (close : Bool) {m : Msg} (hv : m.Valid) (hs : m.Simple) {s : Cut.Strm} {r : Bytes}
    (hb : s.bytes = m.text ++ r) : ∃ d t, CutConn.serveNext rs ok bd dyn close s = .ok (some (d, t)) ∧ t.bytes = r ∧
      t.orderly = s.orderly ∧ serveNext rs mp bd stop dyn close (m.text ++ r) = .ok (some d) := by
  obtain ⟨d, hd⟩ := whole_next rs ok bd dyn close hv hs r
  obtain ⟨t, h1, h2, h3⟩ := hd s hb
  refine ⟨d, t, h1, h2, h3, ?_⟩
  obtain ⟨t', k1, -⟩ := hd ⟨m.text ++ r, [], true⟩ rfl
  have ha := CutConn.serveNext_agree rs ok mp bd stop dyn close (s := ⟨m.text ++ r, [], true⟩) rfl (by
    intro l r' line ls r'' e1 e2 e3 e4
    exact plain_of_not_prefix fun e5 => not_multi hv hs r ⟨l, r', line, ls, r'', e1, e2, e3, e4, e5⟩)
  rw [k1] at ha
  cases hw : serveNext rs mp bd stop dyn close (m.text ++ r) with
  | ub => rw [hw] at ha; exact ha.elim
  | ok o =>
    rw [hw] at ha
    cases o with
    | none => exact ha.elim
    | some e => rw [ha.1]

/-! ## Requests that are not whole -/

theorem proper_line {l p a : Bytes} (h : (10 : UInt8) ∉ l) (e : l ++ [13, 10] = p ++ a) (ha : a ≠ []) : (10 : UInt8) ∉ p := by
  have := congrArg List.dropLast e
  rw [List.dropLast_append_of_ne_nil ha, show l ++ [13, 10] = (l ++ [13]) ++ [10] by simp, List.dropLast_concat] at this
  intro hm
  have hm : (10 : UInt8) ∈ l ++ [13] := by rw [this]; exact List.mem_append_left _ hm
  simp only [List.mem_append, List.mem_singleton] at hm
  rcases hm with hm | hm
  · exact h hm
  · revert hm; decide

theorem getline_cut {s : Cut.Strm} (ho : s.orderly = false) (h : (10 : UInt8) ∉ s.bytes) : Cut.getline [] s = none := by
  rw [Cut.getline_failing [] ho, if_neg h]

theorem readLines_proper {ls : List Bytes} (h : ∀ l ∈ ls, ReadableLine l) {a : Bytes} (ha : a ≠ []) {s : Cut.Strm} (ho : s.orderly = false)
    (hs : ls.flatMap (· ++ [13, 10]) ++ [13, 10] = s.bytes ++ a) :
    (Cut.readLines s).2 = none ∧ (CutConn.linesRest s).bytes = [] := by
  have stop : (10 : UInt8) ∉ s.bytes → (Cut.readLines s).2 = none ∧ (CutConn.linesRest s).bytes = [] := by
    intro hn
    rw [Cut.readLines_step, CutConn.linesRest_step, getline_cut ho hn]
    exact ⟨rfl, rfl⟩
  induction ls generalizing s with
  | nil => exact stop (proper_line (l := []) (by simp) (by simpa using hs) ha)
  | cons l ls ih =>
    obtain ⟨g1, g2, g3⟩ := h l List.mem_cons_self
    have hs' : (l ++ [13, 10]) ++ (ls.flatMap (· ++ [13, 10]) ++ [13, 10]) = s.bytes ++ a := by simpa using hs
    have hpos : 0 < l.length := List.length_pos_iff.2 g2
    have go : ∀ c, s.bytes = l ++ [13, 10] ++ c → ls.flatMap (· ++ [13, 10]) ++ [13, 10] = c ++ a →
        (Cut.readLines s).2 = none ∧ (CutConn.linesRest s).bytes = [] := by
      intro c hc hr
      obtain ⟨s1, h1, h2, h3⟩ := getline_crlf g1 hc
      have ho1 : s1.orderly = false := h3.trans ho
      obtain ⟨k1, k2⟩ := ih (fun l hl => h l (List.mem_cons_of_mem _ hl)) ho1 (by rw [h2]; exact hr) (by
        intro hn
        rw [Cut.readLines_step, CutConn.linesRest_step, getline_cut ho1 hn]
        exact ⟨rfl, rfl⟩)
      rw [Cut.readLines_step, CutConn.linesRest_step, h1]
      simp only [endsCrlf_crlf, if_true, List.length_append, List.length_cons, List.length_nil, true_and]
      rw [if_neg (by omega), if_neg (by omega), if_neg (by omega)]
      exact ⟨k1, k2⟩
    rcases List.append_eq_append_iff.1 hs' with ⟨c, h1, h2⟩ | ⟨c, h1, h2⟩
    · exact go c h1 h2
    · by_cases hc : c = []
      · subst hc
        exact go [] (by rw [List.append_nil] at h1; rw [h1, List.append_nil]) (by simpa using h2.symm)
      · exact stop (proper_line g1 h1 hc)

/-- A request that is cut off is answered with status 400, or not at all, and nothing is left of it. -/
theorem cut_next (rs : List Route) (ok : Bytes → Bool) (bd : Bytes) (dyn : List Field → Bytes → Endpoint → Reply) (close : Bool)
    {m : Msg} (hv : m.Valid) (hs : m.Simple) {q : Bytes} (hq : q ≠ []) {s : Cut.Strm} (ho : s.orderly = false) (hb : m.text = s.bytes ++ q) :
    CutConn.serveNext rs ok bd dyn close s = .ok none ∨
      ∃ d t, CutConn.serveNext rs ok bd dyn close s = .ok (some (d, t)) ∧ TurnedDown d ∧ t.bytes = [] := by
  have hsz := hv.size
  have h10 : (10 : UInt8) ∉ m.line := fun hm => line_plain hv 10 hm (by decide)
  have hnl : ¬ 8192 < (m.line ++ [13, 10]).length := by simp; omega
  have hrg := simple_range hv hs
  have go : ∀ c, s.bytes = m.line ++ [13, 10] ++ c → (m.fields.map lineOf).flatMap (· ++ [13, 10]) ++ [13, 10] ++ m.content = c ++ q →
      ∃ d t, CutConn.serveNext rs ok bd dyn close s = .ok (some (d, t)) ∧ TurnedDown d ∧ t.bytes = [] := by
    intro c hc hr
    obtain ⟨s1, h1, h2, h3⟩ := getline_crlf h10 hc
    have fields : ∀ a, a ≠ [] → (m.fields.map lineOf).flatMap (· ++ [13, 10]) ++ [13, 10] = c ++ a →
        ∃ d t, CutConn.serveNext rs ok bd dyn close s = .ok (some (d, t)) ∧ TurnedDown d ∧ t.bytes = [] := by
      intro a ha e
      obtain ⟨k1, k2⟩ := readLines_proper (msg_readable hv) ha (h3.trans ho) (by rw [h2]; exact e)
      unfold CutConn.serveNext
      rw [h1]
      simp only [if_neg hnl, parse_msg hv]
      generalize Cut.readLines s1 = x at k1
      obtain ⟨ls, o⟩ := x
      simp only at k1
      subst k1
      exact ⟨_, _, rfl, ⟨rfl, _, _, _, _, rfl⟩, k2⟩
    have content : ∀ b, c = (m.fields.map lineOf).flatMap (· ++ [13, 10]) ++ [13, 10] ++ b → m.content = b ++ q →
        ∃ d t, CutConn.serveNext rs ok bd dyn close s = .ok (some (d, t)) ∧ TurnedDown d ∧ t.bytes = [] := by
      intro b e1 e2
      have hm : m.method ∈ withContent := by
        refine Classical.byContradiction fun hm => ?_
        rw [hs.none hm] at e2
        exact hq (List.append_eq_nil_iff.1 e2.symm).2
      have hex : expectsContent m.method = true := by revert hm; cases m.method <;> decide
      obtain ⟨hmulti, hhas, -⟩ := simple_content hv hs hm
      obtain ⟨s2, k1, k2, -⟩ := readLines_whole (msg_readable hv) (h2.trans e1)
      have hlt : s2.bytes.length < m.content.length := by
        have := List.length_pos_iff.2 hq
        rw [k2, e2, List.length_append]
        omega
      obtain ⟨-, c2, c3⟩ := simple_readContent hv hs hm s2
      obtain ⟨l1, -⟩ := lengthRest_bytes m.content.length [] s2
      refine ⟨⟨headerValue (readHeaders (m.fields.map lineOf)) (str "Expect") == str "100-continue",
        respond (closes close (readHeaders (m.fields.map lineOf))) m.method (rangesOf (readHeaders (m.fields.map lineOf))).1 bd false
          ⟨400, [], []⟩, none, (CutConn.lengthRest Cut.append m.content.length [] s2).bytes,
        asksClose (m.line ++ [13, 10]) (readHeaders (m.fields.map lineOf))⟩,
        CutConn.lengthRest Cut.append m.content.length [] s2, ?_, ⟨rfl, _, _, _, _, rfl⟩, by
        rw [l1]; exact List.drop_eq_nil_of_le (Nat.le_of_lt hlt)⟩
      unfold CutConn.serveNext
      rw [h1]
      simp only [if_neg hnl, parse_msg hv, k1, hrg, Bool.true_eq_false, if_false, hex, if_true]
      unfold Cut.readBody CutConn.bodyRest
      simp only [hmulti, Bool.false_eq_true, if_false, hhas, c2 hlt, bind'_ok, Bool.true_eq_false, and_false, c3]
      rfl
    rcases List.append_eq_append_iff.1 hr with ⟨b, e1, e2⟩ | ⟨b, e1, e2⟩
    · exact content b e1 e2
    · by_cases hbn : b = []
      · subst hbn
        exact content [] (by rw [List.append_nil] at e1; rw [e1, List.append_nil]) (by simpa using e2.symm)
      · exact fields b hbn e1
  have hb' : (m.line ++ [13, 10]) ++ ((m.fields.map lineOf).flatMap (· ++ [13, 10]) ++ [13, 10] ++ m.content) = s.bytes ++ q := hb
  rcases List.append_eq_append_iff.1 hb' with ⟨c, h1, h2⟩ | ⟨c, h1, h2⟩
  · exact .inr (go c h1 h2)
  · by_cases hc : c = []
    · subst hc
      exact .inr (go [] (by rw [List.append_nil] at h1; rw [h1, List.append_nil]) (by simpa using h2.symm))
    · left
      unfold CutConn.serveNext
      rw [getline_cut ho (proper_line h10 h1 hc)]

/-! ## C139 -/

theorem pause_loop (rs : List Route) (ok : Bytes → Bool) (mp : Multipart) (E : Env) {m : Msg} (hm : m.Valid ∧ m.Simple) {p q : Bytes}
    (hq : q ≠ []) (hp : p ≠ []) (hpq : m.text = p ++ q) (n : Nat) : ∀ (k : Nat) (ms : List Msg) (s : Cut.Strm) (later : List Cut.Strm),
    (∀ m ∈ ms, m.Valid ∧ m.Simple) → s.orderly = false → s.bytes = ms.flatMap Msg.text ++ p → ∀ ds,
    Pause.loop rs ok E k n s later = .ok ds →
      (∀ (i : Nat) d, i < ms.length → ds[i]? = some d → ∃ m, ms[i]? = some m ∧ alone rs mp E (k + i) (i + 1 == n) m = .ok (some d.reply) ∧
        ∀ e hs b, d.ran = some (e, hs, b) → b = m.content) ∧
      ∀ d, ds[ms.length]? = some d → TurnedDown d := by
  induction n with
  | zero =>
    intro k ms s later _ _ _ ds h
    cases h
    exact ⟨by simp, by simp⟩
  | succ n ih =>
    intro k ms s later hms ho hb ds h
    unfold Pause.loop at h
    split at h
    · cases ms with
      | nil =>
        simp only [List.flatMap_nil, List.nil_append] at hb
        refine ⟨fun i d hi => absurd hi (by simp), fun d hd => ?_⟩
        rcases cut_next rs ok (E.bd k) (E.dyn k) (n == 0) hm.1 hm.2 hq ho (by rw [hb]; exact hpq) with h1 | ⟨d1, t, h1, h2, h3⟩
        · rw [h1] at h
          cases h
          cases hd
        · rw [h1] at h
          simp only [bind'_ok] at h
          split at h
          · cases h; cases hd; exact h2
          · cases hl : Pause.loop rs ok E (k + 1) n (Pause.next t later).1 (Pause.next t later).2 with
            | ub => rw [hl] at h; cases h
            | ok ds' => rw [hl] at h; cases h; cases hd; exact h2
      | cons m1 ms =>
        obtain ⟨hv, hs⟩ := hms m1 List.mem_cons_self
        have hne : ms.flatMap Msg.text ++ p ≠ [] := by simp [hp]
        obtain ⟨d1, t, h1, h2, h3, h4⟩ := whole_agree rs ok mp (E.bd k) (E.stop k) (E.dyn k) (n == 0) hv hs (s := s)
          (r := ms.flatMap Msg.text ++ p) (by rw [hb]; simp)
        obtain ⟨interim, reply, ran, closed, hnext, hran, -, -⟩ := next_simple rs mp (E.bd k) (E.stop k) (E.dyn k) (n == 0) hv hs
        have e : d1 = ⟨interim, reply, ran, ms.flatMap Msg.text ++ p, closed⟩ := by
          have := (hnext _).symm.trans h4
          cases this
          rfl
        have ha : alone rs mp E k (n == 0) m1 = .ok (some reply) := by
          have := hnext []
          rw [List.append_nil] at this
          rw [alone, this]
          rfl
        have hn0 : ((0 + 1 : Nat) == n + 1) = (n == 0) := by
          rw [Bool.eq_iff_iff]; simp
        have first : ∃ m, (m1 :: ms)[0]? = some m ∧ alone rs mp E (k + 0) (0 + 1 == n + 1) m = .ok (some d1.reply) ∧
            ∀ e hs b, d1.ran = some (e, hs, b) → b = m.content := by
          subst e
          exact ⟨m1, rfl, by rw [Nat.add_zero, hn0]; exact ha, hran⟩
        rw [h1] at h
        simp only [bind'_ok] at h
        split at h
        · cases h
          refine ⟨fun i d hi hd => ?_, fun d hd => by simp at hd⟩
          cases i with
          | zero => cases hd; exact first
          | succ i => cases hd
        · have hnx : Pause.next t later = (t, later) := by
            unfold Pause.next
            rw [if_neg (by rw [h2]; exact hne)]
          rw [hnx] at h
          simp only at h
          cases hl : Pause.loop rs ok E (k + 1) n t later with
          | ub => rw [hl] at h; cases h
          | ok ds' =>
            rw [hl] at h
            cases h
            obtain ⟨i1, i2⟩ := ih (k + 1) ms t later (fun m hm => hms m (List.mem_cons_of_mem _ hm)) (h3.trans ho) h2 ds' hl
            refine ⟨fun i d hi hd => ?_, fun d hd => i2 d (by simpa using hd)⟩
            cases i with
            | zero => cases hd; exact first
            | succ i =>
              obtain ⟨m', j1, j2, j3⟩ := i1 i d (by simpa using hi) (by simpa using hd)
              refine ⟨m', by simpa using j1, ?_, j3⟩
              rw [show k + (i + 1) = k + 1 + i by omega, show (i + 1 + 1 == n + 1) = (i + 1 == n) by rw [Bool.eq_iff_iff]; simp]
              exact j2
    · cases h
      exact ⟨by simp, by simp⟩

/-- **C139**, up to the first pause within a request: the requests before it are answered as each would be alone, their handlers see
their contents, and the request with the pause is refused, without any handler, or the connection ends; whatever comes later. -/
theorem C139_partial (rs : List Route) (ok : Bytes → Bool) (mp : Multipart) (E : Env) (ms : List Msg) {m : Msg}
    (h : ∀ m' ∈ m :: ms, m'.Valid ∧ m'.Simple) {p q : Bytes} (hp : p ≠ []) (hq : q ≠ []) (hpq : m.text = p ++ q) (cuts : List Nat)
    (later : List Cut.Strm) (ds : List Done) (hds : Pause.connection rs ok E ⟨ms.flatMap Msg.text ++ p, cuts, false⟩ later = .ok ds) :
    (∀ (i : Nat) d, i < ms.length → ds[i]? = some d → ∃ m, ms[i]? = some m ∧ alone rs mp E i (i == 4) m = .ok (some d.reply) ∧
        ∀ e hs b, d.ran = some (e, hs, b) → b = m.content) ∧
      ∀ d, ds[ms.length]? = some d → TurnedDown d := by
  obtain ⟨h1, h2⟩ := pause_loop rs ok mp E (h m List.mem_cons_self) hq hp hpq 5 0 ms _ later
    (fun m' hm' => h m' (List.mem_cons_of_mem _ hm')) rfl rfl ds hds
  refine ⟨fun i d hi hd => ?_, h2⟩
  obtain ⟨m', a, b, c⟩ := h1 i d hi hd
  refine ⟨m', a, ?_, c⟩
  rw [Nat.zero_add, show (i + 1 == 5) = (i == 4) by rw [Bool.eq_iff_iff]; simp] at b
  exact b

/-- What a request does, but for what it leaves unread of the part in which it arrived. -/
def strip (d : Done) : Done := { d with rest := [] }

theorem between_loop (rs : List Route) (ok : Bytes → Bool) (mp : Multipart) (E : Env) (n : Nat) :
    ∀ (k : Nat) (ms : List Msg) (gs : List (List Msg × List Nat × Bool)) (s : Cut.Strm),
    (∀ m ∈ ms, m.Valid ∧ m.Simple) → (∀ g ∈ gs, g.1 ≠ [] ∧ ∀ m ∈ g.1, m.Valid ∧ m.Simple) → (ms = [] → gs = []) →
    s.bytes = ms.flatMap Msg.text →
    (Pause.loop rs ok E k n s (gs.map fun g => ⟨g.1.flatMap Msg.text, g.2.1, g.2.2⟩)).bind (fun ds => .ok (ds.map strip)) =
      (loop rs mp E k n ((ms ++ gs.flatMap (·.1)).flatMap Msg.text)).bind fun ds => .ok (ds.map strip) := by
  induction n with
  | zero => intros; rfl
  | succ n ih =>
    intro k ms gs s hms hgs he hb
    unfold Pause.loop loop
    split
    · cases ms with
      | nil =>
        rw [he rfl]
        simp only [List.flatMap_nil] at hb
        have hn : CutConn.serveNext rs ok (E.bd k) (E.dyn k) (n == 0) s = .ok none := by
          unfold CutConn.serveNext
          rw [Cut.getline_step, Cut.read_nil hb]
          cases s.orderly <;> rfl
        rw [hn]
        rfl
      | cons m1 ms =>
        obtain ⟨hv, hs⟩ := hms m1 List.mem_cons_self
        obtain ⟨d1, t, h1, h2, -, h4⟩ := whole_agree rs ok mp (E.bd k) (E.stop k) (E.dyn k) (n == 0) hv hs (s := s)
          (r := ms.flatMap Msg.text) (by rw [hb]; simp)
        obtain ⟨interim, reply, ran, closed, hnext, -⟩ := next_simple rs mp (E.bd k) (E.stop k) (E.dyn k) (n == 0) hv hs
        have e : d1 = ⟨interim, reply, ran, ms.flatMap Msg.text, closed⟩ := by
          have := (hnext _).symm.trans h4
          cases this
          rfl
        subst e
        rw [h1]
        simp only [List.cons_append, List.flatMap_cons]
        rw [hnext]
        simp only [bind'_ok]
        split
        · rfl
        · have step : ∀ (a b : Outcome (List Done)) (x y : Done), strip x = strip y →
              a.bind (fun ds => .ok (ds.map strip)) = b.bind (fun ds => .ok (ds.map strip)) →
              (a.bind fun ds => .ok (x :: ds)).bind (fun ds => .ok (ds.map strip)) =
                (b.bind fun ds => .ok (y :: ds)).bind (fun ds => .ok (ds.map strip)) := by
            intro a b x y hxy hab
            cases a with
            | ub => cases b with
              | ub => rfl
              | ok b => cases hab
            | ok a => cases b with
              | ub => cases hab
              | ok b =>
                simp only [bind'_ok, Outcome.ok.injEq, List.map_cons] at hab ⊢
                rw [hab, hxy]
          refine step _ _ _ _ rfl ?_
          have hms' : ∀ m ∈ ms, m.Valid ∧ m.Simple := fun m hm => hms m (List.mem_cons_of_mem _ hm)
          cases ms with
          | nil =>
            simp only [List.flatMap_nil] at h2
            cases gs with
            | nil =>
              have := ih (k + 1) [] [] t (by simp) (by simp) (fun _ => rfl) h2
              simpa [Pause.next, h2] using this
            | cons g gs =>
              have := ih (k + 1) g.1 gs ⟨g.1.flatMap Msg.text, g.2.1, g.2.2⟩ (hgs g List.mem_cons_self).2
                (fun x hx => hgs x (List.mem_cons_of_mem _ hx)) (fun h => absurd h (hgs g List.mem_cons_self).1) rfl
              simpa [Pause.next, h2] using this
          | cons m2 ms =>
            have hne : t.bytes ≠ [] := by
              rw [h2]
              simp [Msg.text]
            have := ih (k + 1) (m2 :: ms) gs t hms' hgs (fun h => nomatch h) h2
            have hnx : ∀ l, Pause.next t l = (t, l) := by
              intro l
              unfold Pause.next
              rw [if_neg hne]
            rw [hnx]
            exact this
    · rfl

/-- **C139** for pauses between requests: they make no difference, as long as the next part arrives while the server waits for it.  So
C91 holds as for a connection without them. -/
theorem C139_between (rs : List Route) (ok : Bytes → Bool) (mp : Multipart) (E : Env) (ms : List Msg) (cuts : List Nat) (o : Bool)
    (gs : List (List Msg × List Nat × Bool)) (hms : ms ≠ [] ∧ ∀ m ∈ ms, m.Valid ∧ m.Simple)
    (hgs : ∀ g ∈ gs, g.1 ≠ [] ∧ ∀ m ∈ g.1, m.Valid ∧ m.Simple) :
    (Pause.connection rs ok E ⟨ms.flatMap Msg.text, cuts, o⟩ (gs.map fun g => ⟨g.1.flatMap Msg.text, g.2.1, g.2.2⟩)).bind
        (fun ds => .ok (ds.map strip)) =
      (connection rs mp E ((ms ++ gs.flatMap (·.1)).flatMap Msg.text)).bind fun ds => .ok (ds.map strip) :=
  between_loop rs ok mp E 5 0 ms gs _ hms.2 hgs (fun h => absurd h hms.1) rfl

/-- Non-vacuity: two requests, a pause, and two more, of which the first asks to close. -/
example : ([posted, posted] ≠ [] ∧ ∀ m ∈ [posted, posted], m.Valid ∧ m.Simple) ∧
    (∀ g ∈ [([last, posted], [3], true)], g.1 ≠ [] ∧ ∀ m ∈ g.1, m.Valid ∧ m.Simple) ∧
    seen (Pause.connection registrarRoutes (fun _ => true) echoEnv ⟨[posted, posted].flatMap Msg.text, [], false⟩
      [⟨[last, posted].flatMap Msg.text, [3], true⟩]) = [(200, some (str "abc")), (200, some (str "abc")), (404, none)] := by
  refine ⟨⟨by simp, ?_⟩, ?_, by decide +kernel⟩
  · intro m hm
    simp only [List.mem_cons, List.not_mem_nil, or_false, or_self] at hm
    subst hm
    exact ⟨posted_valid, posted_simple⟩
  · intro g hg
    rw [List.mem_singleton] at hg
    subst hg
    refine ⟨by simp, ?_⟩
    intro m hm
    simp only [List.mem_cons, List.not_mem_nil, or_false] at hm
    rcases hm with rfl | rfl
    · exact ⟨last_valid, last_simple⟩
    · exact ⟨posted_valid, posted_simple⟩

/-! ## The violation -/

/-- A request with content: a voucher request whose content is a text that happens to look like a request. -/
def carrier : Msg :=
  ⟨.post, str "/.well-known/brski/requestvoucher", false, [(str "Content-Length", BoolTime.natDec (4 + hidden.length))], str "TUlJ" ++ hidden⟩

theorem carrier_valid : carrier.Valid where
  target := by decide
  size := by decide
  fields := by decide +kernel
  coding := by decide
  framed := .inl ⟨(str "Content-Length", BoolTime.natDec (4 + hidden.length)), by decide +kernel, by
    have : carrier.content.length = 4 + hidden.length := by decide +kernel
    rw [this]
    exact natDec_denotes _, by decide +kernel⟩

theorem carrier_simple : carrier.Simple where
  content _ := ⟨by decide +kernel, by decide +kernel, by decide +kernel⟩
  none h := absurd (by decide) h
  range f h := by cases h

/-- What arrives before the pause, and behind it. -/
def earlyPart : Cut.Strm := ⟨carrier.text.take (carrier.text.length - hidden.length), [], false⟩

/-- What arrives after the pause. -/
def latePart : Cut.Strm := ⟨hidden, [], true⟩

theorem carrier_paused : Paused [carrier] earlyPart [latePart] where
  whole := by decide +kernel
  parts := by decide +kernel
  pauses := by decide +kernel

theorem carrier_seen : seen (Pause.connection registrarRoutes (fun _ => true) echoEnv earlyPart [latePart]) = [(400, none), (200, some (str "abc"))] := by
  decide +kernel

/-- **C139** is violated: the client has sent one request, with a pause of five seconds in its content; the server refuses it, and takes
the rest of the content for a request that the client has never made. -/
theorem C139_violated : ¬ C139_statement := by
  intro h
  have hs := carrier_seen
  cases hc : Pause.connection registrarRoutes (fun _ => true) echoEnv earlyPart [latePart] with
  | ub => rw [hc] at hs; cases hs
  | ok ds =>
    rw [hc] at hs
    have hlen : ds.length = 2 := by
      have := congrArg List.length hs
      simpa [seen] using this
    obtain ⟨d, hd⟩ : ∃ d, ds[1]? = some d := ⟨ds[1]'(by omega), List.getElem?_eq_getElem (by omega)⟩
    have h1 : (d.reply.status, d.ran.map fun r => r.2.2) = (200, some (str "abc")) := by
      have := congrArg (fun l => l[1]?) hs
      simpa [seen, List.getElem?_map, hd] using this
    cases hr : d.ran with
    | none => rw [hr] at h1; simp at h1
    | some x =>
      obtain ⟨e, hds, b⟩ := x
      rw [hr] at h1
      obtain ⟨m, hm, hb⟩ := h _ _ _ [carrier] _ _ (by
        intro m hm
        rw [List.mem_singleton] at hm
        subst hm
        exact ⟨carrier_valid, carrier_simple⟩) carrier_paused ds hc d (List.mem_of_getElem? hd) _ _ _ hr
      rw [List.mem_singleton] at hm
      subst hm
      rw [hb] at h1
      have h2 : carrier.content = str "abc" := by simpa using (Prod.mk.inj h1).2
      revert h2
      decide +kernel

/-- Non-vacuity of `C139_partial`: a whole request, the beginning of another one, and its end after the pause; only the first runs a
handler, and what comes later is refused. -/
example : (∀ m' ∈ [posted, posted], m'.Valid ∧ m'.Simple) ∧ posted.text = posted.text.take 70 ++ posted.text.drop 70 ∧
    posted.text.drop 70 ≠ [] ∧
    seen (Pause.connection registrarRoutes (fun _ => true) echoEnv ⟨[posted].flatMap Msg.text ++ posted.text.take 70, [], false⟩
      [⟨posted.text.drop 70 ++ [13, 10], [], true⟩]) = [(200, some (str "abc")), (400, none), (400, none)] := by
  refine ⟨?_, (List.take_append_drop _ _).symm, by decide +kernel, by decide +kernel⟩
  intro m hm
  simp only [List.mem_cons, List.not_mem_nil, or_false, or_self] at hm
  subst hm
  exact ⟨posted_valid, posted_simple⟩

end Brski.Props
