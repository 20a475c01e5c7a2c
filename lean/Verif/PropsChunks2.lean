import Verif.PropsChunks

/-!
# C76, C77: header lines that are too long, cut chunked content
-/

namespace Brski.Props
open Outcome Routes Wire

/-! ## C77: cut chunked content -/

/-- The text of chunked content (specification): chunks, a last chunk without data, a trailer and an empty line. -/
def chunkedText (cs : List Chunk) (zero : HexText) (ext : Bytes) (ls : List Bytes) : Bytes :=
  cs.flatMap Chunk.text ++ (sizeLine zero ext ++ (ls.flatMap (· ++ [13, 10]) ++ [13, 10]))

theorem trailer_nil : trailer [] = .ok none := by
  rw [trailer]
  rfl

theorem trailer_cut_line {p : Bytes} (h : (10 : UInt8) ∉ p) : trailer p = .ok none ∨ trailer p = .ub := by
  by_cases hne : p = []
  · rw [hne, trailer_nil]; exact .inl rfl
  · rw [trailer]
    split
    · exact .inl rfl
    · rename_i he
      rw [getLine_none h hne] at he
      cases he
      rw [if_neg]
      · split
        · exact .inl rfl
        · split
          · exact .inr rfl
          · rw [trailer_nil]; exact .inl rfl
      · intro e
        have : (10 : UInt8) ∈ BoolTime.cstr p := by rw [e]; decide
        exact h ((List.takeWhile_sublist _).mem this)

theorem trailer_prefix {ls : List Bytes} (h : ∀ l ∈ ls, ReadableLine l) {p : Bytes}
    (hp : p <+: ls.flatMap (· ++ [13, 10]) ++ [13, 10]) (hne : p ≠ ls.flatMap (· ++ [13, 10]) ++ [13, 10]) :
    trailer p = .ok none ∨ trailer p = .ub := by
  induction ls generalizing p with
  | nil => exact trailer_cut_line (cut_line (l := []) (by simp) hp hne)
  | cons l ls ih =>
    have e : (l :: ls).flatMap (· ++ [13, 10]) ++ [13, 10] =
        (l ++ [13, 10]) ++ (ls.flatMap (· ++ [13, 10]) ++ [13, 10]) := by simp
    rw [e] at hp hne
    rcases prefix_split hp with ⟨hp, hn⟩ | ⟨q, rfl, hq⟩
    · exact trailer_cut_line (cut_line (h l List.mem_cons_self).1 hp hn)
    · rw [trailer_cons _ (h l List.mem_cons_self)]
      rcases ih (fun l hl => h l (List.mem_cons_of_mem _ hl)) hq (fun e => hne (by rw [e])) with e | e <;> rw [e]
      · exact .inl rfl
      · exact .inr rfl

theorem size_no_lf {ds : HexText} {ext : Bytes} (he : ExtOk ext) : (10 : UInt8) ∉ ds.text ++ ext := by
  intro hm
  rcases List.mem_append.1 hm with hm | hm
  · obtain ⟨d, -, hd⟩ := List.mem_map.1 hm
    exact (hexChar_facts d.1 d.2).2.1 hd
  · exact he.2 hm

/-- What reading chunks gives: nothing, or content followed by the rest. -/
def cutChunks (p : Bytes) : Option (Bytes × Bytes) := (getLine p).bind fun x => chunks x.1 x.2

theorem cut_size {p : Bytes} (h : (10 : UInt8) ∉ p) : cutChunks p = none ∨ cutChunks p = some ([], []) := by
  by_cases hne : p = []
  · rw [hne]; exact .inl rfl
  · unfold cutChunks
    rw [getLine_none h hne]
    simp only [Option.bind]
    rw [chunks]
    split
    · exact .inl rfl
    · split
      · exact .inl rfl
      · split
        · exact .inr rfl
        · rw [if_pos (by simp; omega)]; exact .inl rfl

theorem cut_data {c : Chunk} (h : c.Ok) (p : Bytes) (hp : p <+: c.data ++ [13, 10]) (hne : p ≠ c.data ++ [13, 10]) :
    chunks (sizeLine c.size c.ext) p = none := by
  obtain ⟨h1, h2, h3, h4, h5⟩ := h
  have hpos : 0 < c.data.length := List.length_pos_iff.2 h3
  rw [chunks, strtoull_hex h1 h5 (by omega), h2]
  simp only
  rw [if_neg (by omega), if_neg (by omega)]
  split
  · rfl
  · rename_i hl
    rcases prefix_split hp with ⟨hp, hn⟩ | ⟨q, rfl, hq⟩
    · exact absurd (hp.eq_of_length (Nat.le_antisymm hp.length_le (Nat.le_of_not_lt hl))) hn
    · have hq' : (10 : UInt8) ∉ q := cut_line (l := []) (by simp) hq fun e => hne (by rw [e]; rfl)
      split
      · rfl
      · rename_i hg
        rw [List.drop_left] at hg
        by_cases hqe : q = []
        · rw [hqe] at hg; cases hg
        · rw [getLine_none hq' hqe] at hg
          cases hg
          rw [if_pos]
          intro e
          have : (10 : UInt8) ∈ BoolTime.cstr q := by rw [e]; decide
          exact hq' ((List.takeWhile_sublist _).mem this)

theorem next_chunk {c : Chunk} (h : c.Ok) (q : Bytes) :
    chunks (sizeLine c.size c.ext) (c.data ++ [13, 10] ++ q) = (cutChunks q).map fun p => (c.data ++ p.1, p.2) := by
  obtain ⟨h1, h2, h3, h4, h5⟩ := h
  have hpos : 0 < c.data.length := List.length_pos_iff.2 h3
  have hdrop : (c.data ++ [13, 10] ++ q).drop c.data.length = [13, 10] ++ q := by
    rw [List.append_assoc]
    exact List.drop_left
  have htake : (c.data ++ [13, 10] ++ q).take c.data.length = c.data := by
    rw [List.append_assoc]
    exact List.take_left
  have hg1 : getLine ([13, 10] ++ q) = some ([13, 10], q) := getLine_crlf (x := []) _ (by simp)
  rw [chunks, strtoull_hex h1 h5 (by omega), h2]
  simp only
  rw [if_neg (by omega), if_neg (by omega), if_neg (by simp)]
  split
  · rename_i hh
    rw [hdrop, hg1] at hh
    cases hh
  · rename_i hh
    rw [hdrop, hg1] at hh
    cases hh
    rw [if_neg (by decide)]
    unfold cutChunks
    split
    · rename_i hh2; rw [hh2]; rfl
    · rename_i hh2; rw [hh2, htake]; rfl

theorem cut_chunks {cs : List Chunk} (h : ∀ c ∈ cs, c.Ok) {zero : HexText} (hz : zero ≠ [] ∧ zero.value = 0) {ext : Bytes}
    (he : ExtOk ext) {ls : List Bytes} (hl : ∀ l ∈ ls, ReadableLine l) : ∀ {p : Bytes},
    p <+: chunkedText cs zero ext ls → p ≠ chunkedText cs zero ext ls →
    cutChunks p = none ∨ ∃ c r, cutChunks p = some (c, r) ∧ (trailer r = .ok none ∨ trailer r = .ub) := by
  induction cs with
  | nil =>
    intro p hp hne
    simp only [chunkedText, List.flatMap_nil, List.nil_append] at hp hne
    rcases prefix_split hp with ⟨hp, hn⟩ | ⟨q, rfl, hq⟩
    · rcases cut_size (cut_line (size_no_lf he) hp hn) with e | e
      · exact .inl e
      · exact .inr ⟨_, _, e, .inl trailer_nil⟩
    · refine .inr ⟨[], q, ?_, trailer_prefix hl hq fun e => hne (by rw [e])⟩
      unfold cutChunks
      rw [sizeLine_get he]
      exact chunks_zero hz.1 he hz.2 q
  | cons c cs ih =>
    intro p hp hne
    have hc := h c List.mem_cons_self
    have e : chunkedText (c :: cs) zero ext ls =
        sizeLine c.size c.ext ++ ((c.data ++ [13, 10]) ++ chunkedText cs zero ext ls) := by
      simp [chunkedText, Chunk.text]
    rw [e] at hp hne
    rcases prefix_split hp with ⟨hp, hn⟩ | ⟨q, rfl, hq⟩
    · rcases cut_size (cut_line (size_no_lf hc.2.2.2.2) hp hn) with e | e
      · exact .inl e
      · exact .inr ⟨_, _, e, .inl trailer_nil⟩
    · have hcut : cutChunks (sizeLine c.size c.ext ++ q) = chunks (sizeLine c.size c.ext) q := by
        unfold cutChunks
        rw [sizeLine_get hc.2.2.2.2]
        rfl
      rw [hcut]
      rcases prefix_split hq with ⟨hq, hn⟩ | ⟨q, rfl, hq'⟩
      · exact .inl (cut_data hc q hq hn)
      · rw [next_chunk hc]
        rcases ih (fun d hd => h d (List.mem_cons_of_mem _ hd)) hq' fun e => hne (by rw [e]) with e | ⟨d, r, e, ht⟩ <;> rw [e]
        · exact .inl rfl
        · exact .inr ⟨_, r, rfl, ht⟩

/-- **C77** for content in chunks: when the connection ends anywhere before the last byte nothing is delivered.  (When
it ends after one byte of a line of the trailer, also of the last, empty one, reading is undefined, C78.) -/
theorem C77_chunked (hs : List Field) (hch : (headerValue hs (str "Transfer-Encoding")).map lower = str "chunked")
    (henc : fieldsNamed (str "Content-Encoding") hs = []) (cs : List Chunk) (h : ∀ c ∈ cs, c.Ok) (zero : HexText)
    (hz : zero ≠ [] ∧ zero.value = 0) (ext : Bytes) (he : ExtOk ext) (ls : List Bytes) (hl : ∀ l ∈ ls, ReadableLine l)
    (p : Bytes) (hp : p <+: chunkedText cs zero ext ls) (hne : p ≠ chunkedText cs zero ext ls) :
    readContent hs p = .ok (.failed 400) ∨ readContent hs p = .ub := by
  have hic : isChunked hs = true := by
    unfold isChunked
    rw [hch]
    decide
  have e : readContent hs p = match cutChunks p with
      | none => .ok (.failed 400)
      | some (c, r) => (trailer r).bind fun t =>
        match t with
        | none => .ok (.failed 400)
        | some (ls, r) => .ok (.read c r ls) := by
    unfold readContent cutChunks
    simp only [headerValue_nil henc, hic, if_true]
    rw [if_neg (by decide)]
    cases getLine p with
    | none => rfl
    | some x => rfl
  rw [e]
  rcases cut_chunks h hz he hl hp hne with e | ⟨c, r, e, ht | ht⟩ <;> rw [e]
  · exact .inl rfl
  · simp only [ht]; exact .inl rfl
  · simp only [ht]; exact .inr rfl

/-- The same for the client: it never takes a cut reply for an answer. -/
theorem C77_chunked_reply (st : Nat) (hst : 100 < st ∧ st < 1000 ∧ st ≠ 204) (fs : List Bytes)
    (hf : ∀ l ∈ fs, ReadableLine l)
    (hch : (headerValue (readHeaders fs) (str "Transfer-Encoding")).map lower = str "chunked")
    (henc : fieldsNamed (str "Content-Encoding") (readHeaders fs) = []) (cs : List Chunk) (h : ∀ c ∈ cs, c.Ok)
    (zero : HexText) (hz : zero ≠ [] ∧ zero.value = 0) (ext : Bytes) (he : ExtOk ext) (ls : List Bytes)
    (hl : ∀ l ∈ ls, ReadableLine l) (p : Bytes) (hp : p <+: chunkedText cs zero ext ls)
    (hne : p ≠ chunkedText cs zero ext ls) :
    let s := statusText st ++ [13, 10] ++ (fs.flatMap (· ++ [13, 10]) ++ [13, 10] ++ p)
    readReply s = .ok none ∨ readReply s = .ub := by
  simp only
  unfold readReply
  rw [readStatus_line hst.1 hst.2.1]
  simp only
  rw [readLines_all hf]
  simp only
  rw [if_neg hst.2.2]
  rcases C77_chunked _ hch henc cs h zero hz ext he ls hl p hp hne with e | e <;> rw [e]
  · exact .inl rfl
  · exact .inr rfl

/-- The same for the server: it runs no handler. -/
theorem C77_chunked_request (rs : List Route) (mp : Multipart) (close : Bool) (line : Bytes) (q : Line)
    (hline : parseRequestLine (line ++ [13, 10]) = some q) (hlf : (10 : UInt8) ∉ line) (hlen : line.length + 2 ≤ 8192)
    (hm : expectsContent q.method = true) (hd : q.method ≠ .delete) (fs : List Bytes) (hf : ∀ l ∈ fs, ReadableLine l)
    (hch : (headerValue (readHeaders fs) (str "Transfer-Encoding")).map lower = str "chunked")
    (henc : fieldsNamed (str "Content-Encoding") (readHeaders fs) = []) (cs : List Chunk) (h : ∀ c ∈ cs, c.Ok)
    (zero : HexText) (hz : zero ≠ [] ∧ zero.value = 0) (ext : Bytes) (he : ExtOk ext) (ls : List Bytes)
    (hl : ∀ l ∈ ls, ReadableLine l) (p : Bytes) (hp : p <+: chunkedText cs zero ext ls)
    (hne : p ≠ chunkedText cs zero ext ls) :
    ∃ res, (∀ dyn, serve rs mp dyn close (line ++ [13, 10] ++ (fs.flatMap (· ++ [13, 10]) ++ [13, 10] ++ p)) = res) ∧
      (res = .ub ∨ ∃ w, res = .ok (some w) ∧ w.status = 400) := by
  have hb : readBody mp q.method (readHeaders fs) p = .ok (.error 400) ∨ readBody mp q.method (readHeaders fs) p = .ub := by
    unfold readBody
    simp only
    split
    · exact .inl rfl
    · rw [if_neg fun e => hd e.1]
      rcases C77_chunked _ hch henc cs h zero hz ext he ls hl p hp hne with e | e <;> rw [e]
      · exact .inl rfl
      · exact .inr rfl
  have hserve : ∀ dyn, serve rs mp dyn close (line ++ [13, 10] ++ (fs.flatMap (· ++ [13, 10]) ++ [13, 10] ++ p)) =
      (readBody mp q.method (readHeaders fs) p).bind fun b =>
        match b with
        | .error st => .ok (some (writeResponse (closes close (readHeaders fs)) q.method false ⟨st, [], []⟩))
        | .ok (b, more) =>
          .ok (some (process rs (dyn (readHeaders (fs ++ more)) b) (closes close (readHeaders (fs ++ more)))
            (line ++ [13, 10]))) := by
    intro dyn
    unfold serve
    rw [getLine_crlf _ hlf]
    simp only
    rw [if_neg (by simp; omega), hline]
    simp only
    rw [readLines_all hf]
    simp only
    rw [if_pos hm]
    rfl
  simp only [hserve]
  rcases hb with e | e <;> rw [e]
  · exact ⟨_, fun _ => rfl, .inr ⟨_, rfl, (writeResponse_spec _ _ _ (r := ⟨400, [], []⟩) List.Pairwise.nil).1⟩⟩
  · exact ⟨_, fun _ => rfl, .inl rfl⟩

/-- Non-vacuity: a text of two chunks, cut in a size, in data, behind data, behind the last size and in the trailer. -/
example :
    let t := str "5\r\nhello\r\n10;x\r\n0123456789abcdef\r\n0\r\nA: b\r\n\r\n"
    let hs := [(str "Transfer-Encoding", str "chunked")]
    t = chunkedText [⟨[(5, true)], [], str "hello"⟩, ⟨[(1, true), (0, true)], str ";x", str "0123456789abcdef"⟩]
      [(0, true)] [] [str "A: b"] ∧
    readContent hs (t.take 11) = .ok (.failed 400) ∧ readContent hs (t.take 20) = .ok (.failed 400) ∧
    readContent hs (t.take 32) = .ok (.failed 400) ∧ readContent hs (t.take 37) = .ok (.failed 400) ∧
    readContent hs (t.take 40) = .ok (.failed 400) ∧ readContent hs t = .ok (.read (str "hello0123456789abcdef") [] [str "A: b"]) := by
  decide +kernel

/-! ## C76: header lines that are too long -/

theorem readLines_long {ls : List Bytes} (h : ∀ l ∈ ls, ReadableLine l) {l : Bytes} (hlf : (10 : UInt8) ∉ l)
    (hlen : 8192 < l.length + 2) (s : Bytes) :
    readLines (ls.flatMap (· ++ [13, 10]) ++ (l ++ [13, 10] ++ s)) = (ls, none) := by
  induction ls with
  | nil =>
    have hg := getLine_crlf s hlf
    rw [List.flatMap_nil, List.nil_append, readLines]
    split
    · rfl
    · rename_i he
      rw [hg] at he
      cases he
      simp only [endsCrlf_crlf, if_true, List.length_append, List.length_cons, List.length_nil]
      rw [if_neg (by omega)]
      split
      · rfl
      · omega
  | cons k ls ih =>
    obtain ⟨h1, h2, h3⟩ := h k List.mem_cons_self
    have e : (k :: ls).flatMap (· ++ [13, 10]) ++ (l ++ [13, 10] ++ s) =
        k ++ [13, 10] ++ (ls.flatMap (· ++ [13, 10]) ++ (l ++ [13, 10] ++ s)) := by simp
    rw [e, readLines_cons _ h1 h2 h3, ih fun l hl => h l (List.mem_cons_of_mem _ hl)]

/-- **C76**, its limit: a message with a header line of more than 8192 bytes is not delivered in part but refused, by the
client with an error and by the server with 400 and without a handler, whatever follows. -/
theorem C76_long_line (fs : List Bytes) (hf : ∀ l ∈ fs, ReadableLine l) (l : Bytes) (hlf : (10 : UInt8) ∉ l)
    (hlen : 8192 < l.length + 2) (rest : Bytes) :
    (∀ st, 100 < st → st < 1000 →
      readReply (statusText st ++ [13, 10] ++ (fs.flatMap (· ++ [13, 10]) ++ (l ++ [13, 10] ++ rest))) = .ok none) ∧
    ∀ rs mp close line q, parseRequestLine (line ++ [13, 10]) = some q → (10 : UInt8) ∉ line → line.length + 2 ≤ 8192 →
      ∃ w, w.status = 400 ∧ ∀ dyn,
        serve rs mp dyn close (line ++ [13, 10] ++ (fs.flatMap (· ++ [13, 10]) ++ (l ++ [13, 10] ++ rest))) =
          .ok (some w) := by
  constructor
  · intro st h1 h2
    unfold readReply
    rw [readStatus_line h1 h2]
    simp only
    rw [readLines_long hf hlf hlen]
  · intro rs mp close line q hq h1 h2
    refine ⟨writeResponse (closes close (readHeaders fs)) q.method false ⟨400, [], []⟩,
      (writeResponse_spec _ _ _ (r := ⟨400, [], []⟩) List.Pairwise.nil).1, fun dyn => ?_⟩
    unfold serve
    rw [getLine_crlf _ h1]
    simp only
    rw [if_neg (by simp; omega), hq]
    simp only
    rw [readLines_long hf hlf hlen]

/-- Non-vacuity: such a line, and a request line before it. -/
example : ((10 : UInt8) ∉ List.replicate 8191 (65 : UInt8) ∧ 8192 < (List.replicate 8191 (65 : UInt8)).length + 2) ∧
    (parseRequestLine (str "POST / HTTP/1.1\r\n")).isSome = true :=
  ⟨⟨fun h => (by cases List.eq_of_mem_replicate h), by rw [List.length_replicate]; decide⟩, by decide +kernel⟩

end Brski.Props
