import Verif.PropsRanges
import Verif.PropsConn
import Verif.PropsX509c

/-!
# Further parts of C63, C85, C91 and C93: what is refused, and what failing leaves behind
-/

namespace Brski.Props
open Outcome Routes Ranges

/-! ## C63 -/

/-- **C63**: a request line with a NUL before its end is refused. -/
theorem C63_nul (x y : Bytes) (h : (10 : UInt8) ∉ x) : parseRequestLine (x ++ 0 :: y) = none := by
  unfold parseRequestLine
  simp only
  have hsub : ∀ c ∈ BoolTime.cstr (x ++ 0 :: y), c ∈ x := by
    intro c hc
    unfold BoolTime.cstr at hc
    induction x with
    | nil => simp at hc
    | cons a x ih =>
      rw [List.cons_append, List.takeWhile_cons] at hc
      split at hc
      · rcases List.mem_cons.1 hc with rfl | hc
        · simp
        · exact List.mem_cons_of_mem _ (ih (fun hm => h (List.mem_cons_of_mem _ hm)) hc)
      · cases hc
  rw [if_pos]
  refine Or.inr fun e => h (hsub 10 ?_)
  refine List.mem_of_mem_drop (i := (BoolTime.cstr (x ++ 0 :: y)).length - 2) ?_
  rw [e]
  simp

/-- The hypothesis of `C63_nul` can be met; without the NUL the line is understood. -/
example : parseRequestLine (str "GET / HTTP/1.1" ++ 0 :: [13, 10]) = none ∧
    (parseRequestLine (str "GET / HTTP/1.1" ++ [13, 10])).isSome = true := by decide +kernel

/-! ## C93 -/

theorem stoll_large {x : Bytes} {n : Nat} (h : Denotes x n) (hn : 2 ^ 63 ≤ n) : stoll x = none := by
  obtain ⟨h1, -, h3⟩ := h
  unfold stoll
  rw [if_neg h1]
  simp only [h3]
  rw [if_neg (by omega)]

/-- The text of a number of any size that may be missing (specification for httplib.h:4644, 4649). -/
def AnyNum (x : Bytes) (n : Option Nat) : Prop :=
  match n with
  | none => x = []
  | some n => Denotes x n

theorem anyNum_digits {x : Bytes} {n : Option Nat} (h : AnyNum x n) : ∀ c ∈ x, isNum c = true := by
  cases n with
  | none => cases h; simp
  | some n =>
    intro c hc
    have := h.2.1 c hc
    simp [isNum, UInt8.le_iff_toNat_le, this]

/-- **C93**, the field: a range with a number from 2^63 on is refused. -/
theorem C93_field_large {x y : Bytes} {a b : Option Nat} (hx : AnyNum x a) (hy : AnyNum y b)
    (h : (∃ n, a = some n ∧ 2 ^ 63 ≤ n) ∨ ∃ n, b = some n ∧ 2 ^ 63 ≤ n) :
    parseRanges (str "bytes=" ++ partText x y) = ([], false) := by
  have dx := anyNum_digits hx
  have dy := anyNum_digits hy
  unfold parseRanges
  have e : (str "bytes=").length = 6 := by decide
  have w := wellFormed_written [] [] x y trivial dx dy
  have s := split_written [] [] trivial dx dy
  simp only [moreText, List.flatMap_nil, List.append_nil, List.map_nil] at w s
  rw [List.take_left' e, List.drop_left' e, if_pos ⟨rfl, w⟩, s]
  have e1 : (partText x y).dropWhile isWhite = partText x y := by
    cases x with
    | nil => rfl
    | cons d x =>
      have hd := dx d List.mem_cons_self
      rw [partText, List.cons_append, List.dropWhile_cons, if_neg]
      revert hd
      exact Base64.forall_uint8 (P := fun d => isNum d = true → ¬ isWhite d = true) (by decide +kernel) d
  have e2 : (partText x y).dropWhile isNum = 45 :: y := by
    rw [partText, dropWhile_all _ dx, List.dropWhile_cons, if_neg (by decide)]
  have e3 : (partText x y).takeWhile isNum = x := by
    rw [partText, takeWhile_prefix _ dx, List.takeWhile_cons, if_neg (by decide), List.append_nil]
  have e4 : y.dropWhile isNum = [] := by simpa using dropWhile_all [] dy
  have hit : item (partText x y) = .stop := by
    unfold item
    simp only [e1, e2, e3, e4, if_true]
    rcases h with ⟨n, rfl, hn⟩ | ⟨n, rfl, hn⟩
    · rw [stoll_large hx hn]
    · rw [stoll_large hy hn]
      cases stoll x <;> rfl
  rw [items, hit]

/-- The hypotheses of `C93_field_large` can be met; a number below is accepted. -/
example : AnyNum (str "9223372036854775808") (some (2 ^ 63)) ∧
    parseRanges (str "bytes=9223372036854775808-") = ([], false) ∧
    parseRanges (str "bytes=9223372036854775807-") = ([(some (2 ^ 63 - 1), none)], true) :=
  ⟨⟨by decide, by decide, by decide +kernel⟩, by decide +kernel, by decide +kernel⟩

theorem finish_keeps (close : Bool) (m : Method) (r : Res) :
    (finish close m r).status = r.status ∧ (finish close m r).body = if m = .head then [] else r.body := by
  unfold finish
  simp only
  constructor
  · repeat' split
    all_goals simp only [(setHeader_keeps _ _ _).1]
  · split
    · rfl
    · repeat' split
      all_goals simp only [(setHeader_keeps _ _ _).2]

theorem multipart_none (bd ct body : Bytes) : ∀ (rs : List Rng), (∃ g ∈ rs, ∃ a, g.1 = some a ∧ body.length ≤ a) →
    multipart bd ct body rs = none
  | [], h => by obtain ⟨g, hg, -⟩ := h; cases hg
  | r :: rs, h => by
    rw [multipart]
    split
    rename_i offset length ho
    split
    · rename_i hlt
      obtain ⟨g, hg, a, ha, hle⟩ := h
      rcases List.mem_cons.1 hg with rfl | hg
      · exfalso
        obtain ⟨x, y⟩ := g
        cases ha
        cases y <;> cases ho <;> omega
      · rw [multipart_none bd ct body rs ⟨g, hg, a, ha, hle⟩]
        rfl
    · rfl

/-- **C93** for several ranges: if one of them begins behind the end of the text the reply is 416 without content. -/
theorem C93_parts_impossible (rs : List Route) (dyn : Endpoint → Reply) (close : Bool) (bd : Bytes) (l : Line) (e : Endpoint)
    (he : routing rs l = some (some e)) (g1 g2 : Rng) (gs : List Rng) (hb : (e.stub.getD (dyn e)).body ≠ [])
    (h : ∃ g ∈ g1 :: g2 :: gs, ∃ a, g.1 = some a ∧ (e.stub.getD (dyn e)).body.length ≤ a) :
    (answer rs dyn close (g1 :: g2 :: gs) bd l).status = 416 ∧ (answer rs dyn close (g1 :: g2 :: gs) bd l).body = [] := by
  unfold answer
  rw [he]
  simp only
  generalize e.stub.getD (dyn e) = r at hb h ⊢
  have hr := setResponse_fields e r (str "Content-Range") (by decide)
  generalize setResponse ⟨0, [], []⟩ r.body [(str "Content-Type", e.contentType)] r.status = r0 at hr ⊢
  unfold respond
  simp only [true_or, if_true]
  have h1 : (if 400 ≤ r0.status then errorHandler r0 else r0).body = r.body := by
    split
    · rw [(errorHandler_fields hr.1 (str "Content-Range") (by decide)).2.2.1, hr.2.2.1, if_neg hb]
    · exact hr.2.2.1
  generalize (if 400 ≤ r0.status then errorHandler r0 else r0) = r1 at h1 ⊢
  rw [(finish_keeps _ _ _).1, (finish_keeps _ _ _).2]
  suffices hs : (applyRanges (g1 :: g2 :: gs) bd r1).status = 416 ∧ (applyRanges (g1 :: g2 :: gs) bd r1).body = [] by
    rw [hs.1, hs.2]
    exact ⟨rfl, by split <;> rfl⟩
  unfold applyRanges
  simp only [List.length_cons, gt_iff_lt, Nat.lt_add_left_iff_pos, Nat.zero_lt_succ, if_true]
  have hm := fun ct => multipart_none bd ct r.body _ h
  split
  all_goals
    simp only [(setHeader_keeps _ _ _).1, (setHeader_keeps _ _ _).2, h1, hm, if_neg hb]
    exact ⟨trivial, trivial⟩

/-- The hypotheses of `C93_parts_impossible` can be met. -/
example :
    let w := answer registrarRoutes (fun _ => ⟨200, str "voucher"⟩) false [(some 0, some 1), (some 7, none)] [] ⟨.post, str "/.well-known/brski/requestvoucher"⟩
    w.status = 416 ∧ w.body = [] := by decide +kernel

/-! ## C91: what a request that is refused leaves for the next one -/

section Left
open Wire Conn

theorem afterLines_cons {l : Bytes} (s : Bytes) (h : (10 : UInt8) ∉ l) :
    afterLines (l ++ [13, 10] ++ s) = if l = [] ∨ 8190 < l.length then s else afterLines s := by
  have hg := getLine_crlf s h
  rw [afterLines]
  split
  · rename_i he
    rw [hg] at he
    cases he
  · rename_i he
    rw [hg] at he
    cases he
    have : (l ++ [13, 10]).length = 2 ↔ l = [] := by simp
    have : (l ++ [13, 10]).length > 8192 ↔ 8190 < l.length := by simp; omega
    simp only [endsCrlf_crlf, true_and, *]

/-- Header lines up to an empty line or one that is too long are passed over. -/
theorem afterLines_all {ls : List Bytes} (h : ∀ l ∈ ls, ReadableLine l) {x : Bytes} (hx : (10 : UInt8) ∉ x)
    (hx' : x = [] ∨ 8190 < x.length) (s : Bytes) : afterLines (ls.flatMap (· ++ [13, 10]) ++ (x ++ [13, 10] ++ s)) = s := by
  induction ls with
  | nil => rw [List.flatMap_nil, List.nil_append, afterLines_cons s hx, if_pos hx']
  | cons l ls ih =>
    obtain ⟨h1, h2, h3⟩ := h l List.mem_cons_self
    have e : (l :: ls).flatMap (· ++ [13, 10]) ++ (x ++ [13, 10] ++ s) =
        l ++ [13, 10] ++ (ls.flatMap (· ++ [13, 10]) ++ (x ++ [13, 10] ++ s)) := by simp
    rw [e, afterLines_cons _ h1, if_neg (by simp [h2]; omega)]
    exact ih fun l hl => h l (List.mem_cons_of_mem _ hl)

/-- **C91**, requests that are refused: behind a request line that is not understood the next line is taken for a request;
behind one that is too long the header lines are passed over, up to an empty line or one that is too long. -/
theorem C91_left_line (rs : List Route) (mp : Multipart) (bd : Bytes) (stop : Bytes → Nat) (dyn : List Field → Bytes → Endpoint → Reply)
    (close : Bool) (x r : Bytes) (hx : (10 : UInt8) ∉ x) (ls : List Bytes) (hls : ∀ l ∈ ls, ReadableLine l) (y : Bytes)
    (hy : (10 : UInt8) ∉ y) (hy' : y = [] ∨ 8190 < y.length) :
    (x.length ≤ 8190 → parseRequestLine (x ++ [13, 10]) = none →
      ∃ d, serveNext rs mp bd stop dyn close (x ++ [13, 10] ++ r) = .ok (some d) ∧ d.ran = none ∧ d.rest = r ∧ d.closed = false) ∧
    (8190 < x.length →
      ∃ d, serveNext rs mp bd stop dyn close (x ++ [13, 10] ++ (ls.flatMap (· ++ [13, 10]) ++ (y ++ [13, 10] ++ r))) = .ok (some d) ∧
        d.ran = none ∧ d.rest = r ∧ d.closed = false) := by
  constructor
  · intro h1 h2
    unfold serveNext
    rw [getLine_crlf r hx]
    simp only
    rw [if_neg (by simp; omega), h2]
    exact ⟨_, rfl, rfl, by simp only; rw [if_neg (by simp; omega)], rfl⟩
  · intro h1
    unfold serveNext
    rw [getLine_crlf _ hx]
    simp only
    rw [if_pos (by simp; omega)]
    refine ⟨_, rfl, rfl, ?_, rfl⟩
    simp only
    rw [if_pos (by simp; omega)]
    exact afterLines_all hls hy hy' r

/-- **C91**, requests that are refused: a header line that is too long ends the request, and what follows the line is taken
for the next one. -/
theorem C91_left_field (rs : List Route) (mp : Multipart) (bd : Bytes) (stop : Bytes → Nat) (dyn : List Field → Bytes → Endpoint → Reply)
    (close : Bool) (x r : Bytes) (hx : (10 : UInt8) ∉ x) (hx' : x.length ≤ 8190) {line : Line}
    (hl : parseRequestLine (x ++ [13, 10]) = some line) (ls : List Bytes) (hls : ∀ l ∈ ls, ReadableLine l) (y : Bytes)
    (hy : (10 : UInt8) ∉ y) (hy' : 8190 < y.length) :
    ∃ d, serveNext rs mp bd stop dyn close (x ++ [13, 10] ++ (ls.flatMap (· ++ [13, 10]) ++ (y ++ [13, 10] ++ r))) = .ok (some d) ∧
      d.ran = none ∧ d.rest = r ∧ d.closed = false := by
  have hlines : readLines (ls.flatMap (· ++ [13, 10]) ++ (y ++ [13, 10] ++ r)) = (ls, none) := by
    clear hl
    induction ls with
    | nil =>
      rw [List.flatMap_nil, List.nil_append, readLines]
      have hg := getLine_crlf r hy
      split
      · rfl
      · rename_i he
        rw [hg] at he
        cases he
        rw [if_pos (endsCrlf_crlf y), if_neg (by simp; intro h; rw [h] at hy'; simp at hy'), if_pos (by simp; omega)]
    | cons l ls ih =>
      obtain ⟨h1, h2, h3⟩ := hls l List.mem_cons_self
      have e : (l :: ls).flatMap (· ++ [13, 10]) ++ (y ++ [13, 10] ++ r) =
          l ++ [13, 10] ++ (ls.flatMap (· ++ [13, 10]) ++ (y ++ [13, 10] ++ r)) := by simp
      rw [e, readLines_cons _ h1 h2 h3, ih fun l hl => hls l (List.mem_cons_of_mem _ hl)]
  unfold serveNext
  rw [getLine_crlf _ hx]
  simp only
  rw [if_neg (by simp; omega), hl]
  simp only [hlines]
  exact ⟨_, rfl, rfl, afterLines_all hls hy (.inr hy') r, rfl⟩

/-- **C91**: content that is read leaves what follows it, also multipart content that is well formed; multipart content
without boundary is not read at all. -/
theorem C91_left_content (mp : Multipart) (stop : Bytes → Nat) (m : Method) (hs : List Field) (s b r : Bytes) (ls : List Bytes) :
    (startsWith (str "multipart/form-data") (headerValue hs (str "Content-Type")) = true →
      mp.boundary (headerValue hs (str "Content-Type")) = false → bodyRest mp stop m hs s = s) ∧
    (startsWith (str "multipart/form-data") (headerValue hs (str "Content-Type")) = true →
      mp.boundary (headerValue hs (str "Content-Type")) = true → (m = .delete → hasField hs (str "Content-Length") = true) →
      readContent hs s = .ok (.read b r ls) → mp.valid (headerValue hs (str "Content-Type")) b = true →
      bodyRest mp stop m hs s = r) := by
  constructor
  · intro h1 h2
    unfold bodyRest
    simp [h1, h2]
  · intro h1 h2 h3 h4 h5
    unfold bodyRest
    have : ¬ (m = .delete ∧ hasField hs (str "Content-Length") = false) := by
      rintro ⟨e, h⟩
      rw [h3 e] at h
      cases h
    simp [h1, h2, this, h4, h5]

theorem chunksStop_cut {ds : HexText} {ext : Bytes} (hne : ds ≠ []) (he : ExtOk ext) (hv : 0 < ds.value) (hb : ds.value < 2 ^ 64 - 1)
    (s : Bytes) (hs : s.length < ds.value) : chunks (sizeLine ds ext) s = none ∧ chunksStop (sizeLine ds ext) s = [] := by
  rw [chunks, chunksStop, strtoull_hex hne he (by omega)]
  simp only
  rw [if_neg (by omega), if_neg (by omega), if_pos hs, if_neg (by omega), if_pos hs]
  exact ⟨rfl, rfl⟩

/-- **C91**, content in chunks that is refused: when a chunk is cut short nothing is left; when the trailer has a line that is
too long, what follows this line is taken for the next request. -/
theorem C91_left_chunks (hs : List Field) (hc : isChunked hs = true) (hn : headerValue hs (str "Content-Encoding") = [])
    {ds : HexText} {ext : Bytes} (hne : ds ≠ []) (he : ExtOk ext) :
    (∀ s, 0 < ds.value → ds.value < 2 ^ 64 - 1 → s.length < ds.value →
      readContent hs (sizeLine ds ext ++ s) = .ok (.failed 400) ∧ contentRest hs (sizeLine ds ext ++ s) = []) ∧
    (∀ (cs : List Chunk) (ls : List Bytes) (y r : Bytes), ds.value = 0 → (∀ c ∈ cs, c.Ok) → (∀ l ∈ ls, ReadableLine l) → (∀ l ∈ ls, (0 : UInt8) ∉ l) →
      (10 : UInt8) ∉ y → 8190 < y.length → (0 : UInt8) ∉ y →
      readContent hs (cs.flatMap Chunk.text ++ (sizeLine ds ext ++ (ls.flatMap (· ++ [13, 10]) ++ (y ++ [13, 10] ++ r)))) = .ok (.failed 400) ∧
      contentRest hs (cs.flatMap Chunk.text ++ (sizeLine ds ext ++ (ls.flatMap (· ++ [13, 10]) ++ (y ++ [13, 10] ++ r)))) = r) := by
  have e1 : ¬ (headerValue hs (str "Content-Encoding") = str "gzip" ∨ headerValue hs (str "Content-Encoding") = str "deflate" ∨
      hasBr (headerValue hs (str "Content-Encoding")) = true) := by rw [hn]; decide
  constructor
  · intro s h1 h2 h3
    unfold readContent contentRest
    simp only
    rw [if_neg e1, if_neg e1, if_pos hc, if_pos hc, sizeLine_get he s]
    simp only [(chunksStop_cut hne he h1 h2 s h3).1, (chunksStop_cut hne he h1 h2 s h3).2]
    exact ⟨trivial, trivial⟩
  · intro cs ls y r hv hcs hls h0 hy hy' hy0
    obtain ⟨l, r', hg, hch, -⟩ := chunks_all hcs hne he hv (ls.flatMap (· ++ [13, 10]) ++ (y ++ [13, 10] ++ r))
    unfold readContent contentRest
    simp only
    rw [if_neg e1, if_neg e1, if_pos hc, if_pos hc, hg]
    simp only [hch]
    have cs0 : ∀ l : Bytes, (0 : UInt8) ∉ l → l ≠ [] → BoolTime.cstr (l ++ [13, 10]) ≠ [13, 10] := by
      intro l h0 hne h
      have : BoolTime.cstr (l ++ [13, 10]) = l ++ [13, 10] := by
        unfold BoolTime.cstr
        rw [List.takeWhile_append_of_pos (by intro c hc; simp; rintro rfl; exact h0 hc)]
        rfl
      rw [this] at h
      have := congrArg List.length h
      simp at this
      exact hne this
    have key : trailer (ls.flatMap (· ++ [13, 10]) ++ (y ++ [13, 10] ++ r)) = .ok none ∧
        trailerStop (ls.flatMap (· ++ [13, 10]) ++ (y ++ [13, 10] ++ r)) = r := by
      clear hch hg
      induction ls with
      | nil =>
        have hyne : y ≠ [] := by rintro rfl; simp at hy'
        rw [List.flatMap_nil, List.nil_append, trailer, trailerStop]
        constructor
        · split
          · rfl
          · rename_i he'
            rw [getLine_crlf r hy] at he'
            cases he'
            rw [if_neg (cs0 y hy0 hyne), if_pos (by simp; omega)]
        · split
          · rename_i he'
            rw [getLine_crlf r hy] at he'
            cases he'
          · rename_i he'
            rw [getLine_crlf r hy] at he'
            cases he'
            rw [if_pos (.inr (by simp; omega))]
      | cons l ls ih =>
        have hlr := hls l List.mem_cons_self
        obtain ⟨h1, h2, h3⟩ := hlr
        have e : (l :: ls).flatMap (· ++ [13, 10]) ++ (y ++ [13, 10] ++ r) =
            l ++ [13, 10] ++ (ls.flatMap (· ++ [13, 10]) ++ (y ++ [13, 10] ++ r)) := by simp
        have ih := ih (fun l hl => hls l (List.mem_cons_of_mem _ hl)) (fun l hl => h0 l (List.mem_cons_of_mem _ hl))
        rw [e]
        constructor
        · rw [trailer_cons _ ⟨h1, h2, h3⟩, ih.1]
          rfl
        · rw [trailerStop]
          split
          · rename_i he'
            rw [getLine_crlf _ h1] at he'
            cases he'
          · rename_i he'
            rw [getLine_crlf _ h1] at he'
            cases he'
            rw [if_neg]
            · exact ih.2
            · rintro (h | h)
              · exact cs0 l (h0 l List.mem_cons_self) h2 h
              · simp at h; omega
    rw [key.1, key.2]
    exact ⟨rfl, rfl⟩

/-- The hypotheses of `C91_left_line` and `C91_left_field` can be met: a line without version is not understood, one with
version is; and lines can be too long. -/
example : parseRequestLine (str "GET /" ++ [13, 10]) = none ∧ (parseRequestLine (str "GET / HTTP/1.1" ++ [13, 10])).isSome = true ∧
    8190 < (List.replicate 8191 (65 : UInt8)).length ∧ (10 : UInt8) ∉ List.replicate 8191 (65 : UInt8) ∧ ReadableLine (str "Host: a") := by
  refine ⟨by decide +kernel, by decide +kernel, by rw [List.length_replicate]; decide, ?_, by decide, by decide, by decide⟩
  intro h
  have := List.eq_of_mem_replicate h
  revert this
  decide

/-- The hypotheses of `C91_left_chunks` can be met: chunked content, a chunk of size 10 and the last chunk. -/
example : isChunked [(str "Transfer-Encoding", str "chunked")] = true ∧
    headerValue [(str "Transfer-Encoding", str "chunked")] (str "Content-Encoding") = [] ∧
    HexText.value [(10, false)] = 10 ∧ HexText.value [(0, false)] = 0 ∧ ExtOk [] := by
  refine ⟨by decide +kernel, by decide +kernel, by decide, by decide, .inl rfl, by decide⟩

end Left

/-! ## C85, C86: no failing call goes unnoticed -/

section Noticed
open X509 Names

theorem addPairs_ok {L : X509.Lib} {ok : Nat → Bool} : ∀ {ps : List (Option Bytes × Option Bytes)} {i : Nat} {n n' : List Entry},
    addPairs L ok i ps n = some n' → ∀ j, j < ps.length → ok (i + j) = true
  | [], _, _, _, _, j, hj => absurd hj (by simp)
  | (some k, some v) :: ps, i, n, n', h, j, hj => by
    rw [addPairs] at h
    cases ha : addEntry L (ok i) n (BoolTime.cstr k) (BoolTime.cstr v) with
    | none => rw [ha] at h; cases h
    | some n1 =>
      rw [ha] at h
      cases j with
      | zero =>
        unfold addEntry at ha
        split at ha
        · cases ha
        · split at ha
          · rename_i hc
            simp only [Bool.and_eq_true] at hc
            exact hc.1
          · cases ha
      | succ j =>
        have := addPairs_ok h j (by simp at hj; omega)
        rwa [show i + 1 + j = i + (j + 1) by omega] at this
  | (none, _) :: ps, _, _, _, h, _, _ => by simp [addPairs] at h
  | (some _, none) :: ps, _, _, _, h, _, _ => by simp [addPairs] at h

theorem makeName_ok {L : X509.Lib} {ok : Step → Bool} {b : Bool} {ps : List (Option Bytes × Option Bytes)} {n : List Entry}
    (h : makeName L ok b ps = some n) :
    ok (.newName b) = true ∧ ok (.setName b) = true ∧ ∀ i, i < ps.length → ok (.entry b i) = true := by
  unfold makeName at h
  split at h
  · rename_i h1
    split at h
    · cases h
    · rename_i n' hp
      split at h
      · rename_i h2
        exact ⟨h1, h2, fun i hi => by simpa using addPairs_ok hp i hi⟩
      · cases h
  · cases h

/-- **C85**: a certificate is made only if all calls below have worked. -/
theorem C85_noticed (L : X509.Lib) (read : Bytes → Option L.Key) (ok : Step → Bool) (now : Nat → Int) (m : Meta) (key der : Bytes)
    (h : genCert L read ok now m key = some der) :
    ok .newCert = true ∧ ok .version = true ∧ ok .newInt = true ∧ ok .setInt = true ∧ ok .setSerial = true ∧ ok .before = true ∧
      ok .setPub = true ∧ (m.absolute = none → ok .after = true) ∧ (m.absolute ≠ none → ok .newTime = true ∧ ok .setAfter = true) ∧
      (m.constraints ≠ none → ok .addExt = true) ∧
      (∀ b ps, (if b = true then m.subject else m.issuer) = some ps →
        ok (.newName b) = true ∧ ok (.setName b) = true ∧ ∀ i, i < ps.length → ok (.entry b i) = true) := by
  unfold genCert at h
  split at h
  · rename_i hnew
    simp only [Option.bind_eq_some_iff] at h
    obtain ⟨t, h1, k, -, h⟩ := h
    split at h
    · rename_i hpub
      clear h
      unfold setMeta at h1
      split at h1
      · rename_i hver
        simp only [Option.bind_eq_some_iff] at h1
        obtain ⟨t1, hs, h1⟩ := h1
        unfold setSerial at hs
        split at hs
        · rename_i hser
          simp only [Bool.and_eq_true] at hser
          split at h1
          · rename_i hbef
            simp only [Option.bind_eq_some_iff] at h1
            obtain ⟨t2, h2, t3, h3, t4, h4, h5⟩ := h1
            refine ⟨hnew, hver, hser.1.1, hser.1.2, hser.2, hbef, hpub, ?_, ?_, ?_, ?_⟩
            · intro hm
              unfold setAfter at h2
              rw [hm] at h2
              simp only at h2
              split at h2
              · assumption
              · cases h2
            · intro hm
              obtain ⟨a, ha⟩ := Option.ne_none_iff_exists'.1 hm
              unfold setAfter at h2
              rw [ha] at h2
              simp only at h2
              split at h2
              · cases h2
              · split at h2
                · rename_i hn
                  split at h2
                  · cases h2
                  · split at h2
                    · rename_i hsa
                      exact ⟨hn, hsa⟩
                    · cases h2
                · cases h2
            · intro hm
              obtain ⟨a, ha⟩ := Option.ne_none_iff_exists'.1 hm
              unfold setExt at h5
              rw [ha] at h5
              simp only at h5
              split at h5
              · cases h5
              · split at h5
                · assumption
                · cases h5
            · intro b ps hps
              cases b with
              | false =>
                rw [if_neg (by decide)] at hps
                rw [hps] at h3
                simp only [Option.map_eq_some_iff] at h3
                obtain ⟨n, hn, -⟩ := h3
                exact makeName_ok hn
              | true =>
                rw [if_pos rfl] at hps
                rw [hps] at h4
                simp only [Option.map_eq_some_iff] at h4
                obtain ⟨n, hn, -⟩ := h4
                exact makeName_ok hn
          · cases h1
        · cases hs
      · cases h1
    · cases h
  · cases h

/-- **C85**: the pledge goes on with key and certificate only if all allocations for the lists have worked and there were random
bytes. -/
theorem C85_lists (L : X509.Lib) (e : GenEnv) (kc : Option Bytes × Option Bytes) (h : generate L e = .ok (some kc)) :
    (∀ i, i < 5 → e.mem i = true) ∧ (e.rng 8).isSome = true ∧ kc.1 = e.key ∧ (kc.2.isSome = true → e.key.isSome = true) := by
  unfold generate at h
  simp only at h
  split at h
  · rename_i hr
    have hrng : (e.rng 8).isSome = true := by
      unfold getRand at hr
      simp only [List.length_replicate, Nat.reduceEqDiff, if_false, Nat.reduceMod, Nat.reduceLT, if_true] at hr
      cases hg : e.rng 8 with
      | none => rw [hg] at hr; cases hr
      | some r => rfl
    generalize Utils.printfHex _ _ _ _ = o at h
    cases o with
    | ub => cases h
    | ok t =>
      rw [bind'_ok] at h
      cases ht : t.1 with
      | none => rw [ht] at h; cases h
      | some t1 =>
        rw [ht] at h
        simp only at h
        split at h
        · rename_i hm
          simp only [Bool.and_eq_true] at hm
          simp only [Outcome.ok.injEq, Option.some.injEq] at h
          subst h
          refine ⟨fun i hi => ?_, hrng, rfl, fun hk => ?_⟩
          · rcases (show i = 0 ∨ i = 1 ∨ i = 2 ∨ i = 3 ∨ i = 4 by omega) with rfl | rfl | rfl | rfl | rfl
            · exact hm.1.1.1.1
            · exact hm.1.1.1.2
            · exact hm.1.1.2
            · exact hm.1.2
            · exact hm.2
          · cases hkk : e.key with
            | none => rw [hkk] at hk; cases hk
            | some k => rfl
        · cases h
  · cases h

/-- The hypotheses of `C85_noticed` and `C85_lists` can be met. -/
example : genCert (certPair accentedCert accentedCert) (certPair accentedCert accentedCert).ecKey (fun _ => true) (fun _ => 5)
      accented [6, 9] = some [48, 0] ∧
    generate (certPair pledgeCert pledgeCert) (pledgeAt [1, 2, 3, 4, 5, 6, 7, 8]) = .ok (some (some [6, 9], some [48, 0])) :=
  ⟨accented_made, pledges_alike.1⟩

end Noticed

end Brski.Props
