import Verif.CutSim

/-!
# C109, C110: how a message arrives, and messages that are cut off

The network decides in which pieces a message arrives and whether a connection ends in an orderly way.  C109: the pieces make no
difference.  C110: a message that the network cut off is not taken for a whole one.
-/

namespace Brski.Props
open Outcome Routes Brski.Cut

/-! ## Specification -/

/-- The same bytes arrive on both connections and they end alike; the pieces may differ. -/
def SameArrival (s t : Strm) : Prop := s.bytes = t.bytes ∧ s.orderly = t.orderly

/-- Whatever the routes, handlers and connection: the reply of a server, and the answer a client makes of a reply, are the same for
all ways to cut the same bytes into pieces. -/
def C109_statement : Prop :=
  (∀ rs ok dyn close s t, SameArrival s t → serve rs ok dyn close s = serve rs ok dyn close t) ∧
    ∀ s t, SameArrival s t → readReply s = readReply t

/-- The header fields of the request on the connection, when they can be read. -/
def HasFields (s : Strm) (hs : List Field) : Prop :=
  ∃ l r ls r', getline [] s = some (l, r) ∧ readLines r = (ls, some r') ∧ hs = readHeaders ls

/-- The network cuts off `s`, an error ends it; without that the connection would have been `t`. -/
def CutOff (s t : Strm) : Prop := s.orderly = false ∧ ∃ q, t.bytes = s.bytes ++ q

/-- The server refuses the request. -/
def Refuses (r : Res) : Prop := ∃ close m, r = writeResponse close m false ⟨400, [], []⟩

/-- What is cut off is refused, or it is answered as it would have been otherwise. -/
def C110_statement : Prop :=
  (∀ rs ok dyn close s t r, CutOff s t → serve rs ok dyn close s = .ok (some r) →
    Refuses r ∨ serve rs ok dyn close t = .ok (some r)) ∧
    ∀ s t a, CutOff s t → readReply s = .ok (some a) → readReply t = .ok (some a)

/-! ## Both directions -/

theorem upto_same {s t : Strm} (h : SameArrival s t) : Upto [] s t ∧ Upto [] t s := by
  refine ⟨⟨by rw [h.1, List.append_nil], fun ho => ⟨rfl, h.2 ▸ ho⟩⟩, ⟨by rw [h.1, List.append_nil], fun ho => ⟨rfl, h.2.symm ▸ ho⟩⟩⟩

/-- Each connection continues the other: the same arrival but for a difference that nothing notices. -/
def Twin (s t : Strm) : Prop := Upto [] s t ∧ Upto [] t s

theorem getline_twin {s t : Strm} (h : Twin s t) (acc : Bytes) :
    (getline acc s = none ∧ getline acc t = none) ∨
      ∃ l s' t', getline acc s = some (l, s') ∧ getline acc t = some (l, t') ∧ Twin s' t' := by
  cases hs : getline acc s with
  | none =>
    left
    cases ht : getline acc t with
    | none => exact ⟨rfl, rfl⟩
    | some p =>
      obtain ⟨_, h1, _⟩ := getline_sim h.2 ht
      rw [hs] at h1
      cases h1
  | some p =>
    obtain ⟨l, s'⟩ := p
    obtain ⟨t', h1, h2⟩ := getline_sim h.1 hs
    obtain ⟨s'', h3, h4⟩ := getline_sim h.2 h1
    rw [hs] at h3
    cases h3
    exact .inr ⟨l, s', t', rfl, h1, h2, h4⟩

theorem readLines_twin {s t : Strm} (h : Twin s t) :
    (readLines s).1 = (readLines t).1 ∧
      (((readLines s).2 = none ∧ (readLines t).2 = none) ∨
        ∃ s' t', (readLines s).2 = some s' ∧ (readLines t).2 = some t' ∧ Twin s' t') := by
  rw [readLines_step s, readLines_step t]
  rcases getline_twin h [] with ⟨h1, h2⟩ | ⟨l, s', t', h1, h2, h3⟩
  · rw [h1, h2]
    exact ⟨rfl, .inl ⟨rfl, rfl⟩⟩
  · rw [h1, h2]
    have hlt := getline_lt h1
    have ih := readLines_twin h3
    dsimp only
    by_cases he : Wire.endsCrlf l = true
    · rw [if_pos he, if_pos he]
      by_cases hl : l.length = 2
      · rw [if_pos hl, if_pos hl]
        exact ⟨rfl, .inr ⟨s', t', rfl, rfl, h3⟩⟩
      · rw [if_neg hl, if_neg hl]
        by_cases h8 : l.length > 8192
        · rw [if_pos h8, if_pos h8]
          exact ⟨rfl, .inl ⟨rfl, rfl⟩⟩
        · rw [if_neg h8, if_neg h8]
          exact ⟨by rw [ih.1], ih.2⟩
    · rw [if_neg he, if_neg he]
      exact ih
termination_by s.bytes.length

theorem readContent_twin {s t : Strm} (h : Twin s t) (hs : List Field) :
    (readContent append [] hs s = .ub ∧ readContent append [] hs t = .ub) ∨
      (∃ st, readContent append [] hs s = .ok (.error st) ∧ readContent append [] hs t = .ok (.error st)) ∨
      ∃ y s' t' ls, readContent append [] hs s = .ok (.ok (y, s', ls)) ∧ readContent append [] hs t = .ok (.ok (y, t', ls)) := by
  obtain ⟨a1, a2, a3⟩ := readContent_sim h.1 (hs := hs) (.inl rfl) (x := [])
  obtain ⟨b1, b2, b3⟩ := readContent_sim h.2 (hs := hs) (.inl rfl) (x := [])
  cases hrs : readContent append [] hs s with
  | ub => exact .inl ⟨rfl, a1 hrs⟩
  | ok o =>
    right
    cases o with
    | ok p =>
      obtain ⟨y, s', ls⟩ := p
      obtain ⟨t', h'⟩ := a2 _ _ _ hrs
      exact .inr ⟨y, s', t', ls, rfl, h'⟩
    | error st =>
      left
      refine ⟨st, rfl, ?_⟩
      by_cases h4 : st = 400
      · cases hrt : readContent append [] hs t with
        | ub => rw [b1 hrt] at hrs; cases hrs
        | ok o =>
          cases o with
          | ok p =>
            obtain ⟨y, t', ls⟩ := p
            obtain ⟨_, h'⟩ := b2 _ _ _ hrt
            rw [hrs] at h'
            cases h'
          | error st' =>
            by_cases h5 : st' = 400
            · rw [h4, h5]
            · have := b3 _ hrt h5
              rw [hrs] at this
              cases this
              rfl
      · exact a3 _ hrs h4

theorem readStatus_twin {s t : Strm} (h : Twin s t) :
    (readStatus s = none ∧ readStatus t = none) ∨
      ∃ st s' t', readStatus s = some (st, s') ∧ readStatus t = some (st, t') ∧ Twin s' t' := by
  cases hs : readStatus s with
  | none =>
    left
    cases ht : readStatus t with
    | none => exact ⟨rfl, rfl⟩
    | some p =>
      obtain ⟨_, h1, _⟩ := readStatus_sim h.2 ht
      rw [hs] at h1
      cases h1
  | some p =>
    obtain ⟨st, s'⟩ := p
    obtain ⟨t', h1, h2⟩ := readStatus_sim h.1 hs
    obtain ⟨s'', h3, h4⟩ := readStatus_sim h.2 h1
    rw [hs] at h3
    cases h3
    exact .inr ⟨st, s', t', rfl, h1, h2, h4⟩

/-! ## C109 -/

/-- **C109**, clients: the answer made of a reply does not depend on the pieces it arrives in, whether the connection ends in an
orderly way or not. -/
theorem C109_reply {s t : Strm} (h : SameArrival s t) : readReply s = readReply t := by
  unfold readReply
  rcases readStatus_twin (upto_same h) with ⟨h1, h2⟩ | ⟨st, s', t', h1, h2, h3⟩
  · rw [h1, h2]
  · rw [h1, h2]
    dsimp only
    obtain ⟨hl, hr⟩ := readLines_twin h3
    cases hs : readLines s' with
    | mk a b =>
      cases ht : readLines t' with
      | mk a' b' =>
        rw [hs, ht] at hl hr
        dsimp only at hl hr
        subst hl
        rcases hr with ⟨rfl, rfl⟩ | ⟨s2, t2, rfl, rfl, h4⟩
        · rfl
        · dsimp only
          by_cases h5 : st = 204
          · rw [if_pos h5, if_pos h5]
          · rw [if_neg h5, if_neg h5]
            rcases readContent_twin h4 (readHeaders a) with ⟨k1, k2⟩ | ⟨st', k1, k2⟩ | ⟨y, _, _, ls, k1, k2⟩ <;>
              rw [k1, k2] <;> rfl

/-- Requests are served alike, but for multipart content. -/
theorem readBody_twin {s t : Strm} (h : Twin s t) (ok : Bytes → Bool) (m : Method) {hs : List Field} (hp : plain hs) :
    readBody ok m hs s = readBody ok m hs t := by
  unfold readBody
  unfold plain at hp
  dsimp only
  rw [hp]
  simp only [Bool.false_eq_true, if_false]
  by_cases hd : m = Method.delete ∧ Wire.hasField hs (str "Content-Length") = false
  · rw [if_pos hd, if_pos hd]
  · rw [if_neg hd, if_neg hd]
    rcases readContent_twin h hs with ⟨k1, k2⟩ | ⟨st', k1, k2⟩ | ⟨y, _, _, ls, k1, k2⟩ <;>
      rw [k1, k2] <;> rfl

/-- **C109**, servers: unless the content of the request is multipart, the reply does not depend on the pieces the request arrives
in, whether the connection ends in an orderly way or not. -/
theorem C109_partial (rs : List Route) (ok : Bytes → Bool) (dyn : List Field → Bytes → Endpoint → Reply) (close : Bool) {s t : Strm}
    (h : SameArrival s t) (hp : ∀ hs, HasFields s hs → plain hs) : serve rs ok dyn close s = serve rs ok dyn close t := by
  unfold serve
  rcases getline_twin (upto_same h) [] with ⟨h1, h2⟩ | ⟨l, s', t', h1, h2, h3⟩
  · rw [h1, h2]
  · rw [h1, h2]
    dsimp only
    cases (if 8192 < l.length then none else parseRequestLine l) with
    | none => rfl
    | some line =>
      dsimp only
      obtain ⟨hl, hr⟩ := readLines_twin h3
      cases hs : readLines s' with
      | mk a b =>
        cases ht : readLines t' with
        | mk a' b' =>
          rw [hs, ht] at hl hr
          dsimp only at hl hr
          subst hl
          rcases hr with ⟨rfl, rfl⟩ | ⟨s2, t2, rfl, rfl, h4⟩
          · rfl
          · dsimp only
            rw [readBody_twin h4 ok line.method (hp _ ⟨l, s', a, s2, h1, hs, rfl⟩)]

/-- **C109**, and what is read is what `Wire` makes of the bytes: all that is proved about `Wire.readReply` holds for replies that
arrive in pieces. -/
theorem C109_reply_wire {s : Strm} (ho : s.orderly = true) : readReply s = Wire.readReply s.bytes := by
  unfold readReply Wire.readReply
  have h1 := readStatus_orderly ho
  cases hw : Wire.readStatus s.bytes with
  | none => rw [hw] at h1; rw [h1]
  | some p =>
    obtain ⟨st, r⟩ := p
    rw [hw] at h1
    obtain ⟨s', h2, rfl, h4⟩ := h1
    rw [h2]
    dsimp only
    obtain ⟨hl, hr⟩ := readLines_orderly h4
    cases hs : readLines s' with
    | mk a b =>
      cases ht : Wire.readLines s'.bytes with
      | mk a' b' =>
        rw [hs, ht] at hl hr
        dsimp only at hl hr
        subst hl
        cases b' with
        | none => dsimp only at hr; subst hr; rfl
        | some r2 =>
          obtain ⟨s2, rfl, rfl, h6⟩ := hr
          dsimp only
          by_cases h5 : st = 204
          · rw [if_pos h5, if_pos h5]
          · rw [if_neg h5, if_neg h5]
            obtain ⟨_, h7⟩ := readContent_append (readHeaders a) h6
            rw [h7]
            cases Wire.readContent (readHeaders a) s2.bytes with
            | ub => rfl
            | ok w => cases w <;> rfl

/-- Non-vacuity: a reply in chunks whose connection delivers it byte by byte at first. -/
example :
    let s : Strm := ⟨str "HTTP/1.1 200 OK\r\nTransfer-Encoding: chunked\r\n\r\n3\r\nTUl\r\n1\r\nJ\r\n0\r\n\r\n", List.replicate 51 1 ++ [2, 1], true⟩
    s.orderly = true ∧ readReply s = .ok (some (200, str "TUlJ")) ∧ Wire.readReply s.bytes = .ok (some (200, str "TUlJ")) := by
  decide +kernel

/-- **C109**, and for servers: for every arrival there is a parser in the sense of `Wire` with the same reply, unless multipart
content is refused before something undefined would happen; without multipart content every parser will do. -/
theorem C109_wire (rs : List Route) (ok : Bytes → Bool) (dyn : List Field → Bytes → Endpoint → Reply) (close : Bool) {s : Strm}
    (ho : s.orderly = true) :
    (∃ mp, Wire.serve rs mp dyn close s.bytes = .ub ∨ serve rs ok dyn close s = Wire.serve rs mp dyn close s.bytes) ∧
      ((∀ hs, HasFields s hs → plain hs) → ∀ mp, serve rs ok dyn close s = Wire.serve rs mp dyn close s.bytes) := by
  let mp0 : Wire.Multipart := ⟨fun _ => false, fun _ _ => false⟩
  cases hg : Wire.getLine s.bytes with
  | none =>
    have : ∀ mp, serve rs ok dyn close s = Wire.serve rs mp dyn close s.bytes := by
      intro mp
      unfold serve Wire.serve
      rw [getline_none ho hg, hg]
    exact ⟨⟨mp0, .inr (this _)⟩, fun _ => this⟩
  | some p =>
    obtain ⟨l, r⟩ := p
    obtain ⟨s', h2, rfl, h4⟩ := getline_some ho hg
    cases hline : (if 8192 < l.length then none else parseRequestLine l) with
    | none =>
      have : ∀ mp, serve rs ok dyn close s = Wire.serve rs mp dyn close s.bytes := by
        intro mp
        unfold serve Wire.serve
        rw [h2, hg]
        dsimp only
        rw [hline]
      exact ⟨⟨mp0, .inr (this _)⟩, fun _ => this⟩
    | some line =>
      obtain ⟨hl, hr⟩ := readLines_orderly h4
      cases hs : readLines s' with
      | mk a b =>
        cases ht : Wire.readLines s'.bytes with
        | mk a' b' =>
          rw [hs, ht] at hl hr
          dsimp only at hl hr
          subst hl
          cases b' with
          | none =>
            dsimp only at hr
            subst hr
            have : ∀ mp, serve rs ok dyn close s = Wire.serve rs mp dyn close s.bytes := by
              intro mp
              unfold serve Wire.serve
              rw [h2, hg]
              dsimp only
              rw [hline]
              dsimp only
              rw [hs, ht]
            exact ⟨⟨mp0, .inr (this _)⟩, fun _ => this⟩
          | some r2 =>
            obtain ⟨s2, rfl, rfl, h6⟩ := hr
            have key : ∀ mp, (readBody ok line.method (readHeaders a) s2 = Wire.readBody mp line.method (readHeaders a) s2.bytes) →
                serve rs ok dyn close s = Wire.serve rs mp dyn close s.bytes := by
              intro mp hb
              unfold serve Wire.serve
              rw [h2, hg]
              dsimp only
              rw [hline]
              dsimp only
              rw [hs, ht]
              dsimp only
              rw [hb]
              rfl
            refine ⟨?_, fun hp mp => key mp (readBody_plain ok mp line.method (hp _ ⟨l, s', a, s2, h2, hs, rfl⟩) h6)⟩
            obtain ⟨mp, h7⟩ := readBody_parser ok line.method (readHeaders a) h6
            refine ⟨mp, ?_⟩
            by_cases he : Wire.expectsContent line.method = true
            · rcases h7 with h7 | h7
              · left
                unfold Wire.serve
                rw [hg]
                dsimp only
                rw [hline]
                dsimp only
                rw [ht]
                dsimp only
                rw [if_pos he, h7]
                rfl
              · exact .inr (key mp h7)
            · right
              unfold serve Wire.serve
              rw [h2, hg]
              dsimp only
              rw [hline]
              dsimp only
              rw [hs, ht]
              dsimp only
              rw [if_neg he, if_neg he]

/-- Non-vacuity: a request in chunks; without multipart content every parser will do. -/
example :
    let s : Strm := ⟨str "POST /.well-known/brski/requestvoucher HTTP/1.1\r\nTransfer-Encoding: chunked\r\n\r\n3\r\nTUl\r\n1\r\nJ\r\n0\r\n\r\n",
      List.replicate 83 1 ++ [2, 1], true⟩
    s.orderly = true ∧
      (serve registrarRoutes (fun _ => false) (fun _ b _ => ⟨200, str "got " ++ b⟩) false s).bind
        (fun r => .ok (r.map fun r => (r.status, r.body))) = .ok (some (200, str "got TUlJ")) ∧
      (Wire.serve registrarRoutes ⟨fun _ => false, fun _ _ => false⟩ (fun _ b _ => ⟨200, str "got " ++ b⟩) false s.bytes).bind
        (fun r => .ok (r.map fun r => (r.status, r.body))) = .ok (some (200, str "got TUlJ")) := by
  decide +kernel

/-! ## C110 -/

/-- **C110**, clients: a reply whose header tells its length, or that comes in chunks, is never taken for complete when it was cut
off: when there is an answer, it is the answer to the whole reply. -/
theorem C110_reply_partial {s t : Strm} (h : CutOff s t) {a : Nat × Bytes} (hr : readReply s = .ok (some a))
    (hf : ∀ st r ls r', readStatus s = some (st, r) → readLines r = (ls, some r') → framed (readHeaders ls)) :
    readReply t = .ok (some a) := by
  obtain ⟨ho, q, hq⟩ := h
  have hu : Upto q s t := ⟨hq, fun h => by rw [ho] at h; cases h⟩
  unfold readReply at hr ⊢
  cases h1 : readStatus s with
  | none => rw [h1] at hr; cases hr
  | some p =>
    obtain ⟨st, s'⟩ := p
    obtain ⟨t', h2, h3⟩ := readStatus_sim hu h1
    rw [h1] at hr
    rw [h2]
    dsimp only at hr ⊢
    cases h4 : readLines s' with
    | mk ls b =>
      cases b with
      | none => rw [h4] at hr; cases hr
      | some s2 =>
        obtain ⟨k1, t2, k2, k3⟩ := readLines_sim h3 (s' := s2) (by rw [h4])
        have hf := hf _ _ _ _ h1 h4
        rw [h4] at hr k1
        cases h5 : readLines t' with
        | mk ls' b' =>
          rw [h5] at k1 k2
          dsimp only at k1 k2 hr ⊢
          subst k1 k2
          dsimp only
          by_cases h6 : st = 204
          · rw [if_pos h6] at hr ⊢
            exact hr
          · rw [if_neg h6] at hr ⊢
            obtain ⟨_, m2, _⟩ := readContent_sim k3 (.inr hf) (x := [])
            cases h7 : readContent append [] (readHeaders ls') s2 with
            | ub => rw [h7] at hr; cases hr
            | ok o =>
              cases o with
              | error st => rw [h7] at hr; cases hr
              | ok p =>
                obtain ⟨y, s3, tr⟩ := p
                obtain ⟨t3, m4⟩ := m2 _ _ _ h7
                rw [h7] at hr
                rw [m4]
                exact hr

/-- **C110**, servers: a request whose header tells its length, or that comes in chunks, is refused when it was cut off, or answered
like the whole one; likewise requests with methods that have no content. -/
theorem C110_partial (rs : List Route) (ok : Bytes → Bool) (dyn : List Field → Bytes → Endpoint → Reply) (close : Bool) {s t : Strm}
    {r : Res} (h : CutOff s t) (hr : serve rs ok dyn close s = .ok (some r)) (hp : ∀ hs, HasFields s hs → plain hs ∧ framed hs) :
    Refuses r ∨ serve rs ok dyn close t = .ok (some r) := by
  obtain ⟨ho, q, hq⟩ := h
  have hu : Upto q s t := ⟨hq, fun h => by rw [ho] at h; cases h⟩
  unfold serve at hr
  cases h1 : getline [] s with
  | none => rw [h1] at hr; cases hr
  | some p =>
    obtain ⟨l, s'⟩ := p
    obtain ⟨t', h2, h3⟩ := getline_sim hu h1
    rw [h1] at hr
    unfold serve
    rw [h2]
    dsimp only at hr ⊢
    cases hline : (if 8192 < l.length then none else parseRequestLine l) with
    | none => rw [hline] at hr; exact .inr hr
    | some line =>
      rw [hline] at hr
      dsimp only at hr ⊢
      cases h4 : readLines s' with
      | mk ls b =>
        cases b with
        | none =>
          rw [h4] at hr
          cases hr
          exact .inl ⟨_, _, rfl⟩
        | some s2 =>
          obtain ⟨k1, t2, k2, k3⟩ := readLines_sim h3 (s' := s2) (by rw [h4])
          obtain ⟨hpl, hfr⟩ := hp _ ⟨l, s', ls, s2, h1, h4, rfl⟩
          rw [h4] at hr k1
          cases h5 : readLines t' with
          | mk ls' b' =>
            rw [h5] at k1 k2
            dsimp only at k1 k2 hr ⊢
            subst k1 k2
            dsimp only
            by_cases he : Wire.expectsContent line.method = true
            · rw [if_pos he] at hr ⊢
              unfold readBody at hr ⊢
              unfold plain at hpl
              dsimp only at hr ⊢
              rw [hpl] at hr ⊢
              simp only [Bool.false_eq_true, if_false] at hr ⊢
              by_cases hd : line.method = Method.delete ∧ Wire.hasField (readHeaders ls') (str "Content-Length") = false
              · rw [if_pos hd] at hr ⊢
                exact .inr hr
              · rw [if_neg hd] at hr ⊢
                obtain ⟨_, m2, m3⟩ := readContent_sim k3 (.inr hfr) (x := [])
                cases h7 : readContent append [] (readHeaders ls') s2 with
                | ub => rw [h7] at hr; cases hr
                | ok o =>
                  cases o with
                  | error st =>
                    rw [h7] at hr
                    by_cases h8 : st = 400
                    · subst h8
                      cases hr
                      exact .inl ⟨_, _, rfl⟩
                    · rw [m3 _ h7 h8]
                      exact .inr hr
                  | ok p =>
                    obtain ⟨y, s3, tr⟩ := p
                    obtain ⟨t3, m4⟩ := m2 _ _ _ h7
                    rw [h7] at hr
                    rw [m4]
                    exact .inr hr
            · rw [if_neg he] at hr ⊢
              exact .inr hr

/-! ## What the code does instead -/

/-- A request with multipart content: its header. -/
def formHead : Bytes :=
  str "POST /.well-known/brski/requestvoucher HTTP/1.1\r\nContent-Type: multipart/form-data; boundary=b\r\nContent-Length: 17\r\n\r\n"

/-- Its content, a form with one part. -/
def formBody : Bytes := str "--b\r\n\r\nx\r\n--b--\r\n"

/-- The answer with handlers that repeat the body. -/
def formAnswer (cuts : List Nat) : Outcome (Option Nat) :=
  (serve registrarRoutes (fun _ => true) (fun _ b _ => ⟨200, str "got " ++ b⟩) false ⟨formHead ++ formBody, cuts, true⟩).bind
    fun r => .ok (r.map (·.status))

/-- The same request is answered when its content arrives at once, and also when it is cut in the middle of the part, but refused
when the first read of content finds only two bytes of the first boundary. -/
theorem form_cut :
    formAnswer [] = .ok (some 200) ∧ formAnswer (List.replicate formHead.length 1 ++ [8, 1, 3]) = .ok (some 200) ∧
      formAnswer (List.replicate formHead.length 1 ++ [2]) = .ok (some 400) := by decide +kernel

/-- **C109** does not hold for multipart content: what was read before the first boundary was complete is thrown away. -/
theorem C109_violated : ¬ C109_statement := by
  intro h
  have h1 := h.1 registrarRoutes (fun _ => true) (fun _ b _ => ⟨200, str "got " ++ b⟩) false
    ⟨formHead ++ formBody, [], true⟩ ⟨formHead ++ formBody, List.replicate formHead.length 1 ++ [2], true⟩ ⟨rfl, rfl⟩
  have h2 : formAnswer [] = formAnswer (List.replicate formHead.length 1 ++ [2]) := by
    unfold formAnswer
    rw [h1]
  rw [form_cut.1, form_cut.2.2] at h2
  cases h2

/-- Non-vacuity: a voucher request that arrives byte by byte, in two pieces, and at once. -/
example :
    let t := str "POST /.well-known/brski/requestvoucher HTTP/1.1\r\nContent-Type: application/voucher-cms+json\r\nContent-Length: 4\r\n\r\nTUlJ"
    (∀ hs, HasFields ⟨t, [], true⟩ hs → plain hs) ∧
      ∀ cuts ∈ [[], List.replicate 121 1, List.replicate 118 1 ++ [3]],
        (serve registrarRoutes (fun _ => true) (fun _ b _ => ⟨200, str "got " ++ b⟩) false ⟨t, cuts, true⟩).bind
          (fun r => .ok (r.map fun r => (r.status, r.body))) = .ok (some (200, str "got TUlJ")) := by
  refine ⟨?_, by decide +kernel⟩
  rintro hs ⟨l, r, ls, r', h1, h2, rfl⟩
  have e : (getline [] ⟨str "POST /.well-known/brski/requestvoucher HTTP/1.1\r\nContent-Type: application/voucher-cms+json\r\nContent-Length: 4\r\n\r\nTUlJ",
      [], true⟩).map (fun p => (readLines p.2).1) =
        some [str "Content-Type: application/voucher-cms+json", str "Content-Length: 4"] := by decide +kernel
  rw [h1] at e
  simp only [Option.map_some, Option.some.injEq] at e
  rw [h2] at e
  dsimp only at e
  subst e
  show Wire.startsWith _ _ = false
  decide +kernel

/-- **C110** does not hold for a reply that does not tell its length: a voucher of which the network delivered only a part, before an
error, is taken for the answer. -/
theorem reply_cut :
    readReply ⟨str "HTTP/1.1 200 OK\r\n\r\nTUl", [], false⟩ = .ok (some (200, str "TUl")) ∧
      readReply ⟨str "HTTP/1.1 200 OK\r\n\r\nTUlJ", [], true⟩ = .ok (some (200, str "TUlJ")) := by decide +kernel

/-- Nor for a request that does not tell its length: the handler gets the part. -/
theorem request_cut :
    (serve registrarRoutes (fun _ => true) (fun _ b _ => ⟨200, str "got " ++ b⟩) false
      ⟨str "POST /.well-known/brski/requestvoucher HTTP/1.1\r\n\r\nTUl", [], false⟩).bind
        (fun r => .ok (r.map fun r => (r.status, r.body))) = .ok (some (200, str "got TUl")) ∧
    (serve registrarRoutes (fun _ => true) (fun _ b _ => ⟨200, str "got " ++ b⟩) false
      ⟨str "POST /.well-known/brski/requestvoucher HTTP/1.1\r\n\r\nTUlJ", [], true⟩).bind
        (fun r => .ok (r.map fun r => (r.status, r.body))) = .ok (some (200, str "got TUlJ")) := by decide +kernel

theorem C110_violated : ¬ C110_statement := by
  intro h
  have := h.2 _ ⟨str "HTTP/1.1 200 OK\r\n\r\nTUlJ", [], true⟩ _ ⟨rfl, str "J", by decide +kernel⟩ reply_cut.1
  rw [reply_cut.2] at this
  cases this

/-- Non-vacuity of the theorems for C110: replies with a length and in chunks; all of it is there, though the connection failed
afterwards; or something is missing. -/
example :
    let t := str "HTTP/1.1 200 OK\r\nContent-Length: 4\r\n\r\nTUlJ"
    let c := str "HTTP/1.1 200 OK\r\nTransfer-Encoding: chunked\r\n\r\n4\r\nTUlJ\r\n0\r\n\r\n"
    CutOff ⟨t, [], false⟩ ⟨t ++ str "x", [7], true⟩ ∧
      readReply ⟨t, [], false⟩ = .ok (some (200, str "TUlJ")) ∧ readReply ⟨t.take 41, [], false⟩ = .ok none ∧
      readReply ⟨c, [], false⟩ = .ok (some (200, str "TUlJ")) ∧ readReply ⟨c.take 58, [], false⟩ = .ok none := by
  refine ⟨⟨rfl, str "x", rfl⟩, by decide +kernel⟩

/-- A voucher request with a length. -/
def sizedRequest : Bytes := str "POST /.well-known/brski/requestvoucher HTTP/1.1\r\nContent-Length: 4\r\n\r\nTUlJ"

/-- Non-vacuity for servers: complete, with an error afterwards, and without its last byte. -/
example :
    CutOff ⟨sizedRequest, [], false⟩ ⟨sizedRequest ++ str "x", [7], true⟩ ∧
    (∀ hs, HasFields ⟨sizedRequest, [], false⟩ hs → plain hs ∧ framed hs) ∧
    (serve registrarRoutes (fun _ => true) (fun _ b _ => ⟨200, str "got " ++ b⟩) false ⟨sizedRequest, [], false⟩).bind
      (fun r => .ok (r.map fun r => (r.status, r.body))) = .ok (some (200, str "got TUlJ")) ∧
    (serve registrarRoutes (fun _ => true) (fun _ b _ => ⟨200, str "got " ++ b⟩) false
      ⟨sizedRequest.take (sizedRequest.length - 1), [], false⟩).bind (fun r => .ok (r.map (·.status))) = .ok (some 400) := by
  refine ⟨⟨rfl, str "x", rfl⟩, ?_, by decide +kernel, by decide +kernel⟩
  rintro hs ⟨l, r, ls, r', h1, h2, rfl⟩
  have e : (getline [] ⟨sizedRequest, [], false⟩).map (fun p => (readLines p.2).1) = some [str "Content-Length: 4"] := by decide +kernel
  rw [h1] at e
  simp only [Option.map_some, Option.some.injEq] at e
  rw [h2] at e
  dsimp only at e
  subst e
  refine ⟨?_, .inr ?_⟩
  · show Wire.startsWith _ _ = false
    decide +kernel
  · decide +kernel

end Brski.Props
