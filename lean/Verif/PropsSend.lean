import Verif.Send
import Verif.PropsWire
import Verif.PropsConn

/-!
# C126 and C127: replies that are sent with difficulties
-/

namespace Brski.Props

open Outcome Routes Wire Conn Send

/-! ## Specification -/

/-- What a client has received is the beginning of the replies, in the order of the requests, each whole before the next one begins;
interim replies may be missing. -/
def InOrder : List Done → Bytes → Prop
  | [], out => out = []
  | d :: ds, out => ∃ i, (i = [] ∨ (d.interim = true ∧ i = str "HTTP/1.1 100 Continue\r\n\r\n")) ∧
      (out <+: i ++ replyText d.reply ∨ ∃ o, out = i ++ replyText d.reply ++ o ∧ InOrder ds o)

/-- **C126** as stated: whatever happens while replies are sent, the client receives the beginning of the replies, in order. -/
def C126_statement : Prop :=
  ∀ rs mp E ts inp ds out, Send.connection rs mp E ts inp = ok (ds, out) → InOrder ds out

/-- **C127** as stated: whatever happens while the reply to a request is sent, the client gets this reply or an error. -/
def C127_statement : Prop :=
  ∀ (rs : List Route) (mp : Multipart) (dyn : List Field → Bytes → Endpoint → Reply) (close : Bool) (ts : List Try)
    (host path ctype body : Bytes) (e : Endpoint) (rep : Reply), Postable host path ctype body →
    routing rs ⟨.post, path⟩ = some (some e) → rep = e.stub.getD (dyn (clientFields host ctype body) body e) →
    100 < rep.status ∧ rep.status < 1000 ∧ rep.status ≠ 204 →
    (∀ e, (dyn (clientFields host ctype body) body e).body.length < 2 ^ 64) →
    Send.exchange rs mp dyn close ts host path ctype body = ok none ∨
    Send.exchange rs mp dyn close ts host path ctype body =
      ok (some (rep.status, if 400 ≤ rep.status ∧ rep.body = [] then str "Router error" else rep.body))

/-- A socket that was not writable in time is never writable again. -/
def Lasting : List Try → Prop
  | [] => True
  | t :: ts => (t.writable = false → ∀ u ∈ ts, u.writable = false) ∧ Lasting ts

/-! ## What gets through -/

/-- What a call of `write` for these data leaves: everything is sent, or a part; the session is usable only if it was everything or nothing. -/
structure Outgoing (d : Bytes) (ts : List Try) (r : Bool × Bytes × Send.Side) : Prop where
  whole : r.1 = true → r.2.1 = d ∧ r.2.2.dead = false
  part : r.1 = false → r.2.1 <+: d ∧ (r.2.2.dead = false → r.2.1 = [])
  lasting : Lasting ts → Lasting r.2.2.tries
  over : Lasting ts → r.1 = false → r.2.2.dead = false → ∀ u ∈ r.2.2.tries, u.writable = false

theorem attempts_cases (d : Bytes) : ∀ (n : Nat) (begun : Bool) (p : Nat) (ts : List Try), (begun = false → p = 0) →
    Outgoing d ts (attempts d n begun p ts) := by
  intro n
  induction n with
  | zero =>
    intro begun p ts _
    rw [attempts]
    exact ⟨fun h => (nomatch h), fun _ => ⟨List.take_prefix _ _, fun h => (nomatch h)⟩, id, fun _ _ h => (nomatch h)⟩
  | succ n ih =>
    intro begun p ts hp
    cases ts with
    | nil =>
      rw [attempts]
      exact ⟨fun h => (nomatch h), fun _ => ⟨List.take_prefix _ _, fun h => (nomatch h)⟩, id, fun _ _ h => (nomatch h)⟩
    | cons t ts =>
      rw [attempts]
      by_cases hw : t.writable = true
      · rw [if_pos hw]
        cases hr : t.result with
        | done => exact ⟨fun _ => ⟨rfl, rfl⟩, fun h => (nomatch h), fun h => h.2, fun _ h => (nomatch h)⟩
        | want m =>
          obtain ⟨h1, h2, h3, h4⟩ := ih true (p + m) ts (fun h => (nomatch h))
          exact ⟨h1, h2, fun h => h3 h.2, fun h => h4 h.2⟩
        | fail m =>
          exact ⟨fun h => (nomatch h), fun _ => ⟨List.take_prefix _ _, fun h => (nomatch h)⟩, fun h => h.2, fun _ _ h => (nomatch h)⟩
      · rw [if_neg hw]
        refine ⟨fun h => (nomatch h), fun _ => ⟨List.take_prefix _ _, fun h => ?_⟩, fun h => h.2, fun h _ _ => h.1 (by simpa using hw)⟩
        show d.take p = []
        rw [hp h, List.take_zero]

/-- Nothing will be sent any more. -/
def Over (s : Send.Side) : Prop := s.dead = true ∨ ∀ u ∈ s.tries, u.writable = false

theorem attempts_over (d : Bytes) (ts : List Try) (h : ∀ u ∈ ts, u.writable = false) :
    (attempts d 1001 false 0 ts).1 = false ∧ (attempts d 1001 false 0 ts).2.1 = [] ∧
      Over (attempts d 1001 false 0 ts).2.2 := by
  cases ts with
  | nil => exact ⟨rfl, by simp [attempts], .inl rfl⟩
  | cons t ts =>
    have ht : t.writable = false := h t (by simp)
    simp only [attempts, ht, Bool.false_eq_true, if_false, List.take_zero]
    exact ⟨trivial, trivial, .inr fun u hu => h u (List.mem_cons_of_mem _ hu)⟩

theorem write_over {s : Send.Side} (h : Over s) (d : Bytes) : (s.write d).1 = false ∧ (s.write d).2.1 = [] ∧ Over (s.write d).2.2 := by
  unfold Send.Side.write
  by_cases hd : s.dead = true
  · rw [if_pos hd]; exact ⟨rfl, rfl, .inl hd⟩
  · rw [if_neg hd]
    exact attempts_over _ _ (h.resolve_left hd)

theorem write_cases (s : Send.Side) (d : Bytes) :
    ((s.write d).1 = true → (s.write d).2.1 = d.take intMax ∧ (s.write d).2.2.dead = false) ∧
    ((s.write d).1 = false → (s.write d).2.1 <+: d ∧ ((s.write d).2.2.dead = false → (s.write d).2.1 = [])) ∧
    (Lasting s.tries → Lasting (s.write d).2.2.tries) ∧
    (Lasting s.tries → (s.write d).1 = false → Over (s.write d).2.2) := by
  unfold Send.Side.write
  by_cases hd : s.dead = true
  · rw [if_pos hd]
    exact ⟨fun h => (nomatch h), fun _ => ⟨List.nil_prefix, fun _ => rfl⟩, id, fun _ _ => .inl hd⟩
  · rw [if_neg hd]
    obtain ⟨h1, h2, h3, h4⟩ := attempts_cases (d.take intMax) 1001 false 0 s.tries (fun _ => rfl)
    refine ⟨h1, fun h => ⟨(h2 h).1.trans (List.take_prefix _ _), (h2 h).2⟩, h3, fun hl h => ?_⟩
    by_cases hx : (attempts (d.take intMax) 1001 false 0 s.tries).2.2.dead = true
    · exact .inl hx
    · exact .inr (h4 hl h (by simpa using hx))

theorem writeData_over {s : Send.Side} (h : Over s) (d : Bytes) : (writeData s d).2.1 = [] ∧ Over (writeData s d).2.2 ∧
    (d ≠ [] → (writeData s d).1 = false) := by
  cases d with
  | nil => unfold writeData; exact ⟨rfl, h, fun h => absurd rfl h⟩
  | cons c d =>
    obtain ⟨h1, h2, h3⟩ := write_over h (c :: d)
    have hw : writeData s (c :: d) = s.write (c :: d) := by
      rw [writeData]
      simp only [h1, Bool.false_eq_true, if_false]
    rw [hw]
    exact ⟨h2, h3, fun _ => h1⟩

/-- Everything is sent, or a part, and then nothing any more; only if nothing was sent of a piece the session is still usable. -/
theorem writeData_cases : ∀ (n : Nat) (d : Bytes), d.length ≤ n → ∀ s : Send.Side,
    ((writeData s d).1 = true → (writeData s d).2.1 = d) ∧
    ((writeData s d).1 = false → (writeData s d).2.1 <+: d ∧
      (d.length ≤ intMax → (writeData s d).2.2.dead = false → (writeData s d).2.1 = [])) ∧
    (Lasting s.tries → Lasting (writeData s d).2.2.tries) ∧
    (Lasting s.tries → (writeData s d).1 = false → Over (writeData s d).2.2) := by
  intro n
  induction n with
  | zero =>
    intro d hd s
    have : d = [] := List.eq_nil_of_length_eq_zero (by omega)
    subst this
    unfold writeData
    exact ⟨fun _ => rfl, fun h => (by cases h), id, fun _ h => by cases h⟩
  | succ n ih =>
    intro d hd s
    cases d with
    | nil => unfold writeData; exact ⟨fun _ => rfl, fun h => (by cases h), id, fun _ h => by cases h⟩
    | cons c d =>
      obtain ⟨h1, h2, h3, h4⟩ := write_cases s (c :: d)
      unfold writeData
      by_cases hw : (s.write (c :: d)).1 = true
      · simp only [hw, if_true]
        obtain ⟨g1, g2, g3, g4⟩ := ih ((c :: d).drop intMax) (by simp [intMax] at hd ⊢; omega) (s.write (c :: d)).2.2
        rw [(h1 hw).1]
        refine ⟨fun h => ?_, fun h => ⟨?_, fun hl _ => ?_⟩, fun h => g3 (h3 h), fun h => g4 (h3 h)⟩
        · rw [g1 h]; exact List.take_append_drop _ _
        · conv => rhs; rw [← List.take_append_drop intMax (c :: d)]
          exact (List.prefix_append_right_inj _).2 (g2 h).1
        · rw [List.drop_eq_nil_of_le hl] at h
          unfold writeData at h
          cases h
      · simp only [hw]
        have hf : (s.write (c :: d)).1 = false := by simpa using hw
        exact ⟨fun h => absurd h hw, fun _ => ⟨(h2 hf).1, fun _ => (h2 hf).2⟩, h3, fun hl _ => h4 hl hf⟩

theorem replyText_head (r : Res) : replyText r = headText r ++ r.body := rfl

theorem sendReply_true {s : Send.Side} {r : Res} (hl : Lasting s.tries) :
    Lasting (sendReply s r).2.2.tries ∧
    (((sendReply s r).2.1 = replyText r) ∨ ((sendReply s r).2.1 <+: replyText r ∧ Over (sendReply s r).2.2)) := by
  obtain ⟨h1, h2, h3, h4⟩ := writeData_cases _ (headText r) (Nat.le_refl _) s
  obtain ⟨b1, b2, b3, b4⟩ := writeData_cases _ r.body (Nat.le_refl _) (writeData s (headText r)).2.2
  unfold sendReply
  simp only
  rw [replyText_head]
  split
  · rename_i hb
    rw [hb, List.append_nil]
    refine ⟨h3 hl, ?_⟩
    cases hw : (writeData s (headText r)).1 with
    | true => exact .inl (h1 hw)
    | false => exact .inr ⟨(h2 hw).1, h4 hl hw⟩
  · refine ⟨b3 (h3 hl), ?_⟩
    simp only
    cases hw : (writeData s (headText r)).1 with
    | true =>
      rw [h1 hw]
      cases hv : (writeData (writeData s (headText r)).2.2 r.body).1 with
      | true => rw [b1 hv]; exact .inl rfl
      | false => exact .inr ⟨(List.prefix_append_right_inj _).2 (b2 hv).1, b4 (h3 hl) hv⟩
    | false =>
      obtain ⟨o1, o2, -⟩ := writeData_over (h4 hl hw) r.body
      rw [o1, List.append_nil]
      exact .inr ⟨(h2 hw).1.trans (List.prefix_append _ _), o2⟩

theorem sendReply_over {s : Send.Side} (h : Over s) (r : Res) : (sendReply s r).2.1 = [] ∧ Over (sendReply s r).2.2 := by
  obtain ⟨h1, h2, -⟩ := writeData_over h (headText r)
  obtain ⟨g1, g2, -⟩ := writeData_over h2 r.body
  unfold sendReply
  simp only
  split
  · exact ⟨h1, h2⟩
  · simp only [h1, g1]
    exact ⟨rfl, g2⟩

theorem sendInterim_over {s : Send.Side} (h : Over s) (d : Done) : (sendInterim s d).1 = [] ∧ Over (sendInterim s d).2 := by
  unfold sendInterim
  split
  · exact (write_over h _).2
  · exact ⟨rfl, h⟩

theorem sendInterim_cases (s : Send.Side) (d : Done) (hl : Lasting s.tries) : Lasting (sendInterim s d).2.tries ∧
    (((sendInterim s d).1 = [] ∨ (d.interim = true ∧ (sendInterim s d).1 = interimText)) ∨
      (d.interim = true ∧ (sendInterim s d).1 <+: interimText ∧ Over (sendInterim s d).2)) := by
  unfold sendInterim
  split
  · rename_i hi
    obtain ⟨h1, h2, h3, h4⟩ := write_cases s interimText
    refine ⟨h3 hl, ?_⟩
    cases hw : (s.write interimText).1 with
    | true => exact .inl (.inr ⟨hi, (h1 hw).1.trans (List.take_of_length_le (by decide))⟩)
    | false => exact .inr ⟨hi, (h2 hw).1, h4 hl hw⟩
  · exact ⟨hl, .inl (.inl rfl)⟩

theorem loop_over (rs : List Route) (mp : Multipart) (E : Conn.Env) : ∀ n k s inp ds out, Over s →
    Send.loop rs mp E k n s inp = ok (ds, out) → out = [] := by
  intro n
  induction n with
  | zero => intro k s inp ds out _ h; simp only [Send.loop] at h; cases h; rfl
  | succ n ih =>
    intro k s inp ds out hs h
    simp only [Send.loop] at h
    split at h
    · cases hn : serveNext rs mp (E.bd k) (E.stop k) (E.dyn k) (n == 0) inp with
      | ub => rw [hn] at h; cases h
      | ok d =>
        rw [hn, bind'_ok] at h
        cases d with
        | none => cases h; rfl
        | some d =>
          simp only at h
          obtain ⟨i1, i2⟩ := sendInterim_over hs d
          obtain ⟨r1, r2⟩ := sendReply_over i2 d.reply
          split at h
          · cases h; rw [i1, r1]; rfl
          · cases hq : Send.loop rs mp E (k + 1) n (sendReply (sendInterim s d).2 d.reply).2.2 d.rest with
            | ub => rw [hq] at h; cases h
            | ok q =>
              rw [hq, bind'_ok] at h
              cases h
              rw [i1, r1, ih _ _ _ _ _ r2 hq]
              rfl
    · cases h; rfl

theorem loop_inOrder (rs : List Route) (mp : Multipart) (E : Conn.Env) : ∀ n k s inp ds out, Lasting s.tries →
    Send.loop rs mp E k n s inp = ok (ds, out) → InOrder ds out := by
  intro n
  induction n with
  | zero => intro k s inp ds out _ h; simp only [Send.loop] at h; cases h; rfl
  | succ n ih =>
    intro k s inp ds out hs h
    simp only [Send.loop] at h
    split at h
    · cases hn : serveNext rs mp (E.bd k) (E.stop k) (E.dyn k) (n == 0) inp with
      | ub => rw [hn] at h; cases h
      | ok d =>
        rw [hn, bind'_ok] at h
        cases d with
        | none => cases h; rfl
        | some d =>
          simp only at h
          obtain ⟨i1, i2⟩ := sendInterim_cases s d hs
          obtain ⟨r1, r2⟩ := sendReply_true (s := (sendInterim s d).2) (r := d.reply) i1
          generalize hi : sendInterim s d = i at *
          generalize hr : sendReply i.2 d.reply = r at *
          -- what follows the reply
          have key : ∀ o, (Over i.2 → o = []) → (Over r.2.2 → o = []) → (o = [] ∨ ∃ ds', ds = d :: ds' ∧ InOrder ds' o) →
              ds ≠ [] → ds.head? = some d → InOrder ds (i.1 ++ r.2.1 ++ o) := by
            intro o ho1 ho2 ho3 hne hhd
            obtain ⟨d', ds', rfl⟩ := List.exists_cons_of_ne_nil hne
            cases hhd
            rcases i2 with i2 | ⟨hin, hpre, hov⟩
            · refine ⟨i.1, i2, ?_⟩
              rcases r2 with r2 | ⟨r2, hov⟩
              · rw [r2]
                rcases ho3 with rfl | ⟨_, h1, h2⟩
                · exact .inl (by rw [List.append_nil]; exact List.prefix_refl _)
                · cases h1; exact .inr ⟨o, rfl, h2⟩
              · rw [ho2 hov, List.append_nil]
                exact .inl ((List.prefix_append_right_inj _).2 r2)
            · have : r.2.1 = [] := by rw [← hr]; exact (sendReply_over hov _).1
              rw [ho1 hov, this, List.append_nil, List.append_nil]
              exact ⟨_, .inr ⟨hin, rfl⟩, .inl (hpre.trans (List.prefix_append _ _))⟩
          split at h
          · cases h
            have := key [] (fun _ => rfl) (fun _ => rfl) (.inl rfl) (by simp) rfl
            rwa [List.append_nil] at this
          · cases hq : Send.loop rs mp E (k + 1) n r.2.2 d.rest with
            | ub => rw [hq] at h; cases h
            | ok q =>
              rw [hq, bind'_ok] at h
              cases h
              refine key q.2 (fun ho => ?_) (fun ho => loop_over _ _ _ _ _ _ _ _ _ ho hq) (.inr ⟨_, rfl, ih _ _ _ _ _ r1 hq⟩) (by simp) rfl
              refine loop_over _ _ _ _ _ _ _ _ _ ?_ hq
              rw [← hr]
              exact (sendReply_over ho _).2
    · cases h; rfl

/-- **C126**, partial: when a socket that was not writable in time is never writable again, the client receives the beginning of the replies,
in order.  Missing: a client that is late and then reads on (`C126_violated`). -/
theorem C126_partial (rs : List Route) (mp : Multipart) (E : Conn.Env) (ts : List Try) (hl : Lasting ts) (inp : Bytes) (ds : List Done)
    (out : Bytes) (h : Send.connection rs mp E ts inp = ok (ds, out)) : InOrder ds out :=
  loop_inOrder rs mp E 5 0 ⟨ts, false⟩ inp ds out hl h

/-! ## C126: what can be missing -/

/-- As `InOrder`, but heads of replies may be missing as well. -/
def Beheaded : List Done → Bytes → Prop
  | [], out => out = []
  | d :: ds, out => ∃ i, (i = [] ∨ (d.interim = true ∧ i = str "HTTP/1.1 100 Continue\r\n\r\n")) ∧
      ∃ h, (h = headText d.reply ∨ h = []) ∧
        (out <+: i ++ (h ++ d.reply.body) ∨ ∃ o, out = i ++ (h ++ d.reply.body) ++ o ∧ Beheaded ds o)

/-- What is sent of a reply, whatever happens. -/
theorem sendReply_any (s : Send.Side) (r : Res) (hn : (headText r).length ≤ intMax) : ∃ h, (h = headText r ∨ h = []) ∧
    (sendReply s r).2.1 <+: h ++ r.body ∧
    ((sendReply s r).2.1 = h ++ r.body ∨ (sendReply s r).1 = false ∨ Over (sendReply s r).2.2) := by
  obtain ⟨h1, h2, -⟩ := writeData_cases _ (headText r) (Nat.le_refl _) s
  obtain ⟨b1, b2, -⟩ := writeData_cases _ r.body (Nat.le_refl _) (writeData s (headText r)).2.2
  unfold sendReply
  simp only
  split
  · rename_i hb
    rw [hb]
    simp only [List.append_nil]
    cases hw : (writeData s (headText r)).1 with
    | true => exact ⟨_, .inl rfl, by rw [h1 hw]; exact List.prefix_refl _, .inl (h1 hw)⟩
    | false =>
      by_cases hd : (writeData s (headText r)).2.2.dead = true
      · exact ⟨_, .inl rfl, (h2 hw).1, .inr (.inr (.inl hd))⟩
      · rw [(h2 hw).2 hn (by simpa using hd)]
        exact ⟨[], .inr rfl, List.prefix_refl _, .inl rfl⟩
  · simp only
    cases hw : (writeData s (headText r)).1 with
    | true =>
      rw [h1 hw]
      refine ⟨_, .inl rfl, ?_⟩
      cases hv : (writeData (writeData s (headText r)).2.2 r.body).1 with
      | true => rw [b1 hv]; exact ⟨List.prefix_refl _, .inl rfl⟩
      | false => exact ⟨(List.prefix_append_right_inj _).2 (b2 hv).1, .inr (.inl rfl)⟩
    | false =>
      by_cases hd : (writeData s (headText r)).2.2.dead = true
      · obtain ⟨o1, o2, -⟩ := writeData_over (s := (writeData s (headText r)).2.2) (.inl hd) r.body
        rw [o1, List.append_nil]
        exact ⟨_, .inl rfl, (h2 hw).1.trans (List.prefix_append _ _), .inr (.inr o2)⟩
      · rw [(h2 hw).2 hn (by simpa using hd), List.nil_append]
        refine ⟨[], .inr rfl, ?_⟩
        rw [List.nil_append]
        cases hv : (writeData (writeData s (headText r)).2.2 r.body).1 with
        | true => rw [b1 hv]; exact ⟨List.prefix_refl _, .inl rfl⟩
        | false => exact ⟨(b2 hv).1, .inr (.inl rfl)⟩

theorem sendInterim_any (s : Send.Side) (d : Done) :
    ((sendInterim s d).1 = [] ∨ (d.interim = true ∧ (sendInterim s d).1 = interimText)) ∨
      (d.interim = true ∧ (sendInterim s d).1 <+: interimText ∧ Over (sendInterim s d).2) := by
  unfold sendInterim
  split
  · rename_i hi
    obtain ⟨h1, h2, -⟩ := write_cases s interimText
    cases hw : (s.write interimText).1 with
    | true => exact .inl (.inr ⟨hi, (h1 hw).1.trans (List.take_of_length_le (by decide))⟩)
    | false =>
      by_cases hd : (s.write interimText).2.2.dead = true
      · exact .inr ⟨hi, (h2 hw).1, .inl hd⟩
      · exact .inl (.inl ((h2 hw).2 (by simpa using hd)))
  · exact .inl (.inl rfl)

theorem loop_beheaded (rs : List Route) (mp : Multipart) (E : Conn.Env) : ∀ n k s inp ds out,
    Send.loop rs mp E k n s inp = ok (ds, out) → (∀ d ∈ ds, (headText d.reply).length ≤ intMax) → Beheaded ds out := by
  intro n
  induction n with
  | zero => intro k s inp ds out h _; simp only [Send.loop] at h; cases h; rfl
  | succ n ih =>
    intro k s inp ds out h hsz
    simp only [Send.loop] at h
    split at h
    · cases hn : serveNext rs mp (E.bd k) (E.stop k) (E.dyn k) (n == 0) inp with
      | ub => rw [hn] at h; cases h
      | ok d =>
        rw [hn, bind'_ok] at h
        cases d with
        | none => cases h; rfl
        | some d =>
          simp only at h
          have i2 := sendInterim_any s d
          have r2 := sendReply_any (sendInterim s d).2 d.reply
          generalize hi : sendInterim s d = i at *
          generalize hr : sendReply i.2 d.reply = r at *
          -- what follows the reply
          have key : ∀ ds' o, (headText d.reply).length ≤ intMax → (Over i.2 → o = []) → (Over r.2.2 → o = []) → (r.1 = false → o = []) →
              (o = [] ∨ Beheaded ds' o) → Beheaded (d :: ds') (i.1 ++ r.2.1 ++ o) := by
            intro ds' o hz ho1 ho2 ho3 ho4
            rcases i2 with i2 | ⟨hin, hpre, hov⟩
            · obtain ⟨h, hh, hp, hx⟩ := r2 hz
              refine ⟨i.1, i2, h, hh, ?_⟩
              have nil : o = [] → i.1 ++ r.2.1 ++ o <+: i.1 ++ (h ++ d.reply.body) := by
                rintro rfl
                rw [List.append_nil]
                exact (List.prefix_append_right_inj _).2 hp
              rcases hx with hx | hx | hx
              · rcases ho4 with ho4 | ho4
                · exact .inl (nil ho4)
                · exact .inr ⟨o, by rw [hx], ho4⟩
              · exact .inl (nil (ho3 hx))
              · exact .inl (nil (ho2 hx))
            · have : r.2.1 = [] := by rw [← hr]; exact (sendReply_over hov _).1
              rw [ho1 hov, this, List.append_nil, List.append_nil]
              exact ⟨_, .inr ⟨hin, rfl⟩, _, .inl rfl, .inl (hpre.trans (List.prefix_append _ _))⟩
          split at h
          · cases h
            have := key [] [] (hsz d (by simp)) (fun _ => rfl) (fun _ => rfl) (fun _ => rfl) (.inl rfl)
            rwa [List.append_nil] at this
          · rename_i hgo
            cases hq : Send.loop rs mp E (k + 1) n r.2.2 d.rest with
            | ub => rw [hq] at h; cases h
            | ok q =>
              rw [hq, bind'_ok] at h
              cases h
              refine key _ q.2 (hsz d (by simp)) (fun ho => ?_) (fun ho => loop_over _ _ _ _ _ _ _ _ _ ho hq) (fun hf => ?_)
                (.inr (ih _ _ _ _ _ hq fun d hd => hsz d (List.mem_cons_of_mem _ hd)))
              · refine loop_over _ _ _ _ _ _ _ _ _ ?_ hq
                rw [← hr]
                exact (sendReply_over ho _).2
              · rw [hf] at hgo
                simp at hgo
    · cases h; rfl

/-- **C126**, partial, what holds whatever happens: nothing is missing but the end, interim replies and whole heads of replies. -/
theorem C126_partial_heads (rs : List Route) (mp : Multipart) (E : Conn.Env) (ts : List Try) (inp : Bytes) (ds : List Done)
    (out : Bytes) (h : Send.connection rs mp E ts inp = ok (ds, out)) (hn : ∀ d ∈ ds, (headText d.reply).length < 2 ^ 31) :
    Beheaded ds out :=
  loop_beheaded rs mp E 5 0 ⟨ts, false⟩ inp ds out h fun d hd => by have := hn d hd; simp only [intMax]; omega

/-- The requests on a connection are handled as `Conn.connection` has it, for some outcome of sending. -/
theorem C126_requests (rs : List Route) (mp : Multipart) (E : Conn.Env) (ts : List Try) (inp : Bytes) :
    ∃ sent, Conn.connection rs mp { E with sent := sent } inp = (Send.connection rs mp E ts inp).bind fun q => ok q.1 := by
  suffices h : ∀ n k s inp, ∃ sent : Nat → Bool, Conn.loop rs mp { E with sent := sent } k n inp =
      (Send.loop rs mp E k n s inp).bind fun q => ok q.1 from h 5 0 ⟨ts, false⟩ inp
  have agree : ∀ (f g : Nat → Bool) n k inp, (∀ j, k ≤ j → f j = g j) →
      Conn.loop rs mp { E with sent := f } k n inp = Conn.loop rs mp { E with sent := g } k n inp := by
    intro f g n
    induction n with
    | zero => intro k inp _; rfl
    | succ n ih =>
      intro k inp h
      simp only [Conn.loop, h k (Nat.le_refl _)]
      split
      · congr 1
        funext d
        cases d with
        | none => rfl
        | some d =>
          simp only
          rw [ih (k + 1) d.rest fun j hj => h j (by omega)]
      · rfl
  intro n
  induction n with
  | zero => intro k s inp; exact ⟨fun _ => true, rfl⟩
  | succ n ih =>
    intro k s inp
    simp only [Conn.loop, Send.loop]
    by_cases ha : E.alive k = true
    · simp only [ha, if_true]
      cases hn : serveNext rs mp (E.bd k) (E.stop k) (E.dyn k) (n == 0) inp with
      | ub => exact ⟨fun _ => true, rfl⟩
      | ok d =>
        simp only [bind'_ok]
        cases d with
        | none => exact ⟨fun _ => true, rfl⟩
        | some d =>
          simp only
          generalize sendReply (sendInterim s d).2 d.reply = r
          obtain ⟨f, hf⟩ := ih (k + 1) r.2.2 d.rest
          refine ⟨fun j => if j = k then r.1 else f j, ?_⟩
          simp only [if_true]
          rw [agree _ f n (k + 1) d.rest fun j hj => if_neg (by omega), hf]
          split
          · rfl
          · cases Send.loop rs mp E (k + 1) n r.2.2 d.rest <;> rfl
    · simp only [ha]
      exact ⟨fun _ => true, rfl⟩

/-! ## C126: the witness -/

theorem inOrder_head {ds : List Done} {out : Bytes} (h : InOrder ds out) : out = [] ∨ out.head? = some 72 := by
  have pre : ∀ {a b : Bytes}, a <+: b → b.head? = some 72 → a = [] ∨ a.head? = some 72 := by
    rintro a b ⟨t, rfl⟩ hb
    cases a with
    | nil => exact .inl rfl
    | cons c a => exact .inr hb
  cases ds with
  | nil => exact .inl h
  | cons d ds =>
    obtain ⟨i, hi, ho⟩ := h
    have hh : (i ++ replyText d.reply).head? = some 72 := by
      rcases hi with rfl | ⟨_, rfl⟩
      · rfl
      · rfl
    rcases ho with ho | ⟨o, rfl, _⟩
    · exact pre ho hh
    · refine .inr ?_
      rw [List.head?_append, hh]
      rfl

/-- A request for a function the registrar does not have, as a client of the pledge's kind sends it. -/
def asked : Bytes := str "POST /.well-known/brski/voucher_status HTTP/1.1\r\nConnection: close\r\nContent-Length: 0\r\n\r\n"

/-- What is received. -/
def received : Outcome (List Done × Bytes) → Option Bytes
  | .ok q => some q.2
  | .ub => none

/-- The code violates C126: when the socket is not writable in time for the head but is so for the body, the client receives the body
alone. -/
theorem C126_violated : ¬ C126_statement := by
  intro h
  have e : received (Send.connection registrarRoutes noParts echoEnv [⟨false, .done⟩, ⟨true, .done⟩] asked) =
      some (str "registrar_voucher_status") := by decide +kernel
  cases hc : Send.connection registrarRoutes noParts echoEnv [⟨false, .done⟩, ⟨true, .done⟩] asked with
  | ub => rw [hc] at e; cases e
  | ok q =>
    rw [hc] at e
    have e : q.2 = str "registrar_voucher_status" := Option.some.inj e
    have := inOrder_head (h _ _ _ _ _ _ _ hc)
    rw [e] at this
    rcases this with h | h <;> exact absurd h (by decide)

/-- Two requests one after another, the first one of them HEAD. -/
def askedTwice : Bytes := str "HEAD / HTTP/1.1\r\n\r\n" ++ asked

/-- A second violation: the reply to a HEAD request, which has no body, is lost without the connection being given up, and the client
receives the reply to the second request as the reply to the first one. -/
theorem C126_violated_exchanged : ∃ d1 d2, Send.connection registrarRoutes noParts echoEnv [⟨false, .done⟩, ⟨true, .done⟩, ⟨true, .done⟩] askedTwice =
    ok ([d1, d2], replyText d2.reply) ∧ d1.reply.status = 404 ∧ d2.reply.status = 200 := by
  cases hc : Send.connection registrarRoutes noParts echoEnv [⟨false, .done⟩, ⟨true, .done⟩, ⟨true, .done⟩] askedTwice with
  | ub =>
    have : received (Send.connection registrarRoutes noParts echoEnv [⟨false, .done⟩, ⟨true, .done⟩, ⟨true, .done⟩] askedTwice) ≠ none := by
      decide +kernel
    rw [hc] at this
    exact absurd rfl this
  | ok q =>
    have : (match Send.connection registrarRoutes noParts echoEnv [⟨false, .done⟩, ⟨true, .done⟩, ⟨true, .done⟩] askedTwice with
      | .ok ([d1, d2], o) => decide (o = replyText d2.reply) && d1.reply.status == 404 && d2.reply.status == 200
      | _ => false) = true := by decide +kernel
    rw [hc] at this
    split at this
    · rename_i d1 d2 o hq
      cases hq
      simp only [Bool.and_eq_true, decide_eq_true_eq, beq_iff_eq] at this
      exact ⟨d1, d2, by rw [this.1.1], this.1.2, this.2⟩
    · cases this

/-- Non-vacuity of the positive theorems: the session fails while the body is written. -/
example : Lasting [⟨true, .want 5⟩, ⟨true, .done⟩, ⟨true, .fail 3⟩, ⟨false, .done⟩] ∧
    (received (Send.connection registrarRoutes noParts echoEnv [⟨true, .want 5⟩, ⟨true, .done⟩, ⟨true, .fail 3⟩, ⟨false, .done⟩] asked)).map
      (fun o => o.drop (o.length - 7)) = some (str "\r\n\r\nreg") := by
  refine ⟨⟨by simp, by simp, by simp, by simp, trivial⟩, by decide +kernel⟩

/-! ## C127 -/

theorem setHeader_count (r : Res) (k v : Bytes) : (setHeader r k v).headers.length ≤ r.headers.length + 1 := by
  unfold setHeader
  split
  · simp only [emplace, List.length_append, List.length_cons]
    have := congrArg List.length (List.takeWhile_append_dropWhile (p := fun g : Field => !ciLt k g.1) (l := r.headers))
    simp only [List.length_append] at this
    omega
  · omega

theorem ite_count {c : Prop} [Decidable c] {r r' : Res} {n : Nat} (hr : r.headers.length ≤ n)
    (h : r'.headers.length ≤ r.headers.length + 1) : (if c then r' else r).headers.length ≤ n + 1 := by
  split <;> omega

theorem writeResponse_count (close : Bool) (m : Method) (ranges : Bool) (r : Res) :
    (writeResponse close m ranges r).headers.length ≤ r.headers.length + 6 := by
  unfold writeResponse
  simp only
  refine ite_count (ite_count (ite_count (Nat.le_trans (setHeader_count _ _ _) (Nat.succ_le_succ (ite_count (ite_count (Nat.le_refl _) ?_) (setHeader_count _ _ _))))
    (setHeader_count _ _ _)) (setHeader_count _ _ _)) (setHeader_count _ _ _)
  unfold errorHandler
  refine Nat.le_trans (setHeader_count _ _ _) ?_
  split <;> simp

theorem process_count (rs : List Route) (dyn : Endpoint → Reply) (close : Bool) (line : Bytes) :
    (process rs dyn close line).headers.length ≤ 7 := by
  unfold process
  split
  · exact Nat.le_trans (writeResponse_count _ _ _ _) (by simp)
  · split
    · exact Nat.le_trans (writeResponse_count _ _ _ _) (by simp)
    · split
      · exact Nat.le_trans (writeResponse_count _ _ _ _) (by simp)
      · exact Nat.le_trans (writeResponse_count _ _ _ _) (by simp)
      · simp only [setResponse_spec]
        exact Nat.le_trans (writeResponse_count _ _ _ _) (by simp)

theorem small_statuses : ∀ n < 1000, (BoolTime.natDec n).length + (reason n).length ≤ 100 := by decide +kernel

theorem fields_size : ∀ {hs : List Field}, (∀ f ∈ hs, Sendable f) → (hs.flatMap fieldText).length ≤ 8192 * hs.length := by
  intro hs
  induction hs with
  | nil => intro _; simp
  | cons f hs ih =>
    intro h
    have h1 := ih fun g hg => h g (List.mem_cons_of_mem _ hg)
    have h2 : (fieldText f).length ≤ 8192 := by
      rw [fieldText_line (h f List.mem_cons_self)]
      have := (h f List.mem_cons_self).2.2.2.2.2
      simp [lineOf]
      omega
    rw [List.flatMap_cons, List.length_append, List.length_cons]
    omega

theorem head_size {w : Res} (h : Deliverable w) (hc : w.headers.length ≤ 7) : (headText w).length ≤ intMax := by
  have h1 := small_statuses w.status h.status.2.1
  have h2 := fields_size fun f hf => (h.fields f hf).2
  simp only [headText, fieldsText, List.length_append, List.length_cons, List.length_nil, intMax,
    show (str "HTTP/1.1 ").length = 9 from rfl]
  omega

theorem takeLine_prefix (s : Bytes) : takeLine s <+: s := by
  induction s with
  | nil => exact List.prefix_refl _
  | cons c s ih =>
    rw [takeLine]
    split
    · exact ⟨s, rfl⟩
    · exact List.cons_prefix_cons.2 ⟨rfl, ih⟩

/-- What does not begin like a reply is no reply to a client. -/
theorem no_reply {p b : Bytes} (hp : p <+: b) (h0 : ¬ str "HTTP/1.0 " <+: b) (h1 : ¬ str "HTTP/1.1 " <+: b) : readReply p = ok none := by
  have hs : readStatus p = none := by
    unfold readStatus
    split
    · rfl
    · rename_i l r hl
      unfold getLine at hl
      split at hl
      · cases hl
      · cases hl
        have hpre : BoolTime.cstr (takeLine p) <+: b :=
          ((List.takeWhile_prefix _).trans (takeLine_prefix p)).trans hp
        have hno : ∀ t, ¬ t <+: b → t.length = 9 → (BoolTime.cstr (takeLine p)).take 9 ≠ t := by
          rintro t ht h9 rfl
          exact ht ((List.take_prefix _ _).trans hpre)
        have : statusOf (takeLine p) = none := by
          unfold statusOf
          simp only
          rw [if_neg]
          rintro (h | h)
          · exact hno _ h0 rfl h
          · exact hno _ h1 rfl h
        rw [this]
  unfold readReply
  rw [hs]

/-- **C127**, partial: whatever happens while the reply to a request is sent, the client gets this reply or an error, if the body of the reply
does not itself begin like a reply.  Missing: bodies that do (`C127_violated`). -/
theorem C127_partial (rs : List Route) (mp : Multipart) (dyn : List Field → Bytes → Endpoint → Reply) (close : Bool) (ts : List Try)
    (host path ctype body : Bytes) (h : Postable host path ctype body) (e : Endpoint)
    (he : routing rs ⟨.post, path⟩ = some (some e)) (rep : Reply)
    (hrep : rep = e.stub.getD (dyn (clientFields host ctype body) body e))
    (hst : 100 < rep.status ∧ rep.status < 1000 ∧ rep.status ≠ 204)
    (hb : ∀ e, (dyn (clientFields host ctype body) body e).body.length < 2 ^ 64)
    (h0 : ¬ str "HTTP/1.0 " <+: rep.body) (h1 : ¬ str "HTTP/1.1 " <+: rep.body) :
    Send.exchange rs mp dyn close ts host path ctype body = ok none ∨
    Send.exchange rs mp dyn close ts host path ctype body =
      ok (some (rep.status, if 400 ≤ rep.status ∧ rep.body = [] then str "Router error" else rep.body)) := by
  obtain ⟨line, g1, g2, g3⟩ := C76_request rs mp dyn close host path ctype body [] h
  have hx := C76_exchange rs mp dyn close host path ctype body h e he rep hrep hst hb
  rw [List.append_nil] at g3
  unfold Brski.Props.exchange at hx
  unfold Send.exchange
  rw [g3] at hx ⊢
  simp only [bind'_ok] at hx ⊢
  have hh : ¬ IsHead line := fun hh => by
    have := (firstWord_method g2).1 hh.2
    cases this
  have hho : handlerOf rs line = some e := by
    unfold handlerOf
    rw [if_neg (by omega), g2]
    simp only [Option.bind_some, he, id]
  have hall : ∀ e, ((Endpoint.stub e).getD (dyn (clientFields host ctype body) body e)).body.length < 2 ^ 64 := by
    intro e
    cases hs : e.stub with
    | none => exact hb e
    | some r =>
      have : r.body.length < 2 ^ 64 := by cases e <;> cases hs <;> decide
      exact this
  generalize hw : process rs (dyn (clientFields host ctype body) body) true line = w at *
  have hcount : w.headers.length ≤ 7 := by rw [← hw]; exact process_count _ _ _ _
  have hs2 : w.status = rep.status ∧ w.body = if 400 ≤ rep.status ∧ rep.body = [] then str "Router error" else rep.body := by
    rcases C62_partial_answer rs (dyn (clientFields host ctype body) body) true line with ⟨k1, -⟩ | ⟨e', rep', k1, k2, k3, k4, -⟩
    · rw [hho] at k1; cases k1
    · rw [hho] at k1
      cases k1
      have hr : rep' = rep := k2.trans hrep.symm
      subst hr
      rw [hw] at k3 k4
      exact ⟨k3, by rw [k4, unlessHead]; exact if_neg hh⟩
  have hd : Deliverable w := by
    rw [← hw]
    exact process_deliverable rs _ true line hall hh (by rw [hw, hs2.1]; exact hst)
  obtain ⟨hd', hor, hpre, -⟩ := sendReply_any ⟨ts, false⟩ w (head_size hd hcount)
  rcases hor with rfl | rfl
  · rw [← replyText_head] at hpre
    by_cases hne : (sendReply ⟨ts, false⟩ w).2.1 = replyText w
    · rw [hne]; exact .inr hx
    · exact .inl (cut_deliverable hd hpre hne)
  · rw [List.nil_append] at hpre
    refine .inl (no_reply hpre ?_ ?_)
    · rw [hs2.2]
      split
      · decide
      · exact h0
    · rw [hs2.2]
      split
      · decide
      · exact h1

/-- A reply in the body of a reply. -/
def nested : Bytes := str "HTTP/1.1 404 Not Found\r\nContent-Length: 2\r\n\r\nno"

/-- The registrar relays the body the MASA sends, and this one sends a reply in it. -/
def relays : List Field → Bytes → Endpoint → Reply := fun _ _ _ => ⟨200, nested⟩

/-- The code violates C127: the client takes the body of the reply for the reply. -/
theorem C127_violated : ¬ C127_statement := by
  intro h
  have e : Send.exchange registrarRoutes noParts relays true [⟨false, .done⟩, ⟨true, .done⟩] (str "registrar.example:12345")
      (str "/.well-known/brski/requestvoucher") (str "application/voucher-cms+json") (str "MII=") = ok (some (404, str "no")) := by decide +kernel
  have := h registrarRoutes noParts relays true [⟨false, .done⟩, ⟨true, .done⟩] (str "registrar.example:12345")
    (str "/.well-known/brski/requestvoucher") (str "application/voucher-cms+json") (str "MII=") .registrarRequestVoucher ⟨200, nested⟩
    demoPost (by decide +kernel) rfl (by decide) (fun _ => show nested.length < 2 ^ 64 by decide)
  rw [e] at this
  rcases this with h | h
  · cases h
  · exact absurd h (by decide)

/-- Non-vacuity of `C127_partial`: a voucher gets through after a repetition; without its head it is an error. -/
example : ¬ str "HTTP/1.0 " <+: str "MIIvoucher" ∧ ¬ str "HTTP/1.1 " <+: str "MIIvoucher" ∧
    Send.exchange registrarRoutes noParts (fun _ _ _ => ⟨200, str "MIIvoucher"⟩) true [⟨true, .want 20⟩, ⟨true, .done⟩, ⟨true, .done⟩]
      (str "registrar.example:12345") (str "/.well-known/brski/requestvoucher") (str "application/voucher-cms+json") (str "MII=") =
        ok (some (200, str "MIIvoucher")) ∧
    Send.exchange registrarRoutes noParts (fun _ _ _ => ⟨200, str "MIIvoucher"⟩) true [⟨false, .done⟩, ⟨true, .done⟩]
      (str "registrar.example:12345") (str "/.well-known/brski/requestvoucher") (str "application/voucher-cms+json") (str "MII=") = ok none := by
  decide +kernel

end Brski.Props
