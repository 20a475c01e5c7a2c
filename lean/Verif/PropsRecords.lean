import Verif.Records
import Verif.PropsConn

/-!
# C114: every request that has arrived is answered
-/

namespace Brski.Props
open Outcome Routes Wire Conn Ranges

/-- **C114** as stated: up to five complete requests, none of which asks to end the connection, are all answered when they have
arrived, however TLS has divided them into records. -/
def C114_statement : Prop :=
  ∀ (rs : List Route) (mp : Multipart) (E : Env) (ms : List Msg) (recs : List Bytes),
    (∀ m ∈ ms, m.Valid ∧ m.Simple ∧ ¬ m.Closing) → ms.length ≤ 5 → (∀ j, E.alive j = true ∧ E.sent j = true) →
    (∀ r ∈ recs, r ≠ []) → recs.flatten = ms.flatMap Msg.text →
    ∃ ds, Records.connection rs mp E recs = .ok ds ∧ ds.length = ms.length

/-! ## The connections of `Conn` -/

theorem loop_alive (rs : List Route) (mp : Multipart) {E E' : Env} : ∀ (n k : Nat) (s : Bytes), (∀ j, k ≤ j → E.alive j = E'.alive j) →
    E.sent = E'.sent → E.bd = E'.bd → E.stop = E'.stop → E.dyn = E'.dyn → loop rs mp E k n s = loop rs mp E' k n s
  | 0, _, _, _, _, _, _, _ => rfl
  | n + 1, k, s, h, h1, h2, h3, h4 => by
    unfold loop
    rw [h k (Nat.le_refl _), h1, h2, h3, h4]
    split
    · refine congrArg _ (funext fun d => ?_)
      cases d with
      | none => rfl
      | some d =>
        dsimp only
        rw [loop_alive rs mp n (k + 1) d.rest (fun j hj => h j (by omega)) h1 h2 h3 h4]
    · rfl

theorem records_loop (rs : List Route) (mp : Multipart) (E : Env) : ∀ (n k : Nat) (s : Bytes) (recs : List Bytes),
    ∃ f : Nat → Bool, Records.loop rs mp E k n s recs = loop rs mp { E with alive := f } k n s
  | 0, _, _, _ => ⟨E.alive, rfl⟩
  | n + 1, k, s, recs => by
    cases hc : E.alive k && !recs.isEmpty with
    | false => exact ⟨fun _ => false, by simp [Records.loop, loop, hc]⟩
    | true =>
      cases hn : serveNext rs mp (E.bd k) (E.stop k) (E.dyn k) (n == 0) s with
      | ub => exact ⟨fun _ => true, by simp [Records.loop, loop, hc, hn, Outcome.bind]⟩
      | ok d =>
        cases d with
        | none => exact ⟨fun _ => true, by simp [Records.loop, loop, hc, hn]⟩
        | some d =>
          by_cases hs : (!E.sent k || d.closed) = true
          · exact ⟨fun _ => true, by simp only [Records.loop, loop, hc, hn, bind'_ok, if_true, if_pos hs]⟩
          · obtain ⟨f, hf⟩ := records_loop rs mp E n (k + 1) d.rest (Records.inSocket recs d.rest.length)
            refine ⟨fun j => j == k || f j, ?_⟩
            simp only [Records.loop, loop, hc, hn, bind'_ok, if_true, if_neg hs, hf, beq_self_eq_true, Bool.true_or]
            refine congrArg (Outcome.bind · _) (loop_alive rs mp n (k + 1) d.rest (fun j hj => ?_) rfl rfl rfl rfl)
            have : (j == k) = false := by simp; omega
            simp [this]

/-- What happens on a TLS connection is what happens on a connection of `Conn` in some environment: C91 to C93 and the others hold
for it. -/
theorem records_connection (rs : List Route) (mp : Multipart) (E : Env) (recs : List Bytes) :
    ∃ f : Nat → Bool, Records.connection rs mp E recs = connection rs mp { E with alive := f } recs.flatten :=
  records_loop rs mp E 5 0 recs.flatten recs

/-! ## Which requests are answered -/

theorem inSocket_le : ∀ (recs : List Bytes) (n : Nat), (Records.inSocket recs n).flatten.length ≤ n
  | [], n => Nat.zero_le n
  | r :: rs, n => by
    unfold Records.inSocket
    split
    · assumption
    · exact inSocket_le rs n

theorem inSocket_last : ∀ (recs : List Bytes) (n : Nat) (r : Bytes),
    (Records.inSocket recs n).getLast? = some r ↔ recs.getLast? = some r ∧ r.length ≤ n
  | [], n, r => by simp [Records.inSocket]
  | q :: rs, n, r => by
    unfold Records.inSocket
    split
    · rename_i h
      constructor
      · intro hl
        refine ⟨hl, Nat.le_trans ?_ h⟩
        have hm := List.mem_of_getLast? hl
        exact (List.sublist_flatten_of_mem hm).length_le
      · exact And.left
    · rename_i h
      rw [inSocket_last rs n r]
      cases rs with
      | nil =>
        constructor
        · intro hl; simp at hl
        · rintro ⟨h1, h2⟩
          simp at h1
          subst h1
          simp at h
          omega
      | cons p rs => rw [List.getLast?_cons_cons]

theorem records_answered (rs : List Route) (mp : Multipart) (E : Env) (hE : ∀ j, E.alive j = true ∧ E.sent j = true) (n : Nat) :
    ∀ (k : Nat) (ms : List Msg) (recs : List Bytes), (∀ m ∈ ms, m.Valid ∧ m.Simple ∧ ¬ m.Closing) →
      recs.flatten.length ≤ (ms.flatMap Msg.text).length → ∃ ds, Records.loop rs mp E k n (ms.flatMap Msg.text) recs = .ok ds ∧
        ∀ i, i < n → i < ms.length → (i < ds.length ↔ ∃ r, recs.getLast? = some r ∧ r.length ≤ ((ms.drop i).flatMap Msg.text).length) := by
  induction n with
  | zero => exact fun k ms recs _ _ => ⟨[], rfl, fun i hi => absurd hi (by omega)⟩
  | succ n ih =>
    intro k ms recs hms hlen
    cases hr : recs with
    | nil => exact ⟨[], by simp [Records.loop], by simp⟩
    | cons q qs =>
      have hc : (E.alive k && !(q :: qs).isEmpty) = true := by simp [(hE k).1]
      cases ms with
      | nil => exact ⟨[], by simp [Records.loop, hc, serveNext, getLine, Outcome.bind], by simp⟩
      | cons m ms =>
        rw [← hr] at hc ⊢
        obtain ⟨hv, hs, hcl⟩ := hms m List.mem_cons_self
        obtain ⟨interim, reply, ran, closed, hnext, -, hclosed, -⟩ := next_simple rs mp (E.bd k) (E.stop k) (E.dyn k) (n == 0) hv hs
        have hstop : ¬ (!E.sent k || closed) = true := by
          have : closed = false := by
            cases closed with
            | false => rfl
            | true => exact absurd (hclosed.1 rfl) hcl
          simp [(hE k).2, this]
        obtain ⟨ds, hds, h1⟩ := ih (k + 1) ms (Records.inSocket recs (ms.flatMap Msg.text).length)
          (fun m' h' => hms m' (List.mem_cons_of_mem _ h')) (inSocket_le _ _)
        refine ⟨⟨interim, reply, ran, ms.flatMap Msg.text, closed⟩ :: ds, ?_, fun i hi him => ?_⟩
        · rw [List.flatMap_cons]
          simp only [Records.loop, hc, hnext, bind'_ok, if_true, if_neg hstop, hds]
        · cases i with
          | zero =>
            refine ⟨fun _ => ?_, fun _ => by simp⟩
            obtain ⟨r, hl⟩ : ∃ r, recs.getLast? = some r := ⟨recs.getLast (by rw [hr]; simp), List.getLast?_eq_some_getLast _⟩
            refine ⟨r, hl, Nat.le_trans ?_ hlen⟩
            exact (List.sublist_flatten_of_mem (List.mem_of_getLast? hl)).length_le
          | succ i =>
            have h2 := h1 i (by omega) (by simpa using him)
            rw [List.length_cons, Nat.add_lt_add_iff_right, h2, List.drop_succ_cons]
            constructor
            · rintro ⟨r, h3, h4⟩
              exact ⟨r, ((inSocket_last _ _ _).1 h3).1, h4⟩
            · rintro ⟨r, h3, h4⟩
              refine ⟨r, (inSocket_last _ _ _).2 ⟨h3, Nat.le_trans h4 ?_⟩, h4⟩
              have := congrArg (fun l : List Msg => (l.flatMap Msg.text).length) (List.take_append_drop i ms)
              simp only [List.flatMap_append, List.length_append] at this
              omega

/-- **C114**, exactly: a request is answered if and only if the last record does not begin before the request does; what begins
inside the last record is never answered, and the server ends the connection when its time for the next request is over. -/
theorem C114_exact (rs : List Route) (mp : Multipart) (E : Env) (ms : List Msg) (recs : List Bytes)
    (hms : ∀ m ∈ ms, m.Valid ∧ m.Simple ∧ ¬ m.Closing) (hE : ∀ j, E.alive j = true ∧ E.sent j = true)
    (hr : recs.flatten = ms.flatMap Msg.text) :
    ∃ ds, Records.connection rs mp E recs = .ok ds ∧
      (∀ (i : Nat) d, ds[i]? = some d → i < 5 ∧ ∃ m, ms[i]? = some m ∧ alone rs mp E i (i == 4) m = .ok (some d.reply) ∧
        ∀ e hs b, d.ran = some (e, hs, b) → b = m.content) ∧
      ∀ i, i < 5 → i < ms.length →
        (i < ds.length ↔ ((ms.take i).flatMap Msg.text).length ≤ recs.dropLast.flatten.length) := by
  obtain ⟨ds, hds, h1⟩ := records_answered rs mp E hE 5 0 ms recs hms (by rw [hr]; exact Nat.le_refl _)
  obtain ⟨f, hf⟩ := records_connection rs mp E recs
  have hc : Records.connection rs mp E recs = .ok ds := by rw [Records.connection, hr]; exact hds
  obtain ⟨ds', h2, h3, -⟩ := C91_partial rs mp { E with alive := f } ms fun m hm => ⟨(hms m hm).1, (hms m hm).2.1⟩
  rw [hr, hc, h2] at hf
  cases hf
  refine ⟨ds, hc, fun i d hd => ?_, fun i hi him => ?_⟩
  · obtain ⟨a, m, b, c, e, -⟩ := h3 i d hd
    exact ⟨a, m, b, c, e⟩
  · rw [h1 i hi him]
    have hsplit : ((ms.take i).flatMap Msg.text).length + ((ms.drop i).flatMap Msg.text).length = recs.flatten.length := by
      rw [hr, ← List.length_append, ← List.flatMap_append, List.take_append_drop]
    cases hl : recs.getLast? with
    | none =>
      have : recs = [] := by simpa using hl
      subst this
      exfalso
      have hm : ms[i] ∈ ms := List.getElem_mem him
      have h0 : (ms.flatMap Msg.text) = [] := by rw [← hr]; rfl
      have := List.flatMap_eq_nil_iff.1 h0 _ hm
      simp [Msg.text] at this
    | some r =>
      have hne : recs ≠ [] := by rintro rfl; simp at hl
      have hlast : recs.dropLast.flatten.length + r.length = recs.flatten.length := by
        have := congrArg (fun x : List Bytes => x.flatten.length) (List.dropLast_concat_getLast hne)
        have hg : recs.getLast hne = r := by rw [List.getLast?_eq_some_getLast hne] at hl; exact Option.some.inj hl
        rw [hg] at this
        simpa using this
      constructor
      · rintro ⟨r', h4, h5⟩
        cases h4
        omega
      · intro h4
        exact ⟨r, rfl, by omega⟩

/-- **C114**, the part that holds: if the last request begins a record, all are answered (as when every request is sent by itself,
in one or more records). -/
theorem C114_partial (rs : List Route) (mp : Multipart) (E : Env) (ms : List Msg) (recs : List Bytes)
    (hms : ∀ m ∈ ms, m.Valid ∧ m.Simple ∧ ¬ m.Closing) (h5 : ms.length ≤ 5) (hE : ∀ j, E.alive j = true ∧ E.sent j = true)
    (hr : recs.flatten = ms.flatMap Msg.text)
    (hl : ∀ m, ms.getLast? = some m → ∃ pre post, recs = pre ++ post ∧ post.flatten = m.text) :
    ∃ ds, Records.connection rs mp E recs = .ok ds ∧ ds.length = ms.length := by
  obtain ⟨ds, hds, h1, h2⟩ := C114_exact rs mp E ms recs hms hE hr
  refine ⟨ds, hds, Nat.le_antisymm ?_ ?_⟩
  · cases hd : ds.length with
    | zero => exact Nat.zero_le _
    | succ k =>
      obtain ⟨-, m, hm, -⟩ := h1 k ds[k] (List.getElem?_eq_getElem (by omega))
      have := (List.getElem?_eq_some_iff.1 hm).1
      omega
  · cases hd : ms.length with
    | zero => exact Nat.zero_le _
    | succ k =>
      rw [Nat.succ_le_iff, h2 k (by omega) (by omega)]
      have hne : ms ≠ [] := by rintro rfl; simp at hd
      obtain ⟨pre, post, hpp, hpost⟩ := hl (ms.getLast hne) (List.getLast?_eq_some_getLast hne)
      have hpn : post ≠ [] := by
        rintro rfl
        simp [Msg.text] at hpost
      have ht : (ms.take k).flatMap Msg.text = pre.flatten := by
        have hd' : ms.take k = ms.dropLast := by rw [List.dropLast_eq_take, hd]; rfl
        have h3 : (ms.take k).flatMap Msg.text ++ (ms.getLast hne).text = pre.flatten ++ (ms.getLast hne).text := by
          rw [← hpost, ← List.flatten_append, ← hpp, hr, hpost, hd']
          conv => rhs; rw [← List.dropLast_concat_getLast hne]
          simp
        exact List.append_cancel_right h3
      rw [ht, hpp, List.dropLast_append_of_ne_nil hpn, List.flatten_append, List.length_append]
      omega

/-- The code violates C114: of two requests in one record only the first is answered. -/
theorem C114_violated : ¬ C114_statement := by
  intro h
  have hm : ∀ m ∈ [posted, posted], m.Valid ∧ m.Simple ∧ ¬ m.Closing := by
    intro m hm
    have : m = posted := by simpa using hm
    subst this
    exact ⟨posted_valid, posted_simple, by unfold Msg.Closing; decide +kernel⟩
  have hE : ∀ j, echoEnv.alive j = true ∧ echoEnv.sent j = true := fun _ => ⟨rfl, rfl⟩
  obtain ⟨ds, h1, h2⟩ := h registrarRoutes noParts echoEnv [posted, posted] [posted.text ++ posted.text] hm (by decide) hE
    (by simp [Msg.text]) (by simp)
  obtain ⟨ds', h3, -, h4⟩ := C114_exact registrarRoutes noParts echoEnv [posted, posted] [posted.text ++ posted.text] hm hE (by simp)
  rw [h1] at h3
  cases h3
  have := (h4 1 (by omega) (by decide)).1 (by rw [h2]; decide)
  simp [Msg.text] at this

/-- Concrete cases: two requests in one record (one answer), in two records (two answers), with the second cut (one answer: its last
piece lies behind its beginning, but so does its first: two answers), and a third in the record of the second. -/
example : (seen (Records.connection registrarRoutes noParts echoEnv [posted.text ++ posted.text])).length = 1 ∧
    (seen (Records.connection registrarRoutes noParts echoEnv [posted.text, posted.text])).length = 2 ∧
    (seen (Records.connection registrarRoutes noParts echoEnv [posted.text ++ posted.text.take 9, posted.text.drop 9])).length = 2 ∧
    (seen (Records.connection registrarRoutes noParts echoEnv [posted.text, posted.text ++ posted.text])).length = 2 := by
  decide +kernel

/-- The hypotheses of `C114_partial` can be met. -/
example : [posted.text, posted.text.take 9, posted.text.drop 9].flatten = [posted, posted].flatMap Msg.text ∧
    ∀ m, [posted, posted].getLast? = some m →
      ∃ pre post, [posted.text, posted.text.take 9, posted.text.drop 9] = pre ++ post ∧ post.flatten = m.text := by
  refine ⟨by simp, fun m hm => ?_⟩
  cases hm
  exact ⟨[posted.text], [posted.text.take 9, posted.text.drop 9], rfl, by simp⟩

end Brski.Props
