import Verif.Reading
import Verif.Cut

/-!
# C137, C138: what a read gives and how long it takes
-/

namespace Brski.Props
open Brski.Reading

/-! ## Specification -/

/-- What a connection brings, from the sequence of its events: bytes, and moments at which a read is given up (`none`), where `k` events
without data have come in a row.  A read is given up when five seconds pass without anything, and at the 1001st event without data. -/
def arrivals : Nat → List Net → List (Option UInt8)
  | _, [] => []
  | _, .silence _ :: r => none :: arrivals 0 r
  | _, .record c b _ _ :: r => (c :: b).map some ++ arrivals 0 r
  | k, .other _ _ :: r => if k = 1000 then none :: arrivals 0 r else arrivals (k + 1) r
  | _, .goodbye _ _ :: _ => []
  | _, .broken _ _ :: _ => []

/-- The connection ends as TLS wants it, with an announcement. -/
def announced : List Net → Bool
  | [] => false
  | .goodbye _ _ :: _ => true
  | .broken _ _ :: _ => false
  | .silence _ :: r | .record _ _ _ _ :: r | .other _ _ :: r => announced r

/-- What a session brings. -/
def brings (s : Sess) : List (Option UInt8) := s.held.map some ++ arrivals 0 s.net

/-- A read of at most `n` bytes where `f` is to come, and `g` afterwards: it gives the next bytes, at least one; reports the end exactly
after an announced one; fails when it has to be given up, or behind an end that was not announced. -/
def Delivers (f : List (Option UInt8)) (orderly : Bool) (n : Nat) : Got → List (Option UInt8) → Prop
  | .data b, g => b ≠ [] ∧ b.length ≤ n ∧ f = b.map some ++ g
  | .eof, g => f = [] ∧ g = [] ∧ orderly = true
  | .err, g => f = none :: g ∨ (f = [] ∧ g = [] ∧ orderly = false)

/-- **C137** as stated. -/
def C137_statement : Prop :=
  ∀ (s : Sess) (n : Nat), 0 < n →
    Delivers (brings s) (announced s.net) n (Reading.read n s).1 (brings (Reading.read n s).2.2) ∧ announced (Reading.read n s).2.2.net = announced s.net

/-- Each wait ends after five seconds at the latest, and each `SSL_read` after `l`. -/
def Prompt (l : Nat) (s : Sess) : Prop :=
  ∀ e ∈ s.net, match e with
    | .silence w => w ≤ 5000
    | .record _ _ w ms | .other w ms | .goodbye w ms | .broken w ms => w ≤ 5000 ∧ ms ≤ l

/-- **C138** as stated: there is a time within which a line of a request is read, or given up, when no wait is longer than five seconds
and TLS takes no time. -/
def C138_statement : Prop := ∃ T, ∀ s : Sess, Prompt 0 s → (Reading.getline [] s).2.1 ≤ T

/-! ## C137 -/

theorem drop_cons_split (c : UInt8) (b : Bytes) (n : Nat) (h : 0 < n) :
    (c :: b).take n ≠ [] ∧ ((c :: b).take n).length ≤ n ∧
      (c :: b).map some = ((c :: b).take n).map some ++ ((c :: b).drop n).map some := by
  refine ⟨?_, List.length_take_le _ _, ?_⟩
  · cases n with
    | zero => omega
    | succ n => simp
  · rw [← List.map_append, List.take_append_drop]

theorem held_delivers {s : Sess} {n : Nat} (hn : 0 < n) (h : s.held ≠ []) (l : List (Option UInt8)) (o : Bool) :
    Delivers (s.held.map some ++ l) o n (gotOf (sslRead n s).1) ((sslRead n s).2.2.held.map some ++ l) ∧
      (sslRead n s).2.2.net = s.net := by
  unfold sslRead
  rw [if_pos h]
  obtain ⟨c, b, hb⟩ : ∃ c b, s.held = c :: b := by
    cases hh : s.held with
    | nil => exact absurd hh h
    | cons c b => exact ⟨c, b, rfl⟩
  have := drop_cons_split c b n hn
  refine ⟨⟨?_, ?_, ?_⟩, rfl⟩
  · rw [hb]; exact this.1
  · rw [hb]; exact this.2.1
  · simp only
    rw [hb, ← List.append_assoc, ← this.2.2]

/-- What is to come when `k` more tries are made. -/
def upcoming (k : Nat) (net : List Net) : List (Option UInt8) := if k = 0 then none :: arrivals 0 net else arrivals (1001 - k) net

theorem retry_delivers {n : Nat} (hn : 0 < n) : ∀ (k : Nat) (net : List Net), k ≤ 1000 →
    Delivers (upcoming k net) (announced net) n (retry n k ⟨[], net⟩).1 (brings (retry n k ⟨[], net⟩).2.2) ∧
      announced (retry n k ⟨[], net⟩).2.2.net = announced net := by
  intro k
  induction k with
  | zero =>
    intro net _
    exact ⟨.inl (by simp [upcoming, retry, brings]), rfl⟩
  | succ k ih =>
    intro net hk
    have hu : ∀ net, upcoming (k + 1) net = arrivals (1000 - k) net := by
      intro net
      unfold upcoming
      rw [if_neg (by omega), show 1001 - (k + 1) = 1000 - k by omega]
    rw [hu]
    unfold retry
    rw [if_neg (by simp)]
    cases net with
    | nil => exact ⟨.inr ⟨by simp [arrivals], by simp [isReadable, brings, arrivals], rfl⟩, rfl⟩
    | cons e r =>
      cases e with
      | silence w => exact ⟨.inl (by simp [arrivals, isReadable, brings]), by simp [isReadable, announced]⟩
      | record c b w ms =>
        have := drop_cons_split c b n hn
        simp only [isReadable, sslRead, ne_eq, not_true_eq_false, if_false, if_true, gotOf, reduceCtorEq]
        refine ⟨⟨this.1, this.2.1, ?_⟩, by simp [announced]⟩
        simp only [arrivals, brings]
        rw [← List.append_assoc, ← this.2.2]
      | other w ms =>
        simp only [isReadable, sslRead, ne_eq, not_true_eq_false, if_false, if_true]
        have h := ih r (by omega)
        simp only [announced]
        refine ⟨?_, h.2⟩
        have e : arrivals (1000 - k) (.other w ms :: r) = upcoming k r := by
          simp only [arrivals, upcoming]
          by_cases h0 : k = 0
          · rw [if_pos (by omega), if_pos h0]
          · rw [if_neg (by omega), if_neg h0, show 1000 - k + 1 = 1001 - k by omega]
        rw [e]
        exact h.1
      | goodbye w ms =>
        simp only [isReadable, sslRead, ne_eq, not_true_eq_false, if_false, if_true, gotOf, reduceCtorEq]
        exact ⟨⟨by simp [arrivals], by simp [brings, arrivals], rfl⟩, rfl⟩
      | broken w ms =>
        simp only [isReadable, sslRead, ne_eq, not_true_eq_false, if_false, if_true, gotOf, reduceCtorEq]
        exact ⟨.inr ⟨by simp [arrivals], by simp [brings, arrivals], rfl⟩, rfl⟩

/-- **C137**: every read gives the next bytes of the connection, reports its end, or fails, as the specification says; so nothing is lost,
repeated or exchanged, whatever the records and the sizes of the reads. -/
theorem C137 : C137_statement := by
  intro s n hn
  by_cases hh : s.held = []
  · obtain ⟨held, net⟩ := s
    simp only at hh
    subst hh
    unfold Reading.read
    rw [if_neg (by simp)]
    simp only [brings, List.map_nil, List.nil_append]
    cases net with
    | nil => exact ⟨.inr ⟨by simp [arrivals], by simp [isReadable, arrivals], rfl⟩, rfl⟩
    | cons e r =>
      cases e with
      | silence w => exact ⟨.inl (by simp [arrivals, isReadable]), by simp [isReadable, announced]⟩
      | record c b w ms =>
        have := drop_cons_split c b n hn
        simp only [isReadable, sslRead, ne_eq, not_true_eq_false, if_false, if_true, gotOf, reduceCtorEq]
        refine ⟨⟨this.1, this.2.1, ?_⟩, by simp [announced]⟩
        simp only [arrivals]
        rw [← List.append_assoc, ← this.2.2]
      | other w ms =>
        simp only [isReadable, sslRead, ne_eq, not_true_eq_false, if_false, if_true]
        have h := retry_delivers hn 1000 r (Nat.le_refl _)
        simp only [announced]
        refine ⟨?_, h.2⟩
        have e : arrivals 0 (.other w ms :: r) = upcoming 1000 r := by
          simp only [arrivals, upcoming]
          rw [if_neg (by decide), if_neg (by decide)]
        rw [e]
        exact h.1
      | goodbye w ms =>
        simp only [isReadable, sslRead, ne_eq, not_true_eq_false, if_false, if_true, gotOf, reduceCtorEq]
        exact ⟨⟨by simp [arrivals], by simp [arrivals], rfl⟩, rfl⟩
      | broken w ms =>
        simp only [isReadable, sslRead, ne_eq, not_true_eq_false, if_false, if_true, gotOf, reduceCtorEq]
        exact ⟨.inr ⟨by simp [arrivals], by simp [arrivals], rfl⟩, rfl⟩
  · have h := held_delivers hn hh (arrivals 0 s.net) (announced s.net)
    unfold Reading.read
    rw [if_pos hh]
    refine ⟨?_, by simp only [h.2]⟩
    simp only [brings, h.2]
    exact h.1

/-! ## C137: the streams of `Cut` -/

/-- A program that reads: it asks for at most `n + 1` bytes and goes on with what it gets. -/
inductive Program (α : Type) where
  | done (a : α)
  | ask (n : Nat) (k : Got → Program α)

/-- It does not read on after an error. -/
def Program.Stops {α : Type} : Program α → Prop
  | .done _ => True
  | .ask _ k => (∃ a, k .err = .done a) ∧ ∀ g, (k g).Stops

/-- The program on a session, with the session afterwards. -/
def Program.run {α : Type} : Program α → Sess → α × Sess
  | .done a, s => (a, s)
  | .ask n k, s => (k (Reading.read (n + 1) s).1).run (Reading.read (n + 1) s).2.2

/-- The program on a connection as `Cut` has it, with what is left. -/
def Program.onStrm {α : Type} : Program α → Cut.Strm → α × Cut.Strm
  | .done a, s => (a, s)
  | .ask n k, s =>
    match s.read (n + 1) with
    | .data b t => (k (.data b)).onStrm t
    | .eof => (k .eof).onStrm s
    | .err => (k .err).onStrm s

theorem strm_data (b r : Bytes) (cuts : List Nat) (o : Bool) (n : Nat) (hb : b ≠ []) (hn : b.length ≤ n + 1) :
    Cut.Strm.read ⟨b ++ r, b.length :: cuts, o⟩ (n + 1) = .data b ⟨r, cuts, o⟩ := by
  have h1 : 0 < b.length := List.length_pos_iff.2 hb
  have h2 : min (n + 1) (max 1 b.length) = b.length := by
    rw [Nat.max_eq_right h1, Nat.min_eq_right hn]
  unfold Cut.Strm.read
  rw [if_neg (by simp [hb])]
  simp only [List.headD_cons, h2, List.take_left, List.drop_left, List.tail_cons]

/-- **C137**: a connection on which nothing is given up is one of `Cut`, whatever program reads from it. -/
theorem C137_pieces {α : Type} (p : Program α) (s : Sess) (bytes : Bytes) (h : brings s = bytes.map some) :
    ∃ cuts rest, (p.run s).1 = (p.onStrm ⟨bytes, cuts, announced s.net⟩).1 ∧
      (p.onStrm ⟨bytes, cuts, announced s.net⟩).2 = rest ∧ brings (p.run s).2 = rest.bytes.map some := by
  induction p generalizing s bytes with
  | done a => exact ⟨[], _, rfl, rfl, h⟩
  | ask n k ih =>
    obtain ⟨hd, ho⟩ := C137 s (n + 1) (by omega)
    simp only [Program.run, Program.onStrm]
    cases hg : (Reading.read (n + 1) s).1 with
    | data b =>
      rw [hg] at hd
      obtain ⟨h1, h2, h3⟩ := hd
      rw [h] at h3
      obtain ⟨b', r, hbr, hb', hr⟩ := List.map_eq_append_iff.1 h3
      have : b' = b := by
        have := congrArg (List.filterMap id) hb'
        simpa using this
      subst this
      obtain ⟨cuts, rest, i1, i2, i3⟩ := ih (.data b') (Reading.read (n + 1) s).2.2 r hr.symm
      refine ⟨b'.length :: cuts, rest, ?_⟩
      rw [hbr, strm_data b' r cuts _ n h1 h2]
      rw [ho] at i1 i2
      exact ⟨i1, i2, i3⟩
    | eof =>
      rw [hg] at hd
      obtain ⟨h1, h2, h3⟩ := hd
      have hb : bytes = [] := by rw [h] at h1; simpa using h1
      subst hb
      obtain ⟨cuts, rest, i1, i2, i3⟩ := ih .eof (Reading.read (n + 1) s).2.2 [] h2
      refine ⟨cuts, rest, ?_⟩
      rw [ho] at i1 i2
      simp only [Cut.Strm.read, if_true, h3]
      rw [h3] at i1 i2
      exact ⟨i1, i2, i3⟩
    | err =>
      rw [hg] at hd
      rcases hd with h1 | ⟨h1, h2, h3⟩
      · rw [h] at h1
        cases bytes <;> simp at h1
      · have hb : bytes = [] := by rw [h] at h1; simpa using h1
        subst hb
        obtain ⟨cuts, rest, i1, i2, i3⟩ := ih .err (Reading.read (n + 1) s).2.2 [] h2
        refine ⟨cuts, rest, ?_⟩
        rw [ho] at i1 i2
        simp only [Cut.Strm.read, if_true, h3, Bool.false_eq_true, if_false]
        rw [h3] at i1 i2
        exact ⟨i1, i2, i3⟩

/-- **C137**: up to the moment where a read is given up, a connection is one of `Cut` that ends with an error; what comes later is then
still to come. -/
theorem C137_paused {α : Type} (p : Program α) (hp : p.Stops) (s : Sess) (bytes : Bytes) (later : List (Option UInt8))
    (h : brings s = bytes.map some ++ none :: later) :
    ∃ cuts rest, (p.run s).1 = (p.onStrm ⟨bytes, cuts, false⟩).1 ∧ (p.onStrm ⟨bytes, cuts, false⟩).2 = rest ∧
      (brings (p.run s).2 = rest.bytes.map some ++ none :: later ∨ (rest.bytes = [] ∧ brings (p.run s).2 = later)) := by
  induction p generalizing s bytes with
  | done a => exact ⟨[], _, rfl, rfl, .inl h⟩
  | ask n k ih =>
    obtain ⟨hd, ho⟩ := C137 s (n + 1) (by omega)
    simp only [Program.run, Program.onStrm]
    cases hg : (Reading.read (n + 1) s).1 with
    | data b =>
      rw [hg] at hd
      obtain ⟨h1, h2, h3⟩ := hd
      rw [h] at h3
      have key : ∃ r, bytes = b ++ r ∧ brings (Reading.read (n + 1) s).2.2 = r.map some ++ none :: later := by
        clear h h1 h2 hg ih
        induction b generalizing bytes with
        | nil => exact ⟨bytes, rfl, by simpa using h3.symm⟩
        | cons c b ihb =>
          cases bytes with
          | nil => simp at h3
          | cons d bytes =>
            simp only [List.map_cons, List.cons_append, List.cons.injEq, Option.some.injEq] at h3
            obtain ⟨r, e1, e2⟩ := ihb bytes h3.2
            exact ⟨r, by rw [e1, h3.1]; rfl, e2⟩
      obtain ⟨r, rfl, hr⟩ := key
      obtain ⟨cuts, rest, i1, i2, i3⟩ := ih (.data b) (hp.2 _) (Reading.read (n + 1) s).2.2 r hr
      refine ⟨b.length :: cuts, rest, ?_⟩
      rw [strm_data b r cuts _ n h1 h2]
      exact ⟨i1, i2, i3⟩
    | eof =>
      rw [hg] at hd
      rw [h] at hd
      exact absurd hd.1 (by simp)
    | err =>
      rw [hg] at hd
      obtain ⟨a, ha⟩ := hp.1
      rcases hd with h1 | ⟨h1, h2, h3⟩
      · rw [h] at h1
        cases bytes with
        | cons c b => simp at h1
        | nil =>
          simp only [List.map_nil, List.nil_append, List.cons.injEq, true_and] at h1
          refine ⟨[], ⟨[], [], false⟩, ?_⟩
          simp only [Cut.Strm.read, if_true, Bool.false_eq_true, if_false, ha, Program.run, Program.onStrm]
          exact ⟨trivial, trivial, .inr ⟨trivial, h1.symm⟩⟩
      · rw [h] at h1
        exact absurd h1 (by simp)

/-! ## C138 -/

/-- The longest time for a read, when `SSL_read` takes at most `l`: 1001 tries, with a pause of a millisecond before each but the first. -/
def longest (l : Nat) : Nat := 5000 + l + 1000 * (5001 + l)

theorem prompt_tail {l : Nat} {h h' : Bytes} {e : Net} {r : List Net} (hp : Prompt l ⟨h, e :: r⟩) : Prompt l ⟨h', r⟩ :=
  fun x hx => hp x (List.mem_cons_of_mem _ hx)

theorem prompt_read {l n : Nat} {s : Sess} (hp : Prompt l s) : Prompt l (sslRead n s).2.2 := by
  unfold sslRead
  split
  · exact hp
  · obtain ⟨held, net⟩ := s
    cases net with
    | nil => exact hp
    | cons e r =>
      cases e with
      | silence => exact prompt_tail hp
      | record => exact prompt_tail hp
      | other => exact prompt_tail hp
      | goodbye => intro x hx; simp only [List.mem_singleton] at hx; subst hx; exact ⟨by decide, by omega⟩
      | broken => intro x hx; simp only [List.mem_singleton] at hx; subst hx; exact ⟨by decide, by omega⟩

theorem prompt_wait {l : Nat} {s : Sess} (hp : Prompt l s) :
    Prompt l (isReadable s).2.2 ∧ (isReadable s).2.1 ≤ 5000 ∧
      ((isReadable s).1 = true → (isReadable s).2.2 = s ∧ ∀ n, s.held = [] → (sslRead n s).2.1 ≤ l) := by
  obtain ⟨held, net⟩ := s
  cases net with
  | nil => exact ⟨hp, Nat.le_refl _, fun h => nomatch h⟩
  | cons e r =>
    have h0 := hp e (by simp)
    cases e with
    | silence w => exact ⟨prompt_tail hp, h0, fun h => nomatch h⟩
    | record c b w ms => exact ⟨hp, h0.1, fun _ => ⟨rfl, fun n hh => by simp only at hh; subst hh; simpa [sslRead] using h0.2⟩⟩
    | other w ms => exact ⟨hp, h0.1, fun _ => ⟨rfl, fun n hh => by simp only at hh; subst hh; simpa [sslRead] using h0.2⟩⟩
    | goodbye w ms => exact ⟨hp, h0.1, fun _ => ⟨rfl, fun n hh => by simp only at hh; subst hh; simpa [sslRead] using h0.2⟩⟩
    | broken w ms => exact ⟨hp, h0.1, fun _ => ⟨rfl, fun n hh => by simp only at hh; subst hh; simpa [sslRead] using h0.2⟩⟩

theorem held_time {n : Nat} {s : Sess} (h : s.held ≠ []) : (sslRead n s).2.1 = 0 := by
  unfold sslRead
  rw [if_pos h]

theorem retry_time {l n : Nat} : ∀ (k : Nat) (s : Sess), Prompt l s →
    (retry n k s).2.1 ≤ k * (5001 + l) ∧ Prompt l (retry n k s).2.2 := by
  intro k
  induction k with
  | zero => intro s hp; exact ⟨by simp [retry], hp⟩
  | succ k ih =>
    intro s hp
    have hmul : (k + 1) * (5001 + l) = k * (5001 + l) + (5001 + l) := Nat.succ_mul _ _
    obtain ⟨h1, h2, h3⟩ := prompt_wait hp
    unfold retry
    split
    · rename_i hh
      exact ⟨by simp only [held_time hh]; omega, prompt_read hp⟩
    · rename_i hh
      simp only
      split
      · rename_i hw
        obtain ⟨e, ht⟩ := h3 hw
        have ht := ht n (Classical.not_not.1 hh)
        rw [e]
        split
        · have := ih (sslRead n s).2.2 (prompt_read hp)
          exact ⟨by dsimp only; omega, this.2⟩
        · exact ⟨by dsimp only; omega, prompt_read hp⟩
      · exact ⟨by dsimp only; omega, h1⟩

theorem read_time {l n : Nat} {s : Sess} (hp : Prompt l s) : (Reading.read n s).2.1 ≤ longest l ∧ Prompt l (Reading.read n s).2.2 := by
  obtain ⟨h1, h2, h3⟩ := prompt_wait hp
  unfold Reading.read longest
  split
  · rename_i hh
    exact ⟨by simp only [held_time hh]; omega, prompt_read hp⟩
  · rename_i hh
    simp only
    split
    · rename_i hw
      obtain ⟨e, ht⟩ := h3 hw
      have ht := ht n (Classical.not_not.1 hh)
      rw [e]
      split
      · have := retry_time (n := n) 1000 (sslRead n s).2.2 (prompt_read hp)
        exact ⟨by dsimp only; omega, this.2⟩
      · exact ⟨by dsimp only; omega, prompt_read hp⟩
    · exact ⟨by dsimp only; omega, h1⟩

/-- The bytes that are to come. -/
def outstanding (s : Sess) : Bytes := (brings s).filterMap id

/-- **C138**, as far as it goes: a read takes at most `longest l`, and a line this time for each byte that the client sends, and once
more. -/
theorem C138_partial {l : Nat} {s : Sess} (hp : Prompt l s) :
    (∀ n, (Reading.read n s).2.1 ≤ longest l) ∧ (Reading.getline [] s).2.1 ≤ ((outstanding s).length + 1) * longest l := by
  refine ⟨fun n => (read_time hp).1, ?_⟩
  have key : ∀ (m : Nat) (acc : Bytes) (s : Sess), Prompt l s → (outstanding s).length = m →
      (Reading.getline acc s).2.1 ≤ (m + 1) * longest l := by
    intro m
    induction m using Nat.strongRecOn with
    | ind m ih =>
      intro acc s hp hm
      have ht := read_time (n := 1) hp
      have hmul : (m + 1) * longest l = m * longest l + longest l := Nat.succ_mul _ _
      unfold Reading.getline
      split
      · exact Nat.le_trans ht.1 (by omega)
      · exact Nat.le_trans ht.1 (by omega)
      · rename_i b hb
        have hd := (C137 s 1 (by decide)).1
        rw [hb] at hd
        obtain ⟨h1, h2, h3⟩ := hd
        have hs : (outstanding s).length = b.length + (outstanding (Reading.read 1 s).2.2).length := by
          unfold outstanding
          rw [h3, List.filterMap_append, List.length_append]
          simp
        have hpos : 0 < b.length := List.length_pos_iff.2 h1
        split
        · exact Nat.le_trans ht.1 (by omega)
        · have hi := ih _ (by omega) (acc ++ b) _ ht.2 (rfl : (outstanding (Reading.read 1 s).2.2).length = _)
          have hle : ((outstanding (Reading.read 1 s).2.2).length + 1) * longest l ≤ m * longest l := Nat.mul_le_mul_right _ (by omega)
          dsimp only
          omega
  exact key _ [] s hp rfl

/-- The line that arrives, after `acc`, and what follows it: up to a line feed, or to an announced end if there is something; no line when
the reading is given up before. -/
def lineIn (orderly : Bool) : Bytes → List (Option UInt8) → Option Bytes × List (Option UInt8)
  | acc, [] => (if orderly = true ∧ acc ≠ [] then some acc else none, [])
  | _, none :: g => (none, g)
  | acc, some c :: g => if c = 10 then (some (acc ++ [10]), g) else lineIn orderly (acc ++ [c]) g

/-- **C137** for lines: `getline` gives exactly the line that arrives, whatever the records, and leaves what follows it. -/
theorem C137_line (acc : Bytes) (s : Sess) :
    ((Reading.getline acc s).1, brings (Reading.getline acc s).2.2) = lineIn (announced s.net) acc (brings s) := by
  suffices h : ∀ (m : Nat) (acc : Bytes) (s : Sess), (outstanding s).length = m →
      ((Reading.getline acc s).1, brings (Reading.getline acc s).2.2) = lineIn (announced s.net) acc (brings s) from h _ acc s rfl
  intro m
  induction m using Nat.strongRecOn with
  | ind m ih =>
    intro acc s hm
    obtain ⟨hd, ha⟩ := C137 s 1 (by decide)
    unfold Reading.getline
    split
    · rename_i hb
      rw [hb] at hd
      rcases hd with hd | ⟨h1, h2, h3⟩
      · rw [hd]; rfl
      · rw [h1, h3]
        dsimp only
        rw [h2]
        simp [lineIn]
    · rename_i hb
      rw [hb] at hd
      obtain ⟨h1, h2, h3⟩ := hd
      rw [h1, h3]
      dsimp only
      rw [h2]
      unfold lineIn
      by_cases hacc : acc = [] <;> simp [hacc]
    · rename_i b hb
      rw [hb] at hd
      obtain ⟨h1, h2, h3⟩ := hd
      obtain ⟨c, rfl⟩ : ∃ c, b = [c] := by
        match b with
        | [] => exact absurd rfl h1
        | [c] => exact ⟨c, rfl⟩
        | _ :: _ :: _ => simp at h2
      have hs : (outstanding s).length = 1 + (outstanding (Reading.read 1 s).2.2).length := by
        unfold outstanding
        rw [h3, List.filterMap_append, List.length_append]
        simp
      have hi := ih _ (by omega) (acc ++ [c]) _ (rfl : (outstanding (Reading.read 1 s).2.2).length = _)
      rw [h3]
      simp only [List.map_cons, List.map_nil, List.cons_append, List.nil_append, lineIn]
      by_cases hc : c = 10
      · rw [if_pos (by rw [hc]), if_pos hc, hc]
      · rw [if_neg (by simpa using hc), if_neg hc]
        dsimp only
        rw [hi, ha]

/-- Non-vacuity of `C137_line`: a line, an unfinished line before an announced end, and one that is given up. -/
example : ((Reading.getline [] ⟨[97], [.other 0 0, .record 10 [98] 0 0, .goodbye 0 0]⟩).1 = some [97, 10]) ∧
    ((Reading.getline [] ⟨[98], [.goodbye 0 0]⟩).1 = some [98]) ∧ ((Reading.getline [] ⟨[98], [.silence 0]⟩).1 = none) ∧
    ((Reading.getline [] ⟨[98], [.broken 0 0]⟩).1 = none) := by decide +kernel

/-- This time can be needed for a single read, for which nothing but events without data comes. -/
theorem C138_longest (l : Nat) : ∃ s, Prompt l s ∧ ∀ n, (Reading.read n s).1 = .err ∧ (Reading.read n s).2.1 = longest l := by
  have key : ∀ (n k : Nat), (retry n k ⟨[], List.replicate k (.other 5000 l)⟩).1 = .err ∧
      (retry n k ⟨[], List.replicate k (.other 5000 l)⟩).2.1 = k * (5001 + l) := by
    intro n k
    induction k with
    | zero => simp [retry]
    | succ k ih =>
      have hmul : (k + 1) * (5001 + l) = k * (5001 + l) + (5001 + l) := Nat.succ_mul _ _
      simp only [List.replicate_succ, retry, isReadable, sslRead, ne_eq, not_true_eq_false, if_false, if_true]
      exact ⟨ih.1, by rw [ih.2]; omega⟩
  refine ⟨⟨[], List.replicate 1001 (.other 5000 l)⟩, ?_, fun n => ?_⟩
  · intro e he
    rw [List.eq_of_mem_replicate he]
    exact ⟨Nat.le_refl _, Nat.le_refl _⟩
  · have := key n 1000
    rw [show (1001 : Nat) = 1000 + 1 from rfl, List.replicate_succ]
    simp only [Reading.read, isReadable, sslRead, ne_eq, not_true_eq_false, if_false, if_true, longest]
    exact ⟨this.1, by rw [this.2]⟩

/-- No time is enough: for every time there is a client that takes longer to send a line, though each byte of it comes within five
seconds, and the line is read. -/
theorem C138_unbounded (T : Nat) : ∃ s line, Prompt 0 s ∧ T ≤ (Reading.getline [] s).2.1 ∧ (Reading.getline [] s).1 = some line := by
  have key : ∀ (k : Nat) (acc : Bytes),
      (Reading.getline acc ⟨[], List.replicate k (.record 97 [] 5000 0) ++ [.record 10 [] 0 0]⟩).1 = some (acc ++ List.replicate k 97 ++ [10]) ∧
      (Reading.getline acc ⟨[], List.replicate k (.record 97 [] 5000 0) ++ [.record 10 [] 0 0]⟩).2.1 = 5000 * k := by
    intro k
    induction k with
    | zero =>
      intro acc
      unfold Reading.getline
      simp [Reading.read, isReadable, sslRead, gotOf]
    | succ k ih =>
      intro acc
      have ih := ih (acc ++ [97])
      have hr : Reading.read 1 ⟨[], List.replicate (k + 1) (.record 97 [] 5000 0) ++ [.record 10 [] 0 0]⟩ =
          (.data [97], 5000, ⟨[], List.replicate k (.record 97 [] 5000 0) ++ [.record 10 [] 0 0]⟩) := by
        simp [List.replicate_succ, Reading.read, isReadable, sslRead, gotOf]
      unfold Reading.getline
      split
      · rename_i h; rw [hr] at h; cases h
      · rename_i h; rw [hr] at h; cases h
      · rename_i b h
        dsimp only
        rw [hr] at h ⊢
        cases h
        rw [if_neg (by decide)]
        refine ⟨?_, ?_⟩
        · dsimp only
          rw [ih.1, List.replicate_succ]
          simp only [List.append_assoc, List.cons_append, List.nil_append]
        · dsimp only
          rw [ih.2]
          omega
  refine ⟨_, _, ?_, ?_, (key T []).1⟩
  · intro e he
    rcases List.mem_append.1 he with he | he
    · rw [List.eq_of_mem_replicate he]
      exact ⟨Nat.le_refl _, Nat.le_refl _⟩
    · rw [List.mem_singleton.1 he]
      exact ⟨by decide, Nat.le_refl _⟩
  · rw [(key T []).2]
    omega

/-- **C138** is violated. -/
theorem C138_violated : ¬ C138_statement := by
  rintro ⟨T, h⟩
  obtain ⟨s, _, hp, ht, _⟩ := C138_unbounded (T + 1)
  have := h s hp
  omega

/-! ## Non-vacuity -/

/-- A session: the rest of a record, a record, two events without data, a record, a silence, a record and the end. -/
def lively : Sess :=
  ⟨[1, 2, 3], [.record 4 [5] 7 1, .other 10 2, .other 20 0, .record 6 [] 30 0, .silence 5000, .record 7 [8] 1 1, .goodbye 0 0]⟩

/-- The results of reads of these sizes, with their times. -/
def takesOf : List Nat → Sess → List (Got × Nat)
  | [], _ => []
  | n :: ns, s => ((Reading.read n s).1, (Reading.read n s).2.1) :: takesOf ns (Reading.read n s).2.2

/-- Non-vacuity of C137: what this session brings, and what reads of some sizes give. -/
example : brings lively = [some 1, some 2, some 3, some 4, some 5, some 6, none, some 7, some 8] ∧ announced lively.net = true ∧
    takesOf [2, 4096, 4096, 4096, 1, 1, 1, 1, 1] lively =
      [(.data [1, 2], 0), (.data [3], 0), (.data [4, 5], 8), (.data [6], 64), (.err, 5000), (.data [7], 2), (.data [8], 0), (.eof, 0),
        (.eof, 0)] := by
  decide +kernel

/-- A program that reads twoReads and stops at an error. -/
def twoReads : Program (List Got) :=
  .ask 0 fun g => match g with
    | .err => .done [.err]
    | g => .ask 4095 fun h => .done [g, h]

/-- Non-vacuity of `C137_pieces` and `C137_paused`. -/
example : twoReads.Stops ∧ brings ⟨[1], [.silence 0, .record 2 [3] 0 0]⟩ = [1].map some ++ none :: [some 2, some 3] ∧
    brings ⟨[], [.record 2 [3] 0 0, .record 4 [] 0 0]⟩ = [2, 3, 4].map some ∧
    (twoReads.run ⟨[1], [.silence 0, .record 2 [3] 0 0]⟩).1 = [.data [1], .err] ∧
    (twoReads.run ⟨[], [.record 2 [3] 0 0, .record 4 [] 0 0]⟩).1 = [.data [2], .data [3]] := by
  refine ⟨⟨⟨_, rfl⟩, fun g => ?_⟩, by decide +kernel, by decide +kernel, by decide +kernel, by decide +kernel⟩
  cases g with
  | err => trivial
  | data b => exact ⟨⟨_, rfl⟩, fun _ => trivial⟩
  | eof => exact ⟨⟨_, rfl⟩, fun _ => trivial⟩

/-- Non-vacuity of C138: a line of two bytes, with something else in between; and the time that is possible for it. -/
example : Prompt 2 ⟨[], [.record 97 [] 100 1, .other 200 2, .record 10 [] 300 1]⟩ ∧
    (Reading.getline [] ⟨[], [.record 97 [] 100 1, .other 200 2, .record 10 [] 300 1]⟩).1 = some [97, 10] ∧
    (Reading.getline [] ⟨[], [.record 97 [] 100 1, .other 200 2, .record 10 [] 300 1]⟩).2.1 = 605 ∧
    (outstanding ⟨[], [.record 97 [] 100 1, .other 200 2, .record 10 [] 300 1]⟩).length = 2 ∧ longest 2 = 5008002 := by
  refine ⟨?_, by decide +kernel⟩
  intro e he
  simp only [List.mem_cons, List.not_mem_nil, or_false] at he
  rcases he with rfl | rfl | rfl <;> decide

end Brski.Props
