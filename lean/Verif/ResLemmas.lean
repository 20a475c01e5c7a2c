import Verif.Res

/-!
# Ownership of library objects: rules

A small logic for the programs of `Res`: `Tri B L p R` says that `p`, started with the references of
the blocks `L` and with the objects of `B` lent by the caller, ends properly and leaves the blocks
`R`.  Nothing else changes hands.
-/

namespace Brski.Res
open Outcome

/-! ## Runs -/

theorem bind_run {α β : Type} (p : Prog α) (f : α → Prog β) (s : St) :
    (p >>= f) s = (p s).bind fun r => f r.1 r.2 := by
  show (p.andThen f).run s = _
  induction p generalizing s with
  | ret a => rfl
  | ub => rfl
  | draw g ih => exact ih _ _
  | fresh k g ih => exact ih _ _
  | use k i p ih =>
    show (if s.Has k i then (p.andThen f).run s else .ub) = (if s.Has k i then p.run s else .ub).bind _
    split
    · exact ih _
    · rfl
  | drop k i p ih =>
    show (if s.Has k i then (p.andThen f).run (s.setCnt i (s.cnt i - 1)) else .ub) =
      (if s.Has k i then p.run (s.setCnt i (s.cnt i - 1)) else .ub).bind _
    split
    · exact ih _
    · rfl
  | up k i p ih =>
    show (if s.Has k i then (p.andThen f).run (s.setCnt i (s.cnt i + 1)) else .ub) =
      (if s.Has k i then p.run (s.setCnt i (s.cnt i + 1)) else .ub).bind _
    split
    · exact ih _
    · rfl

theorem pure_run {α : Type} (a : α) (s : St) : (Pure.pure a : Prog α) s = .ok (a, s) := rfl
theorem map_run {α β : Type} (f : α → β) (p : Prog α) (s : St) :
    (f <$> p) s = (p s).bind fun r => .ok (f r.1, r.2) := bind_run p (fun a => Pure.pure (f a)) s
theorem undefined_run {α : Type} (s : St) : (undefined : Prog α) s = .ub := rfl
theorem draw_run (s : St) : draw s = .ok (s.tape s.pos, { s with pos := s.pos + 1 }) := rfl
theorem fresh_run (k : Kind) (s : St) :
    fresh k s = .ok (s.next + s.gap s.next, s.make k (s.next + s.gap s.next)) := rfl
theorem use_run (k : Kind) (i : Id) (s : St) : use k i s = if s.Has k i then .ok ((), s) else .ub := rfl
theorem drop_run (k : Kind) (i : Id) (s : St) :
    drop k i s = if s.Has k i then .ok ((), s.setCnt i (s.cnt i - 1)) else .ub := rfl
theorem up_run (k : Kind) (i : Id) (s : St) :
    up k i s = if s.Has k i then .ok ((), s.setCnt i (s.cnt i + 1)) else .ub := rfl

/-! ## The logic -/

/-- A reference: kind and name of the object (/repo/src/voucher/crypto_ossl.c:60-1694). -/
abbrev Ref := Kind × Id

/-- How many of the references lead to the object (/repo/src/voucher/crypto_ossl.c:60-1694). -/
def times (L : List Ref) (i : Id) : Nat := (L.map Prod.snd).count i

/-- Between `s0` and `s` exactly the references `L` were acquired and not given back
(/repo/src/voucher/crypto_ossl.c:60-1694); objects that exist keep their kind, unused names have no
references, and what was acquired is new. -/
structure Owns (s0 s : St) (L : List Ref) : Prop where
  cnt : ∀ i, s.cnt i = s0.cnt i + times L i
  kinds : ∀ r ∈ L, s.kind r.2 = r.1
  old : ∀ i, 0 < s0.cnt i → s.kind i = s0.kind i
  unused : ∀ i, s.next ≤ i → s.cnt i = 0
  mono : s0.next ≤ s.next
  new : ∀ r ∈ L, s0.next ≤ r.2

/-- The objects exist and have these kinds (/repo/src/voucher/crypto_ossl.c:60-1694). -/
def Live (s : St) (B : List Ref) : Prop := ∀ r ∈ B, 0 < s.cnt r.2 ∧ s.kind r.2 = r.1

/-- The judgement of the logic (/repo/src/voucher/crypto_ossl.c:60-1694); references come in blocks. -/
def Tri {α : Type} (B : List Ref) (L : List (List Ref)) (p : Prog α) (R : α → List (List Ref)) : Prop :=
  ∀ s0 s, Live s0 B → Owns s0 s L.flatten → ∃ a s', p s = .ok (a, s') ∧ Owns s0 s' (R a).flatten

@[simp] theorem times_nil (i : Id) : times [] i = 0 := rfl
@[simp] theorem times_cons (r : Ref) (L : List Ref) (i : Id) :
    times (r :: L) i = times L i + if r.2 = i then 1 else 0 := by
  simp [times, List.count_cons]
@[simp] theorem times_append (L M : List Ref) (i : Id) : times (L ++ M) i = times L i + times M i := by
  simp [times]

theorem times_pos {L : List Ref} {r : Ref} (h : r ∈ L) : 0 < times L r.2 :=
  List.count_pos_iff.2 (List.mem_map_of_mem h)

theorem times_perm {L M : List Ref} (h : L.Perm M) (i : Id) : times L i = times M i :=
  (h.map Prod.snd).count_eq i

theorem Owns.perm {s0 s : St} {L M : List Ref} (h : L.Perm M) (o : Owns s0 s L) : Owns s0 s M :=
  ⟨fun i => by rw [o.cnt, times_perm h], fun r hr => o.kinds r (h.mem_iff.2 hr), o.old, o.unused,
    o.mono, fun r hr => o.new r (h.mem_iff.2 hr)⟩

theorem Owns.live {s0 s : St} {L : List Ref} (o : Owns s0 s L) {r : Ref} (h : r ∈ L) :
    0 < s.cnt r.2 ∧ s.kind r.2 = r.1 := by
  have := times_pos h
  exact ⟨by rw [o.cnt]; omega, o.kinds r h⟩

theorem Owns.lent {s0 s : St} {L B : List Ref} (o : Owns s0 s L) (hb : Live s0 B) {r : Ref} (h : r ∈ B) :
    0 < s.cnt r.2 ∧ s.kind r.2 = r.1 := by
  have ⟨h1, h2⟩ := hb r h
  exact ⟨by rw [o.cnt]; omega, by rw [o.old _ h1]; exact h2⟩

/-- A program that gives back exactly the references of the block
(/repo/src/voucher/crypto_ossl.c:60-1694). -/
def Con {α : Type} (p : Prog α) (X : List Ref) : Prop := ∀ B, Tri B [X] p fun _ => []

theorem Tri.bind {α β : Type} {B : List Ref} {L : List (List Ref)} {p : Prog α} {f : α → Prog β}
    {R : α → List (List Ref)} {Q : β → List (List Ref)} (hp : Tri B L p R) (hf : ∀ a, Tri B (R a) (f a) Q) :
    Tri B L (p >>= f) Q := by
  intro s0 s hb ho
  obtain ⟨a, s1, e1, o1⟩ := hp s0 s hb ho
  obtain ⟨b, s2, e2, o2⟩ := hf a s0 s1 hb o1
  refine ⟨b, s2, ?_, o2⟩
  rw [bind_run, e1]; exact e2

theorem Tri.perm {α : Type} {B : List Ref} {L M : List (List Ref)} {p : Prog α} {R : α → List (List Ref)}
    (h : L.flatten.Perm M.flatten) (hp : Tri B M p R) : Tri B L p R :=
  fun s0 s hb ho => hp s0 s hb (ho.perm h)

theorem Tri.post {α : Type} {B : List Ref} {L : List (List Ref)} {p : Prog α} {R Q : α → List (List Ref)}
    (hp : Tri B L p R) (h : ∀ a, (R a).flatten.Perm (Q a).flatten) : Tri B L p Q := by
  intro s0 s hb ho
  obtain ⟨a, s', e, o⟩ := hp s0 s hb ho
  exact ⟨a, s', e, o.perm (h a)⟩

/-- The frame rule: what a function does not get it leaves alone; it may use what is lent to it. -/
theorem Tri.frame {α : Type} {B B' : List Ref} {G F : List (List Ref)} {p : Prog α} {R : α → List (List Ref)}
    (hp : Tri B' G p R) (hb : ∀ r ∈ B', r ∈ B ∨ r ∈ F.flatten) : Tri B (G ++ F) p fun a => R a ++ F := by
  intro s0 s hl ho
  rw [List.flatten_append] at ho
  let t0 : St := ⟨s0.tape, s0.pos, s0.next, s.kind, fun i => s0.cnt i + times F.flatten i, s0.gap⟩
  have ho' : Owns t0 s G.flatten :=
    ⟨fun i => by rw [ho.cnt, times_append]; show _ = s0.cnt i + times F.flatten i + _; omega,
      fun r hr => ho.kinds r (List.mem_append_left _ hr), fun _ _ => rfl, ho.unused, ho.mono,
      fun r hr => ho.new r (List.mem_append_left _ hr)⟩
  have hl' : Live t0 B' := by
    intro r hr
    rcases hb r hr with h | h
    · have ⟨h1, h2⟩ := hl r h
      exact ⟨by show 0 < s0.cnt r.2 + _; omega, by show s.kind r.2 = _; rw [ho.old _ h1]; exact h2⟩
    · have := times_pos h
      exact ⟨by show 0 < s0.cnt r.2 + _; omega, ho.kinds r (List.mem_append_right _ h)⟩
  obtain ⟨a, s', e, o⟩ := hp t0 s hl' ho'
  refine ⟨a, s', e, ?_⟩
  rw [List.flatten_append]
  refine ⟨fun i => ?_, fun r hr => ?_, fun i hi => ?_, o.unused, o.mono, fun r hr => ?_⟩
  · rw [o.cnt, times_append]; show s0.cnt i + times F.flatten i + _ = _; omega
  · rcases List.mem_append.1 hr with h | h
    · exact o.kinds r h
    · have := times_pos h
      rw [o.old r.2 (by show 0 < s0.cnt r.2 + _; omega)]
      exact ho.kinds r (List.mem_append_right _ h)
  · rw [o.old i (by show 0 < s0.cnt i + _; omega)]; exact ho.old i hi
  · rcases List.mem_append.1 hr with h | h
    · exact o.new r h
    · exact ho.new r (List.mem_append_right _ h)

theorem Tri.call {α : Type} {B B' : List Ref} {F : List (List Ref)} {p : Prog α} {R : α → List (List Ref)}
    (hp : Tri B' [] p R) (hb : ∀ r ∈ B', r ∈ B ∨ r ∈ F.flatten) : Tri B F p fun a => R a ++ F :=
  Tri.frame (G := []) hp hb

theorem Tri.pure {α : Type} {B : List Ref} {L : List (List Ref)} {a : α} {R : α → List (List Ref)}
    (h : L.flatten.Perm (R a).flatten) : Tri B L (Pure.pure a) R :=
  fun _ s _ ho => ⟨a, s, rfl, ho.perm h⟩

theorem Tri.ret {α : Type} {B : List Ref} {L : List (List Ref)} {a : α} {R : α → List (List Ref)}
    (h : L = R a) : Tri B L (Pure.pure a) R := Tri.pure (by rw [h])

theorem Tri.draw {B : List Ref} {L : List (List Ref)} : Tri B L Res.draw fun _ => L :=
  fun _ s _ ho => ⟨_, { s with pos := s.pos + 1 }, rfl, ho.cnt, ho.kinds, ho.old, ho.unused, ho.mono, ho.new⟩

theorem Tri.yes {B : List Ref} {L : List (List Ref)} : Tri B L Res.yes fun _ => L :=
  Tri.bind Tri.draw fun _ => Tri.ret rfl

theorem Tri.fresh {B : List Ref} {L : List (List Ref)} {k : Kind} :
    Tri B L (Res.fresh k) fun i => [(k, i)] :: L := by
  intro s0 s _ ho
  refine ⟨_, _, fresh_run k s, ?_⟩
  have hge : s.next ≤ s.next + s.gap s.next := Nat.le_add_right _ _
  generalize s.next + s.gap s.next = n at hge
  have hn := ho.unused n hge
  have hz : s0.cnt n = 0 ∧ times L.flatten n = 0 := by
    have := ho.cnt n; omega
  have hm := ho.mono
  refine ⟨fun i => ?_, fun r hr => ?_, fun i hi => ?_, fun i hi => ?_, (by show s0.next ≤ n + 1; omega), fun r hr => ?_⟩
  · show (if i = n then 1 else s.cnt i) = _
    rw [List.flatten_cons, List.singleton_append, times_cons]
    by_cases h : i = n
    · subst h; simp [hz.1, hz.2]
    · rw [if_neg h, ho.cnt, if_neg (by exact fun e => h e.symm)]; omega
  · show (if r.2 = n then k else s.kind r.2) = _
    rw [List.flatten_cons, List.singleton_append, List.mem_cons] at hr
    rcases hr with rfl | hr
    · simp
    · have := times_pos hr
      have h : r.2 ≠ n := by intro e; rw [e] at this; omega
      rw [if_neg h]; exact ho.kinds r hr
  · show (if i = n then k else s.kind i) = _
    have h : i ≠ n := by intro e; rw [e] at hi; omega
    rw [if_neg h]; exact ho.old i hi
  · show (if i = n then 1 else s.cnt i) = 0
    have hi : n + 1 ≤ i := hi
    rw [if_neg (by omega)]; exact ho.unused i (by omega)
  · rw [List.flatten_cons, List.singleton_append, List.mem_cons] at hr
    rcases hr with rfl | hr
    · show s0.next ≤ n; omega
    · exact ho.new r hr

/-- The blocks held after a call that returns an object or NULL
(/repo/src/voucher/crypto_ossl.c:60-1694). -/
def one (k : Kind) : Option Id → List (List Ref)
  | none => []
  | some i => [[(k, i)]]

theorem Tri.mk {B : List Ref} {L : List (List Ref)} {k : Kind} : Tri B L (Res.mk k) fun o => one k o ++ L := by
  refine Tri.bind Tri.yes fun b => ?_
  cases b
  · exact Tri.ret rfl
  · exact Tri.bind (f := fun a => Pure.pure (some a)) Tri.fresh fun i => Tri.ret rfl

theorem Tri.use {B : List Ref} {L : List (List Ref)} {k : Kind} {i : Id} (h : (k, i) ∈ B ∨ (k, i) ∈ L.flatten) :
    Tri B L (Res.use k i) fun _ => L := by
  intro s0 s hb ho
  refine ⟨(), s, ?_, ho⟩
  rw [use_run]
  have : 0 < s.cnt i ∧ s.kind i = k := by
    rcases h with h | h
    · exact ho.lent hb h
    · exact ho.live h
  exact if_pos this

theorem Con.drop {k : Kind} {i : Id} : Con (Res.drop k i) [(k, i)] := by
  intro B s0 s _ ho
  have hl := ho.live (r := (k, i)) (by simp)
  refine ⟨(), s.setCnt i (s.cnt i - 1), ?_, ?_⟩
  · rw [drop_run]; exact if_pos hl
  have hc := ho.cnt
  simp only [List.flatten_cons, List.flatten_nil, List.append_nil, times_cons, times_nil, Nat.zero_add] at hc
  refine ⟨fun j => ?_, fun r hr => (by cases hr), ho.old, fun j hj => ?_, ho.mono, fun r hr => (by cases hr)⟩
  · show (if j = i then s.cnt i - 1 else s.cnt j) = _
    by_cases h : j = i
    · subst h; rw [if_pos rfl, hc]; simp
    · rw [if_neg h, hc, if_neg (fun e => h e.symm)]; simp
  · show (if j = i then s.cnt i - 1 else s.cnt j) = 0
    have := ho.unused j hj
    by_cases h : j = i
    · rw [if_pos h, ← h, this]
    · rw [if_neg h, this]

theorem Con.of_tri {α : Type} {p : Prog α} {X : List Ref} {L : List (List Ref)} (h : ∀ B, Tri B L p fun _ => [])
    (e : X.Perm L.flatten) : Con p X :=
  fun B => Tri.perm (by simpa using e) (h B)

/-- A program that gives back a block, wherever the block stands. -/
theorem Tri.con {α : Type} {B : List Ref} {L M : List (List Ref)} {X : List Ref} {p : Prog α} (h : Con p X)
    (e : L.flatten.Perm (X ++ M.flatten)) : Tri B L p fun _ => M :=
  Tri.perm (M := [X] ++ M) (by simpa using e) (Tri.frame (B' := []) (h []) (fun _ h => by cases h))

theorem Tri.con0 {α : Type} {B : List Ref} {M : List (List Ref)} {X : List Ref} {p : Prog α} (h : Con p X) :
    Tri B (X :: M) p fun _ => M := Tri.con h (by simp)

theorem perm_up {X a : List Ref} {L M : List Ref} (h : L.Perm (X ++ M)) : (a ++ L).Perm (X ++ (a ++ M)) :=
  (h.append_left a).trans (by
    rw [← List.append_assoc, ← List.append_assoc]
    exact List.Perm.append_right _ List.perm_append_comm)

theorem Tri.con1 {α : Type} {B : List Ref} {M : List (List Ref)} {X a : List Ref} {p : Prog α} (h : Con p X) :
    Tri B (a :: X :: M) p fun _ => a :: M := Tri.con h (perm_up (by simp))
theorem Tri.con2 {α : Type} {B : List Ref} {M : List (List Ref)} {X a b : List Ref} {p : Prog α} (h : Con p X) :
    Tri B (a :: b :: X :: M) p fun _ => a :: b :: M := Tri.con h (perm_up (perm_up (by simp)))
theorem Tri.con3 {α : Type} {B : List Ref} {M : List (List Ref)} {X a b c : List Ref} {p : Prog α} (h : Con p X) :
    Tri B (a :: b :: c :: X :: M) p fun _ => a :: b :: c :: M := Tri.con h (perm_up (perm_up (perm_up (by simp))))
theorem Tri.con4 {α : Type} {B : List Ref} {M : List (List Ref)} {X a b c d : List Ref} {p : Prog α} (h : Con p X) :
    Tri B (a :: b :: c :: d :: X :: M) p fun _ => a :: b :: c :: d :: M :=
  Tri.con h (perm_up (perm_up (perm_up (perm_up (by simp)))))
theorem Tri.con5 {α : Type} {B : List Ref} {M : List (List Ref)} {X a b c d e : List Ref} {p : Prog α}
    (h : Con p X) : Tri B (a :: b :: c :: d :: e :: X :: M) p fun _ => a :: b :: c :: d :: e :: M :=
  Tri.con h (perm_up (perm_up (perm_up (perm_up (perm_up (by simp))))))

end Brski.Res
