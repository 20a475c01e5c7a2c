import Verif.Config
import Verif.PropsList

/-!
# Ownership of strings and lists in one memory

Several objects (strings and lists) living side by side in the memory; used for the configuration.
-/

namespace Brski.Config
open Outcome DlList Props

/-- An object in memory: a string block, or a list. -/
inductive Obj where
  | str (p : Nat) (b : Bytes)
  | list (l : Nat) (xs : List Item)

/-- Its address. -/
def Obj.ptr : Obj → Nat
  | .str p _ => p
  | .list l _ => l

/-- The nodes it consists of. -/
def Obj.nodes : Obj → List Nat
  | .str _ _ => []
  | .list l xs => l :: xs.map (·.addr)

/-- The data blocks it consists of. -/
def Obj.dats : Obj → List Nat
  | .str p _ => [p]
  | .list _ xs => xs.flatMap fun x => x.own.map (·.1)

/-- The memory holds the object. -/
def Holds (m : Mem) : Obj → Prop
  | .str p b => m.dat p = some b
  | .list l xs => Rep m l xs

theorem Seg.frame {node node' : Nat → Option Node} {b : Nat} : ∀ {xs : List Nat} {a : Nat}, Seg node a xs b →
    (∀ p ∈ b :: a :: xs, node' p = node p) → Seg node' a xs b
  | [], a, h, hf => by
    simp only [Seg, nxt, prv] at h ⊢
    rw [hf a (by simp), hf b (by simp)]
    exact h
  | x :: xs, a, h, hf => by
    refine ⟨?_, ?_, Seg.frame h.2.2 fun p hp => hf p ?_⟩
    · have := h.1
      simp only [nxt] at this ⊢
      rw [hf a (by simp)]; exact this
    · have := h.2.1
      simp only [prv] at this ⊢
      rw [hf x (by simp)]; exact this
    · simp only [List.mem_cons] at hp ⊢
      rcases hp with h | h | h
      · exact .inl h
      · exact .inr (.inr (.inl h))
      · exact .inr (.inr (.inr h))

theorem Rep.frame {m m' : Mem} {l : Nat} {xs : List Item} (h : Rep m l xs) (hf : m.fresh ≤ m'.fresh)
    (hn : ∀ p ∈ l :: xs.map (·.addr), m'.node p = m.node p)
    (hd : ∀ p ∈ xs.flatMap (fun x => x.own.map (·.1)), m'.dat p = m.dat p) : Rep m' l xs := by
  refine ⟨Seg.frame h.seg fun p hp => hn p ?_, ?_, ?_, h.sorted, fun a ha => Nat.lt_of_lt_of_le (h.bound a ha) hf,
    h.dsorted, fun x hx p hp => Nat.lt_of_lt_of_le (h.dbound x hx p hp) hf, ?_⟩
  · simp only [List.mem_cons] at hp ⊢
    rcases hp with h | h | h
    · exact .inl h
    · exact .inl h
    · exact .inr h
  · rw [hn l (by simp)]; exact h.head
  · intro x hx
    rw [hn x.addr (by simp only [List.mem_cons, List.mem_map]; exact .inr ⟨x, hx, rfl⟩)]
    exact h.items x hx
  · intro x hx p hp
    rw [hd p.1 (List.mem_flatMap.2 ⟨x, hx, List.mem_map.2 ⟨p, hp, rfl⟩⟩)]
    exact h.data x hx p hp

theorem Holds.frame {m m' : Mem} {o : Obj} (h : Holds m o) (hf : m.fresh ≤ m'.fresh)
    (hn : ∀ p ∈ o.nodes, m'.node p = m.node p) (hd : ∀ p ∈ o.dats, m'.dat p = m.dat p) : Holds m' o := by
  cases o with
  | str p b => exact (hd p (by simp [Obj.dats])).trans h
  | list l xs => exact Rep.frame h hf hn hd

/-- The memory `m` is `m0` plus the objects `g`, which are younger than `m0` and do not overlap. -/
structure Own {ι : Type} (m0 m : Mem) (g : ι → Option Obj) : Prop where
  mono : m0.fresh ≤ m.fresh
  holds : ∀ i o, g i = some o → Holds m o
  young : ∀ i o, g i = some o → (∀ p ∈ o.nodes, m0.fresh ≤ p ∧ p < m.fresh) ∧ (∀ p ∈ o.dats, m0.fresh ≤ p ∧ p < m.fresh)
  disj : ∀ i j o o', i ≠ j → g i = some o → g j = some o' → (∀ p ∈ o.nodes, p ∉ o'.nodes) ∧ (∀ p ∈ o.dats, p ∉ o'.dats)
  node : ∀ p, (∀ i o, g i = some o → p ∉ o.nodes) → m.node p = m0.node p
  dat : ∀ p, (∀ i o, g i = some o → p ∉ o.dats) → m.dat p = m0.dat p

/-- Change of one object. -/
def setObj {ι : Type} [DecidableEq ι] (g : ι → Option Obj) (i : ι) (o : Option Obj) : ι → Option Obj :=
  fun j => if j = i then o else g j

theorem own_nil {ι : Type} (m0 : Mem) : Own m0 m0 (fun _ : ι => none) :=
  ⟨Nat.le_refl _, (fun _ _ h => by cases h), (fun _ _ h => by cases h), (fun _ _ _ _ _ h => by cases h),
    fun _ _ => rfl, fun _ _ => rfl⟩

theorem Own.back {ι : Type} {m0 m : Mem} {g : ι → Option Obj} (h : Own m0 m g) (hg : ∀ i, g i = none) :
    m.node = m0.node ∧ m.dat = m0.dat :=
  ⟨funext fun p => h.node p (fun i o e => by rw [hg i] at e; cases e),
   funext fun p => h.dat p (fun i o e => by rw [hg i] at e; cases e)⟩

variable {ι : Type} [DecidableEq ι] {m0 m m' : Mem} {g : ι → Option Obj}

/-- Replacing the (possibly absent) object `i` by `o'`: the memory changes only inside the old and the new
footprint, and what leaves the footprint is dead. -/
theorem Own.change (h : Own m0 m g) (hw : Wf m0) (i : ι) (o' : Option Obj) (hm : m.fresh ≤ m'.fresh)
    (hholds : ∀ x, o' = some x → Holds m' x)
    (hyoung : ∀ x, o' = some x → (∀ p ∈ x.nodes, (m.fresh ≤ p ∨ ∃ o, g i = some o ∧ p ∈ o.nodes) ∧ p < m'.fresh) ∧
      (∀ p ∈ x.dats, (m.fresh ≤ p ∨ ∃ o, g i = some o ∧ p ∈ o.dats) ∧ p < m'.fresh))
    (hnode : ∀ p, (∀ x, o' = some x → p ∉ x.nodes) →
      m'.node p = m.node p ∨ ((∃ o, g i = some o ∧ p ∈ o.nodes) ∧ m'.node p = none))
    (hdat : ∀ p, (∀ x, o' = some x → p ∉ x.dats) →
      m'.dat p = m.dat p ∨ ((∃ o, g i = some o ∧ p ∈ o.dats) ∧ m'.dat p = none))
    (hnode' : ∀ p, m.node p ≠ m'.node p → (∃ o, g i = some o ∧ p ∈ o.nodes) ∨ m.fresh ≤ p)
    (hdat' : ∀ p, m.dat p ≠ m'.dat p → (∃ o, g i = some o ∧ p ∈ o.dats) ∨ m.fresh ≤ p)
    (hcover : ∀ o, g i = some o → (∀ p ∈ o.nodes, (∀ x, o' = some x → p ∉ x.nodes) → m'.node p = none) ∧
      (∀ p ∈ o.dats, (∀ x, o' = some x → p ∉ x.dats) → m'.dat p = none)) :
    Own m0 m' (setObj g i o') := by
  have key : ∀ j o, j ≠ i → g j = some o → Holds m' o := by
    intro j o hj e
    refine (h.holds j o e).frame hm ?_ ?_
    · intro p hp
      apply Decidable.byContradiction
      intro hne
      rcases hnode' p (fun q => hne q.symm) with ⟨x, hx, hpx⟩ | hge
      · exact (h.disj j i o x hj e hx).1 p hp hpx
      · have := ((h.young j o e).1 p hp).2; omega
    · intro p hp
      apply Decidable.byContradiction
      intro hne
      rcases hdat' p (fun q => hne q.symm) with ⟨x, hx, hpx⟩ | hge
      · exact (h.disj j i o x hj e hx).2 p hp hpx
      · have := ((h.young j o e).2 p hp).2; omega
  -- disjointness of the new object from the others
  have dj : ∀ j o x, j ≠ i → g j = some o → o' = some x → (∀ p ∈ o.nodes, p ∉ x.nodes) ∧ (∀ p ∈ o.dats, p ∉ x.dats) := by
    intro j o x hj e hx
    refine ⟨fun p hp hpx => ?_, fun p hp hpx => ?_⟩
    · rcases ((hyoung x hx).1 p hpx).1 with hge | ⟨y, hy, hpy⟩
      · have := ((h.young j o e).1 p hp).2; omega
      · exact (h.disj j i o y hj e hy).1 p hp hpy
    · rcases ((hyoung x hx).2 p hpx).1 with hge | ⟨y, hy, hpy⟩
      · have := ((h.young j o e).2 p hp).2; omega
      · exact (h.disj j i o y hj e hy).2 p hp hpy
  refine ⟨Nat.le_trans h.mono hm, ?_, ?_, ?_, ?_, ?_⟩
  · intro j o e
    unfold setObj at e
    split at e
    · exact hholds o e
    · rename_i hj; exact key j o hj e
  · intro j o e
    unfold setObj at e
    split at e
    · refine ⟨fun p hp => ⟨?_, ((hyoung o e).1 p hp).2⟩, fun p hp => ⟨?_, ((hyoung o e).2 p hp).2⟩⟩
      · rcases ((hyoung o e).1 p hp).1 with hge | ⟨y, hy, hpy⟩
        · exact Nat.le_trans h.mono hge
        · exact ((h.young i y hy).1 p hpy).1
      · rcases ((hyoung o e).2 p hp).1 with hge | ⟨y, hy, hpy⟩
        · exact Nat.le_trans h.mono hge
        · exact ((h.young i y hy).2 p hpy).1
    · refine ⟨fun p hp => ?_, fun p hp => ?_⟩
      · have := (h.young j o e).1 p hp; omega
      · have := (h.young j o e).2 p hp; omega
  · intro j k o x hjk e1 e2
    unfold setObj at e1 e2
    split at e1
    · rename_i hj
      split at e2
      · rename_i hk; exact absurd (hj.trans hk.symm) hjk
      · rename_i hk
        have := dj k x o hk e2 e1
        exact ⟨fun p hp hpx => this.1 p hpx hp, fun p hp hpx => this.2 p hpx hp⟩
    · rename_i hj
      split at e2
      · exact dj j o x hj e1 e2
      · exact h.disj j k o x hjk e1 e2
  · intro p hp
    have hx : ∀ x, o' = some x → p ∉ x.nodes := fun x hx => hp i x (by simp [setObj, hx])
    by_cases hi : ∃ o, g i = some o ∧ p ∈ o.nodes
    · obtain ⟨o, e, hpo⟩ := hi
      rw [(hcover o e).1 p hpo hx, (hw p ((h.young i o e).1 p hpo).1).1]
    · have hrest : m.node p = m0.node p := by
        refine h.node p fun j o e hpo => ?_
        by_cases hj : j = i
        · subst hj; exact hi ⟨o, e, hpo⟩
        · exact hp j o (by simp [setObj, hj, e]) hpo
      rcases hnode p hx with e | ⟨e, -⟩
      · rw [e, hrest]
      · exact absurd e hi
  · intro p hp
    have hx : ∀ x, o' = some x → p ∉ x.dats := fun x hx => hp i x (by simp [setObj, hx])
    by_cases hi : ∃ o, g i = some o ∧ p ∈ o.dats
    · obtain ⟨o, e, hpo⟩ := hi
      rw [(hcover o e).2 p hpo hx, (hw p ((h.young i o e).2 p hpo).1).2]
    · have hrest : m.dat p = m0.dat p := by
        refine h.dat p fun j o e hpo => ?_
        by_cases hj : j = i
        · subst hj; exact hi ⟨o, e, hpo⟩
        · exact hp j o (by simp [setObj, hj, e]) hpo
      rcases hdat p hx with e | ⟨e, -⟩
      · rw [e, hrest]
      · exact absurd e hi

/-- A new string. -/
theorem Own.new (h : Own m0 m g) (hw : Wf m0) (i : ι) (hi : g i = none) (b : Bytes) :
    Own m0 (m.newData b).1 (setObj g i (some (.str m.fresh b))) := by
  refine h.change hw i _ (by simp [Mem.newData]) ?_ ?_ ?_ ?_ ?_ ?_ ?_
  · rintro x ⟨⟩; simp [Holds, Mem.newData]
  · rintro x ⟨⟩; simp [Obj.nodes, Obj.dats, Mem.newData]
  · intro p _; exact .inl rfl
  · intro p hp
    have : p ≠ m.fresh := by simpa [Obj.dats] using hp _ rfl
    exact .inl (by simp [Mem.newData, this])
  · intro p hp; exact absurd rfl hp
  · intro p hp
    by_cases e : p = m.fresh
    · exact .inr (by omega)
    · exact absurd (by simp [Mem.newData, e]) hp
  · intro o e; rw [hi] at e; cases e

/-- Release of a string. -/
theorem Own.freeStr (h : Own m0 m g) (hw : Wf m0) (i : ι) {p : Nat} {b : Bytes} (hi : g i = some (.str p b)) :
    ∃ m', m.freeData p = .ok m' ∧ m'.fresh = m.fresh ∧ Own m0 m' (setObj g i none) := by
  have e : m.dat p = some b := h.holds i _ hi
  refine ⟨{ m with dat := fun q => if q = p then none else m.dat q }, by simp [Mem.freeData, e], rfl, ?_⟩
  refine h.change hw i none (Nat.le_refl _) (by simp) (by simp) (fun q _ => .inl rfl) ?_ (fun q hq => absurd rfl hq) ?_ ?_
  · intro q _
    by_cases hq : q = p
    · exact .inr ⟨⟨_, hi, by simp [Obj.dats, hq]⟩, by simp [hq]⟩
    · exact .inl (by simp [hq])
  · intro q hne
    by_cases hq : q = p
    · exact .inl ⟨_, hi, by simp [Obj.dats, hq]⟩
    · exact absurd (by simp [hq]) hne
  · intro o e; rw [hi] at e; cases e; simp [Obj.nodes, Obj.dats]

/-- Release of a list. -/
theorem Own.freeLst (h : Own m0 m g) (hw : Wf m0) (i : ι) {l : Nat} {xs : List Item} (hi : g i = some (.list l xs)) :
    ∃ m', freeList m (some l) = .ok m' ∧ m'.fresh = m.fresh ∧ Own m0 m' (setObj g i none) := by
  obtain ⟨m', e, hn, hd, hdat, hf⟩ := freeList_rep (h.holds i _ hi : Rep m l xs)
  refine ⟨m', e, hf, ?_⟩
  refine h.change hw i none (by omega) (by simp) (by simp) ?_ ?_ ?_ ?_ ?_
  · intro p _
    by_cases hp : p ∈ l :: xs.map (·.addr)
    · exact .inr ⟨⟨_, hi, hp⟩, hd p hp⟩
    · exact .inl (hn p hp)
  · intro p _
    by_cases hp : p ∈ xs.flatMap (fun x => x.own.map (·.1))
    · exact .inr ⟨⟨_, hi, hp⟩, by rw [hdat]; simp only [hp, if_true]⟩
    · exact .inl (by rw [hdat]; simp only [hp, if_false])
  · intro p hne
    by_cases hp : p ∈ l :: xs.map (·.addr)
    · exact .inl ⟨_, hi, hp⟩
    · exact absurd (hn p hp).symm hne
  · intro p hne
    by_cases hp : p ∈ xs.flatMap (fun x => x.own.map (·.1))
    · exact .inl ⟨_, hi, hp⟩
    · exact absurd (by rw [hdat]; simp only [hp, if_false]) hne
  · intro o e
    rw [hi] at e
    cases e
    exact ⟨fun p hp _ => hd p hp, fun p hp _ => by
      rw [hdat]
      have : p ∈ xs.flatMap (fun x => x.own.map (·.1)) := hp
      simp only [this, if_true]⟩

/-- A new list. -/
theorem Own.newList (h : Own m0 m g) (hw : Wf m0) (i : ι) (hi : g i = none) :
    ∃ m', initList (fun _ => true) m = .ok (m', some m.fresh) ∧ Own m0 m' (setObj g i (some (.list m.fresh []))) := by
  obtain ⟨m', e, hr, hf, hd, hn⟩ := initList_rep m
  refine ⟨m', e, h.change hw i _ (by omega) ?_ ?_ ?_ ?_ ?_ ?_ ?_⟩
  · rintro x ⟨⟩; exact hr
  · rintro x ⟨⟩; simp [Obj.nodes, Obj.dats, hf]
  · intro p hp
    have : p ≠ m.fresh := by simpa [Obj.nodes] using hp _ rfl
    exact .inl (hn p this)
  · intro p _; exact .inl (by rw [hd])
  · intro p hp
    by_cases e : p = m.fresh
    · exact .inr (by omega)
    · exact absurd (hn p e).symm hp
  · intro p hp; exact absurd (by rw [hd]) hp
  · intro o e; rw [hi] at e; cases e

/-- An element is appended. -/
theorem Own.push (h : Own m0 m g) (hw : Wf m0) (i : ι) {l : Nat} {xs : List Item} {y : Item}
    (hi : g i = some (.list l xs)) (hp : Pushed m m' l xs y) :
    Own m0 m' (setObj g i (some (.list l (xs ++ [y])))) := by
  have hb := (h.young i _ hi)
  refine h.change hw i _ (by have := hp.fresh; omega) ?_ ?_ ?_ ?_ ?_ ?_ ?_
  · rintro x ⟨⟩; exact hp.rep
  · rintro x ⟨⟩
    refine ⟨fun p hpn => ⟨?_, hp.rep.bound p hpn⟩, fun p hpd => ⟨?_, ?_⟩⟩
    · simp only [Obj.nodes, List.map_append, List.map_cons, List.map_nil, List.mem_cons, List.mem_append,
        List.not_mem_nil, or_false] at hpn
      rcases hpn with e | e | e
      · exact .inr ⟨_, hi, by simp [Obj.nodes, e]⟩
      · exact .inr ⟨_, hi, by simp only [Obj.nodes, List.mem_cons]; exact .inr e⟩
      · exact .inl (by rw [e, hp.addr]; exact Nat.le_refl _)
    · simp only [Obj.dats, List.flatMap_append, List.mem_append] at hpd
      rcases hpd with e | e
      · exact .inr ⟨_, hi, e⟩
      · simp only [List.flatMap_cons, List.flatMap_nil, List.append_nil, List.mem_map] at e
        obtain ⟨q, hq, rfl⟩ := e
        exact .inl (hp.own q hq).1
    · obtain ⟨x, hx, hm⟩ := List.mem_flatMap.1 hpd
      obtain ⟨q, hq, rfl⟩ := List.mem_map.1 hm
      exact hp.rep.dbound x hx q hq
  · intro p hpn
    have := hpn _ rfl
    simp only [Obj.nodes, List.map_append, List.map_cons, List.map_nil, List.mem_cons, List.mem_append,
        List.not_mem_nil, or_false, not_or] at this
    exact .inl (hp.node p (by simp only [List.mem_cons, not_or]; exact ⟨this.1, this.2.1⟩)
      (fun e => this.2.2 (by rw [hp.addr]; exact e)))
  · intro p hpn
    have := hpn _ rfl
    simp only [Obj.dats, List.flatMap_append, List.mem_append, not_or] at this
    exact .inl (hp.dat p (by simpa using this.2))
  · intro p hne
    by_cases e : p ∈ l :: xs.map (·.addr)
    · exact .inl ⟨_, hi, e⟩
    · by_cases e2 : p = m.fresh
      · exact .inr (by omega)
      · exact absurd (hp.node p e e2).symm hne
  · intro p hne
    by_cases e : p ∈ y.own.map (·.1)
    · obtain ⟨q, hq, rfl⟩ := List.mem_map.1 e
      exact .inr (hp.own q hq).1
    · exact absurd (hp.dat p e).symm hne
  · intro o e
    rw [hi] at e
    cases e
    refine ⟨fun p hp1 hp2 => absurd ?_ (hp2 _ rfl), fun p hp1 hp2 => absurd ?_ (hp2 _ rfl)⟩
    · simp only [Obj.nodes, List.map_append, List.mem_cons, List.mem_append] at hp1 ⊢
      rcases hp1 with e | e
      · exact .inl e
      · exact .inr (.inl e)
    · simp only [Obj.dats, List.flatMap_append, List.mem_append] at hp1 ⊢
      exact .inl hp1

/-- A list built on top of `m` (by a function that uses other temporary objects) becomes one of the
objects. -/
theorem Own.absorb {κ : Type} [DecidableEq κ] (h : Own m0 m g) (hw : Wf m0) (i : ι) (hi : g i = none) {k : κ → Option Obj} {j : κ}
    (h2 : Own m m' k) (hk : ∀ t, t ≠ j → k t = none) : Own m0 m' (setObj g i (k j)) := by
  have hy : ∀ t o, k t = some o → t = j := fun t o e => Decidable.byContradiction fun hne => by
    rw [hk t hne] at e; cases e
  refine h.change hw i _ h2.mono (fun x hx => h2.holds j x hx) ?_ ?_ ?_ ?_ ?_ ?_
  · intro x hx
    have := h2.young j x hx
    exact ⟨fun p hp => ⟨.inl (this.1 p hp).1, (this.1 p hp).2⟩, fun p hp => ⟨.inl (this.2 p hp).1, (this.2 p hp).2⟩⟩
  · intro p hp
    exact .inl (h2.node p fun t o e => by have := hy t o e; subst this; exact hp o e)
  · intro p hp
    exact .inl (h2.dat p fun t o e => by have := hy t o e; subst this; exact hp o e)
  · intro p hne
    apply Decidable.byContradiction
    intro hc
    have hlt : p < m.fresh := by
      have : ¬ m.fresh ≤ p := fun hh => hc (.inr hh)
      omega
    exact hne (h2.node p fun t o e hpo => by have := ((h2.young t o e).1 p hpo).1; omega).symm
  · intro p hne
    apply Decidable.byContradiction
    intro hc
    have hlt : p < m.fresh := by
      have : ¬ m.fresh ≤ p := fun hh => hc (.inr hh)
      omega
    exact hne (h2.dat p fun t o e hpo => by have := ((h2.young t o e).2 p hpo).1; omega).symm
  · intro o e; rw [hi] at e; cases e

/-- Nothing is live above the addresses handed out. -/
theorem Own.wf (h : Own m0 m g) (hw : Wf m0) : Wf m := by
  intro p hp
  refine ⟨?_, ?_⟩
  · rw [h.node p fun i o e hpo => by have := ((h.young i o e).1 p hpo).2; omega]
    exact (hw p (Nat.le_trans h.mono hp)).1
  · rw [h.dat p fun i o e hpo => by have := ((h.young i o e).2 p hpo).2; omega]
    exact (hw p (Nat.le_trans h.mono hp)).2

/-! ## Lists of values -/

/-- What a list element holds. -/
def itemView (x : Item) : List Bytes × Nat × Int := (x.own.map (·.2), x.length, x.flags)

/-- The values `load_config_value_list` collects from index `idx` on. -/
def picked (file : Ini.IniFile) (sec key : Bytes) : Nat → Nat → List Bytes
  | 0, _ => []
  | fuel + 1, idx =>
    let name := Ini.getkey file sec idx maxValue
    if name = [] then []
    else
      (if name = key ∧ Ini.gets file sec name [] iniBuffer ≠ [] then
        [Ini.gets file sec name [] iniBuffer] else []) ++ picked file sec key fuel (idx + 1)

/-- An element made of a value. -/
def valueView (v : Bytes) : List Bytes × Nat × Int := ([v ++ [0]], v.length + 1, 0)

/-- The blocks in use inside `load_config_value_list`. -/
inductive Tmp where
  | list | store | value
deriving DecidableEq

def tmpObj (l : Nat) (xs : List Item) (s : Nat) (b : Bytes) : Tmp → Option Obj
  | .list => some (.list l xs)
  | .store => some (.str s b)
  | .value => none

def onlyList (l : Nat) (xs : List Item) : Tmp → Option Obj
  | .list => some (.list l xs)
  | _ => none

theorem gets_short (file : Ini.IniFile) (sec key dflt : Bytes) (size : Nat) :
    (Ini.gets file sec key dflt size).length ≤ size - 1 := by
  unfold Ini.gets; rw [List.length_take]; omega

theorem textBlock_take {size : Nat} {v : Bytes} (h : v.length < size) : (textBlock size v).take (v.length + 1) = v ++ [0] := by
  unfold textBlock
  obtain ⟨k, hk⟩ : ∃ k, size - v.length = k + 1 := ⟨size - v.length - 1, by omega⟩
  rw [hk, List.replicate_succ, List.take_append]
  simp [List.take_of_length_le]

theorem valueLoop_own {al : Nat → Bool} {file : Ini.IniFile} {sec key : Bytes} {l s : Nat} {b : Bytes} {m0 : Mem}
    (hw : Wf m0) (hal : ∀ i, al (3 * i + 1) = false ∨ al (3 * i + 2) = true) :
    ∀ (fuel idx : Nat) (m : Mem) (xs : List Item), Own m0 m (tmpObj l xs s b) →
      (∃ j, j < fuel ∧ Ini.getkey file sec (idx + j) maxValue = []) →
      ∃ m' ok, valueLoop al file sec key l s fuel idx m = .ok (m', ok) ∧
        (ok = true → ∃ ys, Own m0 m' (onlyList l (xs ++ ys)) ∧
          ys.map itemView = (picked file sec key fuel idx).map valueView) ∧
        (ok = false → Own m0 m' (fun _ : Tmp => none)) ∧
        ((∀ k, al k = true) → ok = true)
  | 0, _, _, _, _, ⟨j, hj, _⟩ => by omega
  | fuel + 1, idx, m, xs, h, ⟨j, hj, hend⟩ => by
    have leave : ∀ {m : Mem} {xs : List Item}, Own m0 m (tmpObj l xs s b) →
        ∃ m', ((m.freeData s).bind fun m => (freeList m (some l)).bind fun m => .ok (m, false)) = .ok (m', false) ∧
          Own m0 m' (fun _ : Tmp => none) := by
      intro m xs h
      obtain ⟨m1, e1, -, h1⟩ := h.freeStr hw .store rfl
      obtain ⟨m2, e2, -, h2⟩ := h1.freeLst hw .list (l := l) (xs := xs) rfl
      refine ⟨m2, by rw [e1, bind'_ok, e2, bind'_ok], ?_⟩
      have : setObj (setObj (tmpObj l xs s b) .store none) .list none = fun _ : Tmp => none := by
        funext t; cases t <;> rfl
      rwa [this] at h2
    simp only [valueLoop, picked]
    by_cases hn : Ini.getkey file sec idx maxValue = []
    · rw [if_pos hn, if_pos hn]
      obtain ⟨m1, e1, -, h1⟩ := h.freeStr hw .store rfl
      refine ⟨m1, true, by rw [e1, bind'_ok], fun _ => ⟨[], ?_, rfl⟩, nofun, fun _ => rfl⟩
      have : setObj (tmpObj l xs s b) .store none = onlyList l (xs ++ []) := by
        funext t; cases t <;> simp [setObj, tmpObj, onlyList]
      rwa [this] at h1
    · rw [if_neg hn, if_neg hn]
      have hj0 : j ≠ 0 := by rintro rfl; exact hn hend
      have hrest : ∃ j, j < fuel ∧ Ini.getkey file sec (idx + 1 + j) maxValue = [] :=
        ⟨j - 1, by omega, by rw [show idx + 1 + (j - 1) = idx + j by omega]; exact hend⟩
      cases h0 : al (3 * idx) with
      | false =>
        obtain ⟨m', e, ho⟩ := leave h
        refine ⟨m', false, ?_, nofun, fun _ => ho, fun ha => ?_⟩
        · rw [if_neg (by simp)]; exact e
        · rw [ha] at h0; cases h0
      | true =>
        rw [if_pos rfl]
        generalize hv : Ini.gets file sec (Ini.getkey file sec idx maxValue) [] iniBuffer = value
        have hvl : value.length ≤ 511 := by
          have := gets_short file sec (Ini.getkey file sec idx maxValue) [] iniBuffer
          rw [hv] at this; exact this
        have h1 := h.new hw .value rfl (textBlock maxValue value)
        -- what remains once the value is released
        have back : ∀ {m : Mem} {ys : List Item} {q : Nat} {c : Bytes},
            Own m0 m (setObj (tmpObj l ys s b) .value (some (.str q c))) →
            ∃ m', m.freeData q = .ok m' ∧ Own m0 m' (tmpObj l ys s b) := by
          intro m ys q c ho
          obtain ⟨m1, e1, -, h1⟩ := ho.freeStr hw .value (p := q) (b := c) rfl
          refine ⟨m1, e1, ?_⟩
          have : setObj (setObj (tmpObj l ys s b) .value (some (.str q c))) .value none = tmpObj l ys s b := by
            funext t; cases t <;> rfl
          rwa [this] at h1
        by_cases hk : Ini.getkey file sec idx maxValue = key ∧ value ≠ []
        · rw [if_pos hk, if_pos hk]
          cases ha1 : al (3 * idx + 1 + 0) with
          | false =>
            obtain ⟨m2, e2, h2⟩ := back h1
            obtain ⟨m3, e3, h3⟩ := leave h2
            have ep : pushArray (fun k => al (3 * idx + 1 + k)) (m.newData (textBlock maxValue value)).1 (some l)
                (some (textBlock maxValue value)) (value.length + 1) 0 =
                .ok ((m.newData (textBlock maxValue value)).1, false) := by
              simp only [pushArray, ha1]
              rw [if_neg (by simp)]
            refine ⟨m3, false, ?_, nofun, fun _ => h3, fun ha => ?_⟩
            · rw [ep, bind'_ok]
              have : (m.newData (textBlock maxValue value)).2 = m.fresh := rfl
              simp only [this, e2, bind'_ok]
              rw [if_neg (by simp)]
              exact e3
            · rw [ha] at ha1; cases ha1
          | true =>
            have ha2 : al (3 * idx + 1 + 1) = true := by
              rcases hal idx with h | h
              · rw [Nat.add_zero, h] at ha1; cases ha1
              · exact h
            obtain ⟨m2, e2, hp⟩ := pushArray_rep (h1.holds .list (.list l xs) rfl)
              (fun k => al (3 * idx + 1 + k)) ha1 ha2 (textBlock maxValue value) (value.length + 1) 0
              (by simp [textBlock, maxValue]; omega)
            have h2 := h1.push hw .list (l := l) (xs := xs) rfl hp
            rw [textBlock_take (by simp [maxValue]; omega)] at h2
            generalize hy : Item.mk _ _ _ _ = y at h2
            have hyv : itemView y = valueView value := by subst hy; rfl
            have : setObj (setObj (tmpObj l xs s b) .value (some (.str m.fresh (textBlock maxValue value)))) .list
                (some (.list l (xs ++ [y]))) =
                setObj (tmpObj l (xs ++ [y]) s b) .value (some (.str m.fresh (textBlock maxValue value))) := by
              funext t; cases t <;> rfl
            rw [this] at h2
            obtain ⟨m3, e3, h3⟩ := back h2
            obtain ⟨m4, ok, e4, hok, hno, hall⟩ := valueLoop_own hw hal fuel (idx + 1) m3 (xs ++ [y]) h3 hrest
            refine ⟨m4, ok, ?_, ?_, hno, hall⟩
            · rw [e2, bind'_ok]
              have : (m.newData (textBlock maxValue value)).2 = m.fresh := rfl
              simp only [this, e3, bind'_ok, if_true]
              exact e4
            · intro h
              obtain ⟨ys, ho, hys⟩ := hok h
              refine ⟨y :: ys, by simpa using ho, ?_⟩
              rw [List.map_cons, hyv, hys]
              rfl
        · rw [if_neg hk, if_neg hk, bind'_ok]
          obtain ⟨m2, e2, h2⟩ := back h1
          obtain ⟨m4, ok, e4, hok, hno, hall⟩ := valueLoop_own hw hal fuel (idx + 1) m2 xs h2 hrest
          refine ⟨m4, ok, ?_, ?_, hno, hall⟩
          · have : (m.newData (textBlock maxValue value)).2 = m.fresh := rfl
            simp only [this, e2, bind'_ok, if_true]
            exact e4
          · simpa using hok

theorem nthKey_none : ∀ (ls : Ini.IniFile) (n : Nat), ls.length ≤ n → Ini.nthKey n ls = none
  | [], _, _ => by simp [Ini.nthKey]
  | .section _ :: _, _, _ => by simp [Ini.nthKey]
  | .bracket :: _, _, _ => by simp [Ini.nthKey]
  | .other :: ls, n, h => by
    simp only [Ini.nthKey]
    exact nthKey_none ls n (by simp only [List.length_cons] at h; omega)
  | .entry _ _ :: ls, 0, h => by simp at h
  | .entry _ _ :: ls, n + 1, h => by
    simp only [Ini.nthKey]
    exact nthKey_none ls n (by simp only [List.length_cons] at h; omega)

theorem findSection_length {name : Bytes} : ∀ {file ls : Ini.IniFile}, Ini.findSection name file = some ls →
    ls.length < file.length
  | [], _, h => by simp [Ini.findSection] at h
  | .section n :: rest, ls, h => by
    simp only [Ini.findSection] at h
    split at h
    · cases h; simp
    · have := findSection_length h; simp only [List.length_cons]; omega
  | .bracket :: rest, ls, h => by have := findSection_length (file := rest) h; simp only [List.length_cons]; omega
  | .other :: rest, ls, h => by have := findSection_length (file := rest) h; simp only [List.length_cons]; omega
  | .entry _ _ :: rest, ls, h => by have := findSection_length (file := rest) h; simp only [List.length_cons]; omega

theorem getkey_end (file : Ini.IniFile) (sec : Bytes) : Ini.getkey file sec file.length maxValue = [] := by
  unfold Ini.getkey
  cases h : Ini.findSection sec file with
  | none => simp
  | some ls =>
    have := findSection_length h
    simp [nthKey_none ls file.length (by omega)]

/-- All values collected. -/
def pickedAll (file : Ini.IniFile) (sec key : Bytes) : List Bytes := picked file sec key (file.length + 1) 0

/-- No allocation fails between an element and its copy. -/
def ListAlloc (al : Nat → Bool) : Prop := ∀ i, al (3 * i + 3) = false ∨ al (3 * i + 4) = true

theorem loadValueList_own {al : Nat → Bool} {file : Ini.IniFile} {sec key : Bytes} {m : Mem}
    (hw : Wf m) (hal : al 0 = false ∨ al 1 = false ∨ ListAlloc al) :
    ∃ m' p ok, loadValueList al file sec key m = .ok (m', p, ok) ∧
      (ok = true → ∃ l ys, p = some l ∧ Own m m' (onlyList l ys) ∧
        ys.map itemView = (pickedAll file sec key).map valueView) ∧
      (ok = false → Own m m' (fun _ : Tmp => none)) ∧
      ((∀ k, al k = true) → ok = true) ∧
      (al 0 = false ∨ al 1 = false → ok = false ∧ p = none) := by
  unfold loadValueList
  cases h0 : al 0 with
  | false =>
    refine ⟨m, none, false, by simp, nofun, fun _ => own_nil m, fun h => ?_, fun _ => ⟨rfl, rfl⟩⟩
    rw [h] at h0; cases h0
  | true =>
    rw [if_pos rfl]
    have h1 := (own_nil (ι := Tmp) m).new hw .store rfl (List.replicate maxValue 0)
    cases ha : al 1 with
    | false =>
      obtain ⟨m2, e2, -, h2⟩ := h1.freeStr hw .store rfl
      refine ⟨m2, none, false, ?_, nofun, fun _ => ?_, fun h => ?_, fun _ => ⟨rfl, rfl⟩⟩
      · simp only [initList, Bool.false_eq_true, if_false, bind'_ok]
        have : (m.newData (List.replicate maxValue 0)).2 = m.fresh := rfl
        rw [this, e2, bind'_ok]
      · have : setObj (setObj (fun _ : Tmp => none) .store (some (.str m.fresh (List.replicate maxValue 0)))) .store none =
            fun _ : Tmp => none := by funext t; cases t <;> rfl
        rwa [this] at h2
      · rw [h] at ha; cases ha
    | true =>
      have hal : ListAlloc al := by simpa [h0, ha] using hal
      obtain ⟨m2, e2, h2⟩ := h1.newList hw .list rfl
      have hg : setObj (setObj (fun _ : Tmp => none) .store (some (.str m.fresh (List.replicate maxValue 0)))) .list
          (some (.list (m.newData (List.replicate maxValue 0)).1.fresh [])) =
          tmpObj (m.newData (List.replicate maxValue 0)).1.fresh [] m.fresh (List.replicate maxValue 0) := by
        funext t; cases t <;> rfl
      rw [hg] at h2
      obtain ⟨m3, ok, e3, hok, hno, hall⟩ := valueLoop_own (al := fun k => al (k + 2)) (key := key) hw hal (file.length + 1) 0 m2 [] h2
        ⟨file.length, by omega, by rw [Nat.zero_add]; exact getkey_end file sec⟩
      refine ⟨m3, some (m.newData (List.replicate maxValue 0)).1.fresh, ok, ?_, ?_, hno, fun h => hall fun k => h _, ?_⟩
      · have : (m.newData (List.replicate maxValue 0)).2 = m.fresh := rfl
        simp only [e2, bind'_ok, this, e3]
      · intro h
        obtain ⟨ys, ho, hys⟩ := hok h
        exact ⟨_, ys, rfl, by simpa using ho, hys⟩
      · simp

/-! ## Sections -/

/-- The pointers of a configuration are those of the objects. -/
structure Match (c : Conf) (g : Slot → Option Obj) : Prop where
  ptr : ∀ t, c t = (g t).map Obj.ptr
  strs : ∀ s f o, g (.str s f) = some o → ∃ p b, o = .str p b
  lists : ∀ s f o, g (.list s f) = some o → ∃ l xs, o = .list l xs

theorem match_set {c : Conf} {g : Slot → Option Obj} (h : Match c g) (t : Slot) (o : Option Obj)
    (hs : ∀ s f x, t = .str s f → o = some x → ∃ p b, x = .str p b)
    (hl : ∀ s f x, t = .list s f → o = some x → ∃ l xs, x = .list l xs) :
    Match (c.put t (o.map Obj.ptr)) (setObj g t o) := by
  refine ⟨fun u => ?_, fun s f x e => ?_, fun s f x e => ?_⟩
  · unfold Conf.put setObj
    split
    · rfl
    · exact h.ptr u
  · unfold setObj at e
    split at e
    · rename_i hu; exact hs s f x hu.symm e
    · exact h.strs s f x e
  · unfold setObj at e
    split at e
    · rename_i hu; exact hl s f x hu.symm e
    · exact h.lists s f x e

theorem match_none {c : Conf} {g : Slot → Option Obj} (h : Match c g) (t : Slot) :
    Match (c.put t none) (setObj g t none) := match_set h t none nofun nofun

theorem freeSlot_own {m0 m : Mem} {c : Conf} {g : Slot → Option Obj} (h : Own m0 m g) (hw : Wf m0) (hm : Match c g)
    (t : Slot) : ∃ m', freeSlot m c t = .ok (m', c.put t none) ∧ Own m0 m' (setObj g t none) := by
  have same : g t = none → setObj g t none = g := by
    intro e; funext u; unfold setObj; split
    · rename_i hu; rw [hu, e]
    · rfl
  have samec : c t = none → c.put t none = c := by
    intro e; funext u; unfold Conf.put; split
    · rename_i hu; rw [hu, e]
    · rfl
  have hp := hm.ptr t
  cases hg : g t with
  | none =>
    rw [hg] at hp
    rw [same hg, samec hp]
    refine ⟨m, ?_, h⟩
    cases t with
    | str s f => simp only [freeSlot]; rw [hp]; rfl
    | list s f =>
      simp only [freeSlot]
      rw [hp]
      simp only [Option.map_none, freeList, bind'_ok, samec hp]
  | some o =>
    rw [hg] at hp
    cases t with
    | str s f =>
      obtain ⟨p, b, rfl⟩ := hm.strs s f o hg
      obtain ⟨m', e, -, ho⟩ := h.freeStr hw _ hg
      refine ⟨m', ?_, ho⟩
      simp only [freeSlot]
      rw [hp]
      simp only [Option.map_some, Obj.ptr, e, bind'_ok]
    | list s f =>
      obtain ⟨l, xs, rfl⟩ := hm.lists s f o hg
      obtain ⟨m', e, -, ho⟩ := h.freeLst hw _ hg
      refine ⟨m', ?_, ho⟩
      simp only [freeSlot]
      rw [hp]
      simp only [Option.map_some, Obj.ptr, e, bind'_ok]

/-- The objects left after the release of some members. -/
def without (ss : List Slot) (g : Slot → Option Obj) : Slot → Option Obj := fun t => if t ∈ ss then none else g t

theorem freeSlots_own {m0 : Mem} (hw : Wf m0) : ∀ (ss : List Slot) {m : Mem} {c : Conf} {g : Slot → Option Obj},
    Own m0 m g → Match c g → ∃ m' c', freeSlots m c ss = .ok (m', c') ∧ Own m0 m' (without ss g) ∧ Match c' (without ss g)
  | [], m, c, g, h, hm => by
    have : without [] g = g := by funext t; simp [without]
    exact ⟨m, c, rfl, by rw [this]; exact h, by rw [this]; exact hm⟩
  | t :: ss, m, c, g, h, hm => by
    obtain ⟨m1, e1, h1⟩ := freeSlot_own h hw hm t
    obtain ⟨m2, c2, e2, h2, hm2⟩ := freeSlots_own hw ss h1 (match_none hm t)
    have : without ss (setObj g t none) = without (t :: ss) g := by
      funext u
      unfold without setObj
      by_cases h1 : u ∈ ss <;> by_cases h2 : u = t <;> simp [h1, h2]
    rw [this] at h2 hm2
    exact ⟨m2, c2, by simp only [freeSlots, e1, bind'_ok, e2], h2, hm2⟩

/-- A string member read from the file. -/
def Reads (o : Option Obj) (size : Nat) (value : Bytes) : Prop :=
  (value = [] ∧ o = none) ∨ (value ≠ [] ∧ ∃ p, o = some (.str p (textBlock size value)))

/-- A list member read from the file. -/
def Lists (o : Option Obj) (vals : List Bytes) : Prop :=
  ∃ l ys, o = some (.list l ys) ∧ ys.map itemView = vals.map valueView

theorem loadStrLoop_own {al : Nat → Bool} {file : Ini.IniFile} {s : Sec} {m0 : Mem} (hw : Wf m0) :
    ∀ (ds : List StrSpec) (k : Nat) {m : Mem} {c : Conf} {g : Slot → Option Obj}, Own m0 m g → Match c g →
      (ds.map (·.field)).Nodup → (∀ d ∈ ds, g (.str s d.field) = none) →
      ∃ m' c' ok g', loadStrLoop al file s k ds m c = .ok (m', c', ok) ∧ Own m0 m' g' ∧ Match c' g' ∧
        (∀ t, (∀ d ∈ ds, t ≠ .str s d.field) → g' t = g t) ∧
        (ok = true → ∀ d ∈ ds, Reads (g' (.str s d.field)) d.size (Ini.gets file (secName s) d.key d.dflt d.size)) ∧
        ((∀ k, al k = true) → ok = true)
  | [], k, m, c, g, h, hm, _, _ =>
    ⟨m, c, true, g, rfl, h, hm, fun _ _ => rfl, (fun _ d hd => by cases hd), fun _ => rfl⟩
  | d :: ds, k, m, c, g, h, hm, hnd, hfree => by
    simp only [loadStrLoop]
    cases h0 : al k with
    | false =>
      exact ⟨m, c, false, g, by rw [if_neg (by simp)], h, hm, fun _ _ => rfl, nofun,
        (fun ha => by rw [ha] at h0; cases h0)⟩
    | true =>
      rw [if_pos rfl]
      simp only [List.map_cons, List.nodup_cons] at hnd
      have hslot : ∀ d' ∈ ds, Slot.str s d'.field ≠ .str s d.field := by
        intro d' hd' e
        injection e with _ e
        exact hnd.1 (List.mem_map.2 ⟨d', hd', e⟩)
      have h1 := h.new hw (.str s d.field) (hfree d (by simp)) (textBlock d.size (Ini.gets file (secName s) d.key d.dflt d.size))
      by_cases hv : Ini.gets file (secName s) d.key d.dflt d.size = []
      · rw [if_pos hv]
        obtain ⟨m2, e2, -, h2⟩ := h1.freeStr hw (.str s d.field) (p := m.fresh)
          (b := textBlock d.size (Ini.gets file (secName s) d.key d.dflt d.size)) (by simp [setObj])
        have hg : setObj (setObj g (.str s d.field) (some (.str m.fresh (textBlock d.size (Ini.gets file (secName s) d.key d.dflt d.size)))))
            (.str s d.field) none = setObj g (.str s d.field) none := by
          funext t; unfold setObj; split <;> rfl
        rw [hg] at h2
        obtain ⟨m3, c3, ok, g3, e3, h3, hm3, hrest, hok, hall⟩ := loadStrLoop_own hw ds (k + 1) h2 (match_none hm (.str s d.field)) hnd.2
          (fun d' hd' => by
            unfold setObj
            rw [if_neg (hslot d' hd')]
            exact hfree d' (by simp [hd']))
        refine ⟨m3, c3, ok, g3, ?_, h3, hm3, ?_, ?_, hall⟩
        · have : (m.newData (textBlock d.size (Ini.gets file (secName s) d.key d.dflt d.size))).2 = m.fresh := rfl
          rw [this, e2, bind'_ok, e3]
        · intro t ht
          rw [hrest t fun d' hd' => ht d' (by simp [hd'])]
          unfold setObj
          rw [if_neg (ht d (by simp))]
        · intro h d' hd'
          rcases List.mem_cons.1 hd' with rfl | hd'
          · refine .inl ⟨hv, ?_⟩
            rw [hrest _ fun d'' hd'' e => hslot d'' hd'' e.symm]
            simp [setObj]
          · exact hok h d' hd'
      · rw [if_neg hv]
        have hm1 := match_set hm (.str s d.field) (some (.str m.fresh (textBlock d.size (Ini.gets file (secName s) d.key d.dflt d.size))))
          (by rintro _ _ x - ⟨⟩; exact ⟨_, _, rfl⟩) (by rintro _ _ _ ⟨⟩)
        obtain ⟨m3, c3, ok, g3, e3, h3, hm3, hrest, hok, hall⟩ := loadStrLoop_own hw ds (k + 1) h1 hm1 hnd.2
          (fun d' hd' => by
            unfold setObj
            rw [if_neg (hslot d' hd')]
            exact hfree d' (by simp [hd']))
        refine ⟨m3, c3, ok, g3, e3, h3, hm3, ?_, ?_, hall⟩
        · intro t ht
          rw [hrest t fun d' hd' => ht d' (by simp [hd'])]
          unfold setObj
          rw [if_neg (ht d (by simp))]
        · intro h d' hd'
          rcases List.mem_cons.1 hd' with rfl | hd'
          · refine .inr ⟨hv, m.fresh, ?_⟩
            rw [hrest _ fun d'' hd'' e => hslot d'' hd'' e.symm]
            simp [setObj]
          · exact hok h d' hd'

/-- The list loads fail cleanly or not at all. -/
def CleanList (al : Nat → Bool) : Prop := al 0 = false ∨ al 1 = false ∨ ∀ k, al k = true

theorem loadListLoop_own {al : LField → Nat → Bool} {file : Ini.IniFile} {s : Sec} {m0 : Mem} (hw : Wf m0)
    (hal : ∀ l, CleanList (al l)) :
    ∀ (ls : List LField) {m : Mem} {c : Conf} {g : Slot → Option Obj}, Own m0 m g → Match c g →
      ls.Nodup → (∀ l ∈ ls, g (.list s l) = none) →
      ∃ m' c' ok g', loadListLoop al file s ls m c = .ok (m', c', ok) ∧ Own m0 m' g' ∧ Match c' g' ∧
        (∀ t, (∀ l ∈ ls, t ≠ .list s l) → g' t = g t) ∧
        (ok = true → ∀ l ∈ ls, Lists (g' (.list s l)) (pickedAll file (secName s) (listKey l))) ∧
        ((∀ l k, al l k = true) → ok = true)
  | [], m, c, g, h, hm, _, _ =>
    ⟨m, c, true, g, rfl, h, hm, fun _ _ => rfl, (fun _ d hd => by cases hd), fun _ => rfl⟩
  | l :: ls, m, c, g, h, hm, hnd, hfree => by
    simp only [List.nodup_cons] at hnd
    have hslot : ∀ l' ∈ ls, Slot.list s l' ≠ .list s l := by
      intro l' hl' e
      injection e with _ e
      exact hnd.1 (e ▸ hl')
    have hla : al l 0 = false ∨ al l 1 = false ∨ ListAlloc (al l) := by
      rcases hal l with h | h | h
      · exact .inl h
      · exact .inr (.inl h)
      · exact .inr (.inr fun i => .inr (h _))
    obtain ⟨m1, p, ok, e1, hok, hno, hall, hnull⟩ := loadValueList_own (file := file) (sec := secName s) (key := listKey l) (h.wf hw) hla
    cases ok with
    | false =>
      have hp : p = none := by
        rcases hal l with h | h | h
        · exact (hnull (.inl h)).2
        · exact (hnull (.inr h)).2
        · exact absurd (hall h) (by simp)
      subst hp
      have h1 := h.absorb hw (.list s l) (hfree l (by simp)) (j := Tmp.list) (hno rfl) (fun _ _ => rfl)
      refine ⟨m1, c.put (.list s l) none, false, setObj g (.list s l) none, ?_, h1, match_none hm _, ?_, nofun, ?_⟩
      · simp only [loadListLoop, e1, bind'_ok]
        rw [if_neg (by simp)]
      · intro t ht
        unfold setObj
        rw [if_neg (ht l (by simp))]
      · intro ha; exact absurd (hall (ha l)) (by simp)
    | true =>
      obtain ⟨q, ys, rfl, ho, hys⟩ := hok rfl
      have h1 := h.absorb hw (.list s l) (hfree l (by simp)) (j := Tmp.list) ho (by intro t ht; cases t <;> simp_all [onlyList])
      have hm1 := match_set hm (.list s l) (onlyList q ys .list) (by rintro _ _ _ ⟨⟩) (by rintro _ _ x - ⟨⟩; exact ⟨_, _, rfl⟩)
      obtain ⟨m3, c3, ok, g3, e3, h3, hm3, hrest, hok3, hall3⟩ := loadListLoop_own hw hal ls h1 hm1 hnd.2
          (fun d' hd' => by
            unfold setObj
            rw [if_neg (hslot d' hd')]
            exact hfree d' (by simp [hd']))
      refine ⟨m3, c3, ok, g3, ?_, h3, hm3, ?_, ?_, hall3⟩
      · simp only [loadListLoop, e1, bind'_ok, if_true]
        exact e3
      · intro t ht
        rw [hrest t fun d' hd' => ht d' (by simp [hd'])]
        unfold setObj
        rw [if_neg (ht l (by simp))]
      · intro h d' hd'
        rcases List.mem_cons.1 hd' with rfl | hd'
        · refine ⟨q, ys, ?_, hys⟩
          rw [hrest _ fun d'' hd'' e => hslot d'' hd'' e.symm]
          simp [setObj, onlyList]
        · exact hok3 h d' hd'

/-- A section is loaded as the file says. -/
def Loaded (file : Ini.IniFile) (s : Sec) (g : Slot → Option Obj) : Prop :=
  (∀ d ∈ loadStrs s, Reads (g (.str s d.field)) d.size (Ini.gets file (secName s) d.key d.dflt d.size)) ∧
  ∀ l, Lists (g (.list s l)) (pickedAll file (secName s) (listKey l))

theorem loadStrs_nodup : ∀ s, ((loadStrs s).map (·.field)).Nodup := by intro s; cases s <;> decide

theorem loadStrs_slots : ∀ s, ∀ d ∈ loadStrs s, Slot.str s d.field ∈ sectionSlots s := by
  have : ∀ s, ∀ f ∈ (loadStrs s).map (·.field), f ∈ freeStrs s := by intro s; cases s <;> decide
  intro s d hd
  exact List.mem_append_left _ (List.mem_map.2 ⟨d.field, this s _ (List.mem_map.2 ⟨d, hd, rfl⟩), rfl⟩)

theorem list_slots (s : Sec) (l : LField) : Slot.list s l ∈ sectionSlots s :=
  List.mem_append_right _ (by cases l <;> simp)

theorem mem_sectionSlots {s s' : Sec} (hne : s ≠ s') : ∀ t ∈ sectionSlots s, t ∉ sectionSlots s' := by
  intro t h h'
  simp only [sectionSlots, List.mem_append, List.mem_map, List.mem_cons, List.not_mem_nil, or_false] at h h'
  rcases h with ⟨f, -, rfl⟩ | rfl | rfl | rfl <;> rcases h' with ⟨f', -, e⟩ | e | e | e <;>
    first | cases e | (injection e; first | contradiction | (rename_i e _; exact hne e.symm) | (rename_i e _; exact hne e))
  all_goals exact hne rfl

theorem loadSection_own {al : Alloc} {file : Ini.IniFile} {s : Sec} {m0 m : Mem} {c : Conf} {g : Slot → Option Obj}
    (hw : Wf m0) (hal : ∀ l, CleanList (al.list l)) (h : Own m0 m g) (hm : Match c g) (hfree : ∀ t ∈ sectionSlots s, g t = none) :
    ∃ m' c' ok g', loadSection al file s m c = .ok (m', c', ok) ∧ Own m0 m' g' ∧ Match c' g' ∧
      (∀ t, t ∉ sectionSlots s → g' t = g t) ∧
      (ok = true → Loaded file s g') ∧ (ok = false → g' = g) ∧
      ((∀ k, al.str k = true) → (∀ l k, al.list l k = true) → ok = true) := by
  obtain ⟨m1, c1, ok1, g1, e1, h1, hm1, hr1, hok1, hall1⟩ := loadStrLoop_own (al := al.str) (file := file) (s := s) hw (loadStrs s) 0 h hm
    (loadStrs_nodup s) (fun d hd => hfree _ (loadStrs_slots s d hd))
  have fail : ∀ {m1 : Mem} {c1 : Conf} {g1 : Slot → Option Obj}, Own m0 m1 g1 → Match c1 g1 → (∀ t, t ∉ sectionSlots s → g1 t = g t) →
      ∃ m' c', ((freeSection m1 c1 s).bind fun q => .ok (q.1, q.2, false)) = .ok (m', c', false) ∧ Own m0 m' g ∧ Match c' g := by
    intro m1 c1 g1 h1 hm1 hr1
    obtain ⟨m2, c2, e2, h2, hm2⟩ := freeSlots_own hw (sectionSlots s) h1 hm1
    have : without (sectionSlots s) g1 = g := by
      funext t
      unfold without
      split
      · rename_i ht; exact (hfree t ht).symm
      · rename_i ht; exact hr1 t ht
    rw [this] at h2 hm2
    exact ⟨m2, c2, by unfold freeSection; rw [e2, bind'_ok], h2, hm2⟩
  have hr1' : ∀ t, t ∉ sectionSlots s → g1 t = g t := fun t ht => hr1 t (by rintro d hd rfl; exact ht (loadStrs_slots s d hd))
  unfold loadSection
  rw [e1, bind'_ok]
  cases ok1 with
  | false =>
    obtain ⟨m2, c2, e2, h2, hm2⟩ := fail h1 hm1 hr1'
    refine ⟨m2, c2, false, g, ?_, h2, hm2, fun _ _ => rfl, nofun, fun _ => rfl, fun ha _ => absurd (hall1 ha) (by simp)⟩
    simp only [Bool.false_eq_true, if_false]
    exact e2
  | true =>
    obtain ⟨m3, c3, ok3, g3, e3, h3, hm3, hr3, hok3, hall3⟩ := loadListLoop_own (al := al.list) (file := file) (s := s) hw hal
      [.add, .verifyCerts, .verifyStore] h1 hm1 (by decide) (by
        intro l _
        rw [hr1 _ (by intro d _ e; cases e)]
        exact hfree _ (list_slots s l))
    have hr3' : ∀ t, t ∉ sectionSlots s → g3 t = g t := fun t ht => by
      rw [hr3 t (by rintro l _ rfl; exact ht (list_slots s l)), hr1' t ht]
    simp only [if_true]
    rw [e3, bind'_ok]
    cases ok3 with
    | false =>
      obtain ⟨m2, c2, e2, h2, hm2⟩ := fail h3 hm3 hr3'
      refine ⟨m2, c2, false, g, ?_, h2, hm2, fun _ _ => rfl, nofun, fun _ => rfl, fun _ ha => absurd (hall3 ha) (by simp)⟩
      simp only [Bool.false_eq_true, if_false]
      exact e2
    | true =>
      refine ⟨m3, c3, true, g3, rfl, h3, hm3, hr3', fun _ => ⟨fun d hd => ?_, fun l => hok3 rfl l (by cases l <;> simp)⟩, nofun, fun _ _ => rfl⟩
      rw [hr3 _ (by intro l _ e; cases e)]
      exact hok1 rfl d hd

/-! ## The whole configuration -/

theorem freeConfig_own {m0 m : Mem} {c : Conf} {g : Slot → Option Obj} (hw : Wf m0) (h : Own m0 m g) (hm : Match c g)
    (hall : ∀ t, (∀ s, t ∉ sectionSlots s) → g t = none) :
    ∃ m' c', freeConfig m c = .ok (m', c') ∧ Own m0 m' (fun _ : Slot => none) ∧ Match c' (fun _ => none) := by
  obtain ⟨m1, c1, e1, h1, hm1⟩ := freeSlots_own hw (sectionSlots .pledge) h hm
  obtain ⟨m2, c2, e2, h2, hm2⟩ := freeSlots_own hw (sectionSlots .registrar) h1 hm1
  obtain ⟨m3, c3, e3, h3, hm3⟩ := freeSlots_own hw (sectionSlots .masa) h2 hm2
  have : without (sectionSlots .masa) (without (sectionSlots .registrar) (without (sectionSlots .pledge) g)) = fun _ => none := by
    funext t
    by_cases h1 : t ∈ sectionSlots .masa
    · simp [without, h1]
    · by_cases h2 : t ∈ sectionSlots .registrar
      · simp [without, h1, h2]
      · by_cases h3 : t ∈ sectionSlots .pledge
        · simp [without, h1, h2, h3]
        · simp only [without, h1, h2, h3, if_false]
          exact hall t (by intro s; cases s <;> assumption)
  rw [this] at h3 hm3
  exact ⟨m3, c3, by simp only [freeConfig, freeSection, e1, bind'_ok, e2, e3], h3, hm3⟩

theorem loadSections_own {al : Sec → Alloc} {file : Ini.IniFile} {m0 : Mem} (hw : Wf m0)
    (hal : ∀ s l, CleanList ((al s).list l)) :
    ∀ (ss : List Sec) {m : Mem} {c : Conf} {g : Slot → Option Obj}, Own m0 m g → Match c g → ss.Nodup →
      (∀ s ∈ ss, ∀ t ∈ sectionSlots s, g t = none) → (∀ t, (∀ s, t ∉ sectionSlots s) → g t = none) →
      ∃ m' c' ok g', loadSections al file ss m c = .ok (m', c', ok) ∧ Own m0 m' g' ∧ Match c' g' ∧
        (∀ t, (∀ s, t ∉ sectionSlots s) → g' t = none) ∧
        (ok = true → (∀ t, (∀ s ∈ ss, t ∉ sectionSlots s) → g' t = g t) ∧ ∀ s ∈ ss, Loaded file s g') ∧
        (ok = false → g' = fun _ => none) ∧
        ((∀ s k, (al s).str k = true) → (∀ s l k, (al s).list l k = true) → ok = true)
  | [], m, c, g, h, hm, _, _, hout =>
    ⟨m, c, true, g, rfl, h, hm, hout, fun _ => ⟨fun _ _ => rfl, (fun _ hs => by cases hs)⟩, nofun, fun _ _ => rfl⟩
  | s :: ss, m, c, g, h, hm, hnd, hfree, hout => by
    simp only [List.nodup_cons] at hnd
    obtain ⟨m1, c1, ok1, g1, e1, h1, hm1, hr1, hok1, hno1, hall1⟩ :=
      loadSection_own (al := al s) (file := file) (s := s) hw (hal s) h hm (hfree s (by simp))
    have hout1 : ∀ t, (∀ s, t ∉ sectionSlots s) → g1 t = none := fun t ht => by rw [hr1 t (ht s)]; exact hout t ht
    simp only [loadSections, e1, bind'_ok]
    cases ok1 with
    | false =>
      obtain ⟨m2, c2, e2, h2, hm2⟩ := freeConfig_own hw h1 hm1 hout1
      refine ⟨m2, c2, false, fun _ => none, ?_, h2, hm2, fun _ _ => rfl, nofun, fun _ => rfl,
        fun ha hb => absurd (hall1 (ha s) (hb s)) (by simp)⟩
      simp only [Bool.false_eq_true, if_false, e2, bind'_ok]
    | true =>
      simp only [if_true]
      have hother : ∀ s' ∈ ss, ∀ t ∈ sectionSlots s', t ∉ sectionSlots s := by
        intro s' hs' t ht
        exact mem_sectionSlots (by rintro rfl; exact hnd.1 hs') t ht
      obtain ⟨m2, c2, ok2, g2, e2, h2, hm2, hout2, hok2, hno2, hall2⟩ := loadSections_own hw hal ss h1 hm1 hnd.2
        (fun s' hs' t ht => by rw [hr1 t (hother s' hs' t ht)]; exact hfree s' (by simp [hs']) t ht) hout1
      refine ⟨m2, c2, ok2, g2, e2, h2, hm2, hout2, ?_, hno2, hall2⟩
      intro hok
      obtain ⟨k1, k2⟩ := hok2 hok
      refine ⟨fun t ht => ?_, fun s' hs' => ?_⟩
      · rw [k1 t fun s' hs' => ht s' (by simp [hs']), hr1 t (ht s (by simp))]
      · rcases List.mem_cons.1 hs' with rfl | hs'
        · have same : ∀ t ∈ sectionSlots s', g2 t = g1 t := fun t ht =>
            k1 t fun s'' hs'' hc => hother s'' hs'' t hc ht
          refine ⟨fun d hd => ?_, fun l => ?_⟩
          · rw [same _ (loadStrs_slots s' d hd)]; exact (hok1 rfl).1 d hd
          · rw [same _ (list_slots s' l)]; exact (hok1 rfl).2 l
        · exact k2 s' hs'

theorem loadConfig_own {al : Sec → Alloc} {file : Option Ini.IniFile} {m0 : Mem} (hw : Wf m0)
    (hal : ∀ s l, CleanList ((al s).list l)) :
    ∃ m' c' ok g', loadConfig al file m0 (fun _ => none) = .ok (m', c', ok) ∧ Own m0 m' g' ∧ Match c' g' ∧
      (∀ t, (∀ s, t ∉ sectionSlots s) → g' t = none) ∧
      (ok = true → ∃ f, file = some f ∧ ∀ s, Loaded f s g') ∧
      (ok = false → g' = fun _ => none) ∧
      ((∀ s k, (al s).str k = true) → (∀ s l k, (al s).list l k = true) → file ≠ none → ok = true) := by
  have hm : Match (fun _ => none) (fun _ : Slot => none) := ⟨fun _ => rfl, nofun, nofun⟩
  cases file with
  | none => exact ⟨m0, _, false, fun _ => none, rfl, own_nil m0, hm, fun _ _ => rfl, nofun, fun _ => rfl, fun _ _ h => absurd rfl h⟩
  | some f =>
    obtain ⟨m2, c2, ok2, g2, e2, h2, hm2, hout2, hok2, hno2, hall2⟩ := loadSections_own (al := al) (file := f) hw hal
      [.pledge, .registrar, .masa] (own_nil m0) hm (by decide) (fun _ _ _ _ => rfl) (fun _ _ => rfl)
    exact ⟨m2, c2, ok2, g2, e2, h2, hm2, hout2, fun h => ⟨f, rfl, fun s => (hok2 h).2 s (by cases s <;> simp)⟩, hno2,
      fun a b _ => hall2 a b⟩

end Brski.Config
