import Verif.DlList

/-!
# Lemmas about the doubly linked lists
-/

namespace Brski.DlList
open Outcome

/-! ## Single steps -/

theorem get_of {m : Mem} {p : Nat} {n : Node} (h : m.node p = some n) : m.get (some p) = .ok n := by
  simp [Mem.get, h]

theorem upd_of {m : Mem} {p : Nat} {n : Node} (f : Node → Node) (h : m.node p = some n) :
    m.upd (some p) f = .ok { m with node := fun q => if q = p then some (f n) else m.node q } := by
  simp [Mem.upd, h]

/-- Nodes after linking `y` between `a` and `b`. -/
def linkNode (m : Mem) (a b y : Nat) (ny : Node) (q : Nat) : Option Node :=
  if q = y then some { ny with next := some b, prev := some a, el := some y }
  else (m.node q).map fun n =>
    { n with next := if q = a then some y else n.next, prev := if q = b then some y else n.prev }

theorem addTail_eq {m : Mem} {l a y : Nat} {nl na ny : Node} (hl : m.node l = some nl)
    (hp : nl.prev = some a) (ha : m.node a = some na) (hn : na.next = some l)
    (hy : m.node y = some ny) (h1 : y ≠ l) (h2 : y ≠ a) :
    addTail m l y = .ok { m with node := linkNode m a l y ny } := by
  unfold addTail
  rw [get_of hl, bind'_ok]
  simp only [hp]
  rw [get_of ha, bind'_ok, upd_of _ hy, bind'_ok]
  rw [upd_of (n := { ny with next := na.next }) _ (by simp), bind'_ok]
  rw [get_of (n := na) (by simp [Ne.symm h2, ha]), bind'_ok, hn]
  rw [upd_of (n := nl) _ (by simp [Ne.symm h1, hl]), bind'_ok]
  by_cases hal : a = l
  · subst hal
    rw [hl] at ha
    cases ha
    rw [upd_of (n := { nl with prev := some y }) _ (by simp), bind'_ok,
      get_of (n := { nl with prev := some y, next := some y }) (by simp), bind'_ok]
    simp only
    rw [upd_of (n := { ny with next := some a, prev := some a }) _ (by simp [h1])]
    congr 2
    funext q
    unfold linkNode
    by_cases hqy : q = y
    · simp [hqy]
    · by_cases hqa : q = a
      · subst hqa; simp [hqy, hl]
      · simp only [hqy, hqa, if_false]
        cases m.node q <;> rfl
  · rw [upd_of (n := na) _ (by simp [Ne.symm h2, ha, hal]), bind'_ok,
      get_of (n := { na with next := some y }) (by simp), bind'_ok]
    simp only
    rw [upd_of (n := { ny with next := some l, prev := some a }) _ (by simp [h1, h2])]
    congr 2
    funext q
    unfold linkNode
    by_cases hqy : q = y
    · simp [hqy]
    · by_cases hqa : q = a
      · subst hqa; simp [hqy, ha, hal]
      · by_cases hql : q = l
        · subst hql; simp [hqy, hqa, hl]
        · simp only [hqy, hqa, hql, if_false]
          cases m.node q <;> rfl

/-- Nodes after unlinking `x` between `a` and `b`. -/
def unlinkNode (m : Mem) (a b x : Nat) (nx : Node) (q : Nat) : Option Node :=
  if q = x then some { nx with next := none, prev := none }
  else (m.node q).map fun n =>
    { n with next := if q = a then some b else n.next, prev := if q = b then some a else n.prev }

theorem del_eq {m : Mem} {a b x : Nat} {na nb nx : Node} (hx : m.node x = some nx)
    (hn : nx.next = some b) (hp : nx.prev = some a) (ha : m.node a = some na) (hb : m.node b = some nb)
    (hsame : x = a ↔ x = b) : del m x = .ok { m with node := unlinkNode m a b x nx } := by
  unfold del
  rw [get_of hx, bind'_ok, hn, upd_of _ hb, bind'_ok]
  by_cases hxa : x = a
  · have hxb := hsame.1 hxa
    subst hxa
    subst hxb
    rw [hx] at ha hb
    obtain rfl : nx = na := by simpa using ha
    obtain rfl : nx = nb := by simpa using hb
    rw [get_of (n := { nx with prev := nx.prev }) (by simp), bind'_ok]
    simp only [hp]
    rw [upd_of (n := { nx with prev := some x }) _ (by simp), bind'_ok,
      upd_of (n := { nx with prev := some x, next := nx.next }) _ (by simp), bind'_ok,
      upd_of (n := { nx with prev := some x, next := none }) _ (by simp)]
    congr 2
    funext q
    unfold unlinkNode
    by_cases hq : q = x
    · simp [hq]
    · simp only [hq, if_false]
      cases m.node q <;> rfl
  · have hxb : x ≠ b := fun h => hxa (hsame.2 h)
    rw [get_of (n := nx) (by simp [hxb, hx]), bind'_ok, hp]
    by_cases hab : a = b
    · subst hab
      rw [ha] at hb
      cases hb
      rw [upd_of (n := { na with prev := nx.prev }) _ (by simp [hp]), bind'_ok,
        upd_of (n := nx) _ (by simp [hxa, hx]), bind'_ok,
        upd_of (n := { nx with next := none }) _ (by simp)]
      congr 2
      funext q
      unfold unlinkNode
      by_cases hq : q = x
      · simp [hq]
      · by_cases hqa : q = a
        · subst hqa; simp [hq, ha, hn, hp]
        · simp only [hq, hqa, if_false]
          cases m.node q <;> rfl
    · rw [upd_of (n := na) _ (by simp [ha, hab]), bind'_ok,
        upd_of (n := nx) _ (by simp [hxa, hxb, hx]), bind'_ok,
        upd_of (n := { nx with next := none }) _ (by simp)]
      congr 2
      funext q
      unfold unlinkNode
      by_cases hq : q = x
      · simp [hq]
      · by_cases hqa : q = a
        · subst hqa; simp [hq, ha, hn, hp, hab]
        · by_cases hqb : q = b
          · subst hqb; simp [hq, hqa, hb, hp]
          · simp only [hq, hqa, hqb, if_false]
            cases m.node q <;> rfl

/-! ## Rings -/

/-- Next pointer of a live node. -/
def nxt (node : Nat → Option Node) (p : Nat) : Option Nat := (node p).bind Node.next

/-- Previous pointer of a live node. -/
def prv (node : Nat → Option Node) (p : Nat) : Option Nat := (node p).bind Node.prev

/-- The chain `a → xs → b`, linked in both directions. -/
def Seg (node : Nat → Option Node) (a : Nat) : List Nat → Nat → Prop
  | [], b => nxt node a = some b ∧ prv node b = some a
  | x :: xs, b => nxt node a = some x ∧ prv node x = some a ∧ Seg node x xs b

theorem Seg.last {node : Nat → Option Node} {b : Nat} : ∀ {xs : List Nat} {a : Nat}, Seg node a xs b →
    nxt node ((a :: xs).getLast (by simp)) = some b ∧ prv node b = some ((a :: xs).getLast (by simp))
  | [], _, h => h
  | x :: xs, a, h => by
    have := Seg.last h.2.2
    simpa using this

theorem Seg.congr {node node' : Nat → Option Node} {y : Nat} :
    ∀ {xs : List Nat} {a b : Nat}, Seg node a xs b →
    (∀ p ∈ a :: xs, p ≠ (a :: xs).getLast (by simp) → nxt node' p = nxt node p) →
    (∀ p ∈ xs, prv node' p = prv node p) →
    nxt node' ((a :: xs).getLast (by simp)) = some y →
    prv node' y = some ((a :: xs).getLast (by simp)) → (a :: xs).Nodup → Seg node' a xs y
  | [], a, b, _, _, _, h3, h4, _ => ⟨h3, h4⟩
  | x :: xs, a, b, h, h1, h2, h3, h4, hnd => by
    refine ⟨?_, ?_, ?_⟩
    · rw [h1 a (by simp) ?_]
      · exact h.1
      · intro he
        have : a ∈ x :: xs := by
          rw [he]; simpa using List.getLast_mem (l := x :: xs) (by simp)
        exact (List.nodup_cons.1 hnd).1 this
    · rw [h2 x (by simp)]; exact h.2.1
    · refine Seg.congr h.2.2 ?_ (fun p hp => h2 p (by simp [hp])) (by simpa using h3) (by simpa using h4)
        (List.nodup_cons.1 hnd).2
      intro p hp hne
      exact h1 p (by simp at hp ⊢; exact .inr hp) (by simpa using hne)

theorem Seg.snoc {node : Nat → Option Node} {y b : Nat} :
    ∀ {xs : List Nat} {a : Nat}, Seg node a xs y → nxt node y = some b → prv node b = some y →
    Seg node a (xs ++ [y]) b
  | [], a, h, h1, h2 => ⟨h.1, h.2, h1, h2⟩
  | x :: xs, a, h, h1, h2 => ⟨h.1, h.2.1, Seg.snoc h.2.2 h1 h2⟩

/-- A list element: address, owned blocks with their content, plain fields. -/
structure Item where
  addr : Nat
  own : List (Nat × Bytes)
  length : Nat
  flags : Int

/-- The memory holds a list with head `l` and the given elements. -/
structure Rep (m : Mem) (l : Nat) (xs : List Item) : Prop where
  seg : Seg m.node l (xs.map (·.addr)) l
  head : ∃ n, m.node l = some n ∧ n.el = some l ∧ n.own = []
  items : ∀ x ∈ xs, ∃ n, m.node x.addr = some n ∧ n.el = some x.addr ∧ n.own = x.own.map (·.1) ∧
    n.length = x.length ∧ n.flags = x.flags
  sorted : (l :: xs.map (·.addr)).Pairwise (· < ·)
  bound : ∀ a ∈ l :: xs.map (·.addr), a < m.fresh
  dsorted : (xs.flatMap fun x => x.own.map (·.1)).Pairwise (· < ·)
  dbound : ∀ x ∈ xs, ∀ p ∈ x.own, p.1 < m.fresh
  data : ∀ x ∈ xs, ∀ p ∈ x.own, m.dat p.1 = some p.2

theorem sorted_nodup {l : List Nat} (h : l.Pairwise (· < ·)) : l.Nodup :=
  h.imp fun h => Nat.ne_of_lt h

theorem sorted_length {n : Nat} : ∀ {l : List Nat} {k : Nat}, l.Pairwise (· < ·) →
    (∀ a ∈ l, k ≤ a ∧ a < n) → k ≤ n → l.length + k ≤ n
  | [], k, _, _, h => by simpa using h
  | a :: l, k, h, hb, _ => by
    have ha := hb a (by simp)
    have := sorted_length (n := n) (k := a + 1) (List.pairwise_cons.1 h).2
      (fun b hbm => ⟨(List.pairwise_cons.1 h).1 b hbm, (hb b (by simp [hbm])).2⟩) (by omega)
    simp only [List.length_cons]
    omega

theorem Rep.fuel {m : Mem} {l : Nat} {xs : List Item} (h : Rep m l xs) : xs.length + 1 ≤ m.fresh := by
  have := sorted_length (k := 0) h.sorted (fun a ha => ⟨Nat.zero_le _, h.bound a ha⟩) (Nat.zero_le _)
  simpa using this

theorem Rep.node_of {m : Mem} {l : Nat} {xs : List Item} (h : Rep m l xs) {p : Nat}
    (hp : p ∈ l :: xs.map (·.addr)) : ∃ n, m.node p = some n ∧ n.el = some p := by
  rcases List.mem_cons.1 hp with rfl | hp
  · obtain ⟨n, h1, h2, -⟩ := h.head; exact ⟨n, h1, h2⟩
  · obtain ⟨x, hx, rfl⟩ := List.mem_map.1 hp
    obtain ⟨n, h1, h2, -⟩ := h.items x hx
    exact ⟨n, h1, h2⟩

theorem nxt_some {node : Nat → Option Node} {p q : Nat} (h : nxt node p = some q) :
    ∃ n, node p = some n ∧ n.next = some q := by
  unfold nxt at h
  cases e : node p with
  | none => rw [e] at h; cases h
  | some n => rw [e] at h; exact ⟨n, rfl, h⟩

theorem prv_some {node : Nat → Option Node} {p q : Nat} (h : prv node p = some q) :
    ∃ n, node p = some n ∧ n.prev = some q := by
  unfold prv at h
  cases e : node p with
  | none => rw [e] at h; cases h
  | some n => rw [e] at h; exact ⟨n, rfl, h⟩

/-- Appending an element that is not in the list. -/
theorem addTail_rep {m : Mem} {l : Nat} {xs : List Item} (h : Rep m l xs) (y : Item) (ny : Node)
    (hy : m.node y.addr = some ny) (hgt : ∀ a ∈ l :: xs.map (·.addr), a < y.addr)
    (hyb : y.addr < m.fresh) (hown : ny.own = y.own.map (·.1)) (hlen : ny.length = y.length)
    (hfl : ny.flags = y.flags)
    (hds : (y.own.map (·.1)).Pairwise (· < ·))
    (hdgt : ∀ x ∈ xs, ∀ p ∈ x.own, ∀ q ∈ y.own, p.1 < q.1)
    (hdb : ∀ q ∈ y.own, q.1 < m.fresh) (hdat : ∀ q ∈ y.own, m.dat q.1 = some q.2) :
    ∃ m', addTail m l y.addr = .ok m' ∧ Rep m' l (xs ++ [y]) ∧ m'.fresh = m.fresh ∧ m'.dat = m.dat ∧
      ∀ p, p ∉ l :: xs.map (·.addr) → p ≠ y.addr → m'.node p = m.node p := by
  obtain ⟨hln, hlp⟩ := h.seg.last
  have hmem : (l :: xs.map (·.addr)).getLast (by simp) ∈ l :: xs.map (·.addr) := List.getLast_mem _
  generalize ha : (l :: xs.map (·.addr)).getLast (by simp) = a at hln hlp hmem
  obtain ⟨nl, hnl, hnlp⟩ := prv_some hlp
  obtain ⟨na, hna, hnan⟩ := nxt_some hln
  have hyl : y.addr ≠ l := Nat.ne_of_gt (hgt l (by simp))
  have hya : y.addr ≠ a := Nat.ne_of_gt (hgt a hmem)
  have hother : ∀ q, q ≠ y.addr → linkNode m a l y.addr ny q = (m.node q).map fun n =>
      { n with next := if q = a then some y.addr else n.next,
               prev := if q = l then some y.addr else n.prev } := fun q hq => by simp [linkNode, hq]
  have hself : linkNode m a l y.addr ny y.addr =
      some { ny with next := some l, prev := some a, el := some y.addr } := by simp [linkNode]
  refine ⟨_, addTail_eq hnl hnlp hna hnan hy hyl hya, ?_, rfl, rfl, ?_⟩
  · have hne : ∀ p ∈ l :: xs.map (·.addr), p ≠ y.addr := fun p hp => Nat.ne_of_lt (hgt p hp)
    refine ⟨?_, ?_, ?_, ?_, ?_, ?_, ?_, ?_⟩
    · simp only [List.map_append, List.map_cons, List.map_nil]
      refine Seg.snoc (Seg.congr h.seg ?_ ?_ ?_ ?_ (sorted_nodup h.sorted)) ?_ ?_
      · intro p hp hpa
        rw [ha] at hpa
        simp only [nxt, hother p (hne p hp), hpa, if_false]
        cases m.node p <;> rfl
      · intro p hp
        have hpl : p ≠ l := Nat.ne_of_gt ((List.pairwise_cons.1 h.sorted).1 p hp)
        simp only [prv, hother p (hne p (by simp [hp])), hpl, if_false]
        cases m.node p <;> rfl
      · rw [ha]; simp [nxt, hother a (Ne.symm hya), hna]
      · rw [ha]; simp [prv, hself]
      · simp [nxt, hself]
      · simp [prv, hother l (Ne.symm hyl), hnl]
    · obtain ⟨n, h1, h2, h3⟩ := h.head
      rw [hnl] at h1
      cases h1
      exact ⟨{ nl with next := if l = a then some y.addr else nl.next, prev := if l = l then some y.addr else nl.prev }, (hother l (Ne.symm hyl)).trans (by rw [hnl]; rfl), h2, h3⟩
    · intro x hx
      rcases List.mem_append.1 hx with hx | hx
      · obtain ⟨n, h1, h2, h3, h4, h5⟩ := h.items x hx
        have hxn := hne x.addr (by simp only [List.mem_cons, List.mem_map]; exact .inr ⟨x, hx, rfl⟩)
        exact ⟨{ n with next := if x.addr = a then some y.addr else n.next, prev := if x.addr = l then some y.addr else n.prev }, (hother x.addr hxn).trans (by rw [h1]; rfl), h2, h3, h4, h5⟩
      · simp only [List.mem_singleton] at hx
        subst hx
        exact ⟨_, hself, rfl, hown, hlen, hfl⟩
    · rw [List.map_append, ← List.cons_append, List.pairwise_append]
      exact ⟨h.sorted, by simp, fun a ha b hb => by simp at hb; subst hb; exact hgt a ha⟩
    · intro p hp
      rw [List.map_append, ← List.cons_append, List.mem_append] at hp
      rcases hp with hp | hp
      · exact h.bound p hp
      · simp at hp; subst hp; exact hyb
    · rw [List.flatMap_append, List.pairwise_append]
      refine ⟨h.dsorted, by simpa using hds, ?_⟩
      intro d hd e he
      simp only [List.flatMap_cons, List.flatMap_nil, List.append_nil, List.mem_map] at he
      simp only [List.mem_flatMap, List.mem_map] at hd
      obtain ⟨x, hx, p, hp, rfl⟩ := hd
      obtain ⟨q, hq, rfl⟩ := he
      exact hdgt x hx p hp q hq
    · intro x hx p hp
      rcases List.mem_append.1 hx with hx | hx
      · exact h.dbound x hx p hp
      · simp only [List.mem_singleton] at hx; subst hx; exact hdb p hp
    · intro x hx p hp
      rcases List.mem_append.1 hx with hx | hx
      · exact h.data x hx p hp
      · simp only [List.mem_singleton] at hx; subst hx; exact hdat p hp
  · intro p hp hpy
    simp only
    rw [hother p hpy]
    have h1 : p ≠ a := fun e => hp (e ▸ hmem)
    have h2 : p ≠ l := fun e => hp (by simp [e])
    simp only [h1, h2, if_false]
    cases m.node p <;> rfl

/-! ## Traversal -/

theorem eachLoop_seg {m : Mem} {l : Nat} : ∀ {xs : List Nat} {a : Nat} {fuel : Nat}, Seg m.node a xs l →
    (∀ p ∈ l :: xs, ∃ n, m.node p = some n ∧ n.el = some p) → l ∉ xs → xs.length + 1 ≤ fuel →
    eachLoop m l fuel ((xs ++ [l]).head?) = .ok xs
  | [], a, fuel, h, he, hl, hf => by
    obtain ⟨f, rfl⟩ : ∃ f, fuel = f + 1 := ⟨fuel - 1, by omega⟩
    simp [eachLoop]
  | x :: xs, a, fuel, h, he, hl, hf => by
    obtain ⟨f, rfl⟩ : ∃ f, fuel = f + 1 := ⟨fuel - 1, by omega⟩
    have hxl : x ≠ l := fun e => hl (by simp [e])
    have ih := eachLoop_seg (fuel := f) h.2.2 (fun p hp => he p (by
      rcases List.mem_cons.1 hp with rfl | hp <;> simp_all)) (fun hm => hl (by simp [hm]))
      (by simp only [List.length_cons] at hf; omega)
    have hnx : nxt m.node x = (xs ++ [l]).head? := by
      cases xs with
      | nil => exact h.2.2.1
      | cons y ys => exact h.2.2.1
    obtain ⟨n, hn, -⟩ := he x (by simp)
    have hz : ∃ z, (xs ++ [l]).head? = some z ∧ z ∈ l :: x :: xs := by
      cases xs with
      | nil => exact ⟨l, rfl, by simp⟩
      | cons y ys => exact ⟨y, rfl, by simp⟩
    obtain ⟨z, hz, hzm⟩ := hz
    obtain ⟨nz, hnz, hnze⟩ := he z hzm
    simp only [List.cons_append, List.head?_cons, eachLoop, Option.some.injEq, hxl, if_false]
    rw [get_of hn, bind'_ok]
    have : n.next = some z := by simpa [nxt, hn, hz] using hnx
    rw [this, get_of hnz, bind'_ok, hnze, ← hz, ih]
    rfl

theorem Rep.next_head {m : Mem} {l : Nat} {xs : List Item} (h : Rep m l xs) :
    nxt m.node l = (xs.map (·.addr) ++ [l]).head? := by
  have := h.seg
  cases xs with
  | nil => exact this.1
  | cons x xs => exact this.1

theorem Rep.not_mem {m : Mem} {l : Nat} {xs : List Item} (h : Rep m l xs) : l ∉ xs.map (·.addr) :=
  fun hm => Nat.lt_irrefl _ ((List.pairwise_cons.1 h.sorted).1 l hm)

theorem Rep.first_node {m : Mem} {l : Nat} {xs : List Item} (h : Rep m l xs) :
    ∃ nl z nz, m.node l = some nl ∧ nl.next = some z ∧ (xs.map (·.addr) ++ [l]).head? = some z ∧
      m.node z = some nz ∧ nz.el = some z := by
  have hn := h.next_head
  obtain ⟨z, hz, hzm⟩ : ∃ z, (xs.map (·.addr) ++ [l]).head? = some z ∧ z ∈ l :: xs.map (·.addr) := by
    cases xs with
    | nil => exact ⟨l, rfl, by simp⟩
    | cons y ys => exact ⟨y.addr, rfl, by simp⟩
  rw [hz] at hn
  obtain ⟨nl, h1, h2⟩ := nxt_some hn
  obtain ⟨nz, h3, h4⟩ := h.node_of hzm
  exact ⟨nl, z, nz, h1, h2, hz, h3, h4⟩

theorem each_rep {m : Mem} {l : Nat} {xs : List Item} (h : Rep m l xs) :
    each m l = .ok (xs.map (·.addr)) := by
  obtain ⟨nl, z, nz, h1, h2, h3, h4, h5⟩ := h.first_node
  unfold each
  rw [get_of h1, bind'_ok, h2, get_of h4, bind'_ok, h5, ← h3]
  exact eachLoop_seg h.seg (fun p hp => h.node_of hp) h.not_mem (by simp; have := h.fuel; omega)

theorem lenLoop_seg {m : Mem} {l : Nat} : ∀ {xs : List Nat} {a : Nat} {fuel c : Nat}, Seg m.node a xs l →
    (∀ p ∈ l :: xs, ∃ n, m.node p = some n) → l ∉ xs → xs.length + 1 ≤ fuel →
    c + xs.length < 2 ^ 31 → lenLoop m l fuel ((xs ++ [l]).head?) c = .ok (c + xs.length)
  | [], a, fuel, c, h, he, hl, hf, hc => by
    obtain ⟨f, rfl⟩ : ∃ f, fuel = f + 1 := ⟨fuel - 1, by omega⟩
    simp [lenLoop]
  | x :: xs, a, fuel, c, h, he, hl, hf, hc => by
    simp only [List.length_cons] at hc
    obtain ⟨f, rfl⟩ : ∃ f, fuel = f + 1 := ⟨fuel - 1, by omega⟩
    have hlt : c < 2147483647 := by omega
    have hxl : x ≠ l := fun e => hl (by simp [e])
    have ih := lenLoop_seg (fuel := f) (c := c + 1) h.2.2 (fun p hp => he p (by
      rcases List.mem_cons.1 hp with rfl | hp <;> simp_all)) (fun hm => hl (by simp [hm]))
      (by simp only [List.length_cons] at hf; omega) (by omega)
    have hnx : nxt m.node x = (xs ++ [l]).head? := by
      cases xs with
      | nil => exact h.2.2.1
      | cons y ys => exact h.2.2.1
    obtain ⟨n, hn⟩ := he x (by simp)
    simp only [List.cons_append, List.head?_cons, lenLoop, Option.some.injEq, hxl, if_false, hlt, if_true]
    rw [get_of hn, bind'_ok]
    have : n.next = (xs ++ [l]).head? := by simpa [nxt, hn] using hnx
    rw [this, ih, List.length_cons]
    congr 1
    omega

theorem len_rep {m : Mem} {l : Nat} {xs : List Item} (h : Rep m l xs) (hlen : xs.length < 2 ^ 31) : len m l = .ok xs.length := by
  obtain ⟨nl, z, nz, h1, h2, h3, h4, h5⟩ := h.first_node
  unfold len
  rw [get_of h1, bind'_ok, h2, ← h3]
  have := lenLoop_seg (fuel := m.fresh + 1) (c := 0) h.seg
    (fun p hp => (h.node_of hp).imp fun _ h => h.1) h.not_mem (by simp; have := h.fuel; omega) (by simpa using hlen)
  rw [this]
  simp

theorem eachSafeLoop_seg {m : Mem} {l : Nat} : ∀ {xs : List Nat} {a : Nat} {fuel : Nat},
    Seg m.node a xs l → (∀ p ∈ l :: xs, ∃ n z, m.node p = some n ∧ n.el = some p ∧ n.next = some z ∧ z ∈ l :: xs) →
    l ∉ xs → xs.length + 1 ≤ fuel →
    eachSafeLoop m l fuel ((xs ++ [l]).head?) ((xs ++ [l]).tail.head?) = .ok xs := by
  intro xs
  -- generalise the set of live nodes
  suffices H : ∀ (S : List Nat), (∀ p ∈ S, ∃ n z, m.node p = some n ∧ n.el = some p ∧ n.next = some z ∧ z ∈ S) →
      ∀ (ys : List Nat) (a fuel : Nat), Seg m.node a ys l → (∀ p ∈ ys, p ∈ S) → l ∈ S → l ∉ ys →
      ys.length + 1 ≤ fuel → ∀ w, (ys ≠ [] → w = (ys ++ [l]).tail.head?) →
      eachSafeLoop m l fuel ((ys ++ [l]).head?) w = .ok ys by
    intro a fuel hs he hl hf
    exact H (l :: xs) he xs a fuel hs (fun p hp => by simp [hp]) (by simp) hl hf _ (fun _ => rfl)
  intro S hS ys
  induction ys with
  | nil =>
    intro a fuel _ _ _ _ hf w _
    obtain ⟨f, rfl⟩ : ∃ f, fuel = f + 1 := ⟨fuel - 1, by omega⟩
    simp [eachSafeLoop]
  | cons x ys ih =>
    intro a fuel hs hm hlS hl hf w hw
    obtain ⟨f, rfl⟩ : ∃ f, fuel = f + 1 := ⟨fuel - 1, by omega⟩
    have hxl : x ≠ l := fun e => hl (by simp [e])
    have hw := hw (by simp)
    simp only [List.cons_append, List.tail_cons] at hw
    have hz : ∃ z, (ys ++ [l]).head? = some z ∧ z ∈ S := by
      cases ys with
      | nil => exact ⟨l, rfl, hlS⟩
      | cons y ys => exact ⟨y, rfl, hm y (by simp)⟩
    obtain ⟨z, hz, hzS⟩ := hz
    obtain ⟨nz, u, h1, h2, h3, h4⟩ := hS z hzS
    obtain ⟨nu, _, k1, k2, -⟩ := hS u h4
    simp only [List.cons_append, List.head?_cons, eachSafeLoop, Option.some.injEq, hxl, if_false]
    rw [hw, hz, get_of h1, bind'_ok, h3, get_of k1, bind'_ok, k2]
    have := ih x f hs.2.2 (fun p hp => hm p (by simp [hp])) hlS (fun h => hl (by simp [h]))
      (by simp only [List.length_cons] at hf; omega) (some u) (by
        intro hne
        cases ys with
        | nil => exact absurd rfl hne
        | cons y ys =>
          obtain rfl : y = z := by simpa using hz
          have hnx : nxt m.node y = (ys ++ [l]).head? := by
            cases ys with
            | nil => exact hs.2.2.2.2.1
            | cons y ys => exact hs.2.2.2.2.1
          simp only [nxt, h1, Option.bind_some, h3] at hnx
          simpa using hnx)
    rw [hz] at this
    rw [this]
    rfl

theorem Rep.closed {m : Mem} {l : Nat} {xs : List Item} (h : Rep m l xs) :
    ∀ p ∈ l :: xs.map (·.addr), ∃ n z, m.node p = some n ∧ n.el = some p ∧ n.next = some z ∧
      z ∈ l :: xs.map (·.addr) := by
  intro p hp
  obtain ⟨n, h1, h2⟩ := h.node_of hp
  have key : ∀ (ys : List Nat) (a : Nat), Seg m.node a ys l → ∀ p ∈ a :: ys,
      ∃ z, nxt m.node p = some z ∧ z ∈ l :: ys := by
    intro ys
    induction ys with
    | nil => intro a hs p hp; simp at hp; subst hp; exact ⟨l, hs.1, by simp⟩
    | cons y ys ih =>
      intro a hs p hp
      rcases List.mem_cons.1 hp with rfl | hp
      · exact ⟨y, hs.1, by simp⟩
      · obtain ⟨z, e1, e2⟩ := ih y hs.2.2 p hp
        refine ⟨z, e1, ?_⟩
        rcases List.mem_cons.1 e2 with rfl | e2 <;> simp_all
  obtain ⟨z, hz, hzm⟩ := key _ l h.seg p hp
  obtain ⟨n', e1, e2⟩ := nxt_some hz
  rw [h1] at e1
  cases e1
  exact ⟨n, z, h1, h2, e2, hzm⟩

theorem eachSafe_rep {m : Mem} {l : Nat} {xs : List Item} (h : Rep m l xs) :
    eachSafe m l = .ok (xs.map (·.addr)) := by
  obtain ⟨nl, z, nz, h1, h2, h3, h4, h5⟩ := h.first_node
  obtain ⟨nz', u, k1, k2, k3, k4⟩ := h.closed z (by
    cases xs with
    | nil => cases h3; simp
    | cons x xs => cases h3; simp)
  rw [h4] at k1
  cases k1
  obtain ⟨nu, _, q1, q2, -⟩ := h.closed u k4
  unfold eachSafe
  rw [get_of h1, bind'_ok, h2, get_of h4, bind'_ok, h5, get_of h4, bind'_ok, k3, get_of q1, bind'_ok, q2, ← h3]
  cases xs with
  | nil =>
    have hf := h.fuel
    obtain ⟨f, hf⟩ : ∃ f, m.fresh + 1 = f + 1 := ⟨m.fresh, rfl⟩
    simp [eachSafeLoop]
  | cons x xs =>
    have hu : some u = ((x :: xs).map (·.addr) ++ [l]).tail.head? := by
      have hs := h.seg
      cases h3
      have hnx : nxt m.node x.addr = (xs.map (·.addr) ++ [l]).head? := by
        cases xs with
        | nil => exact hs.2.2.1
        | cons y ys => exact hs.2.2.1
      simp only [nxt, h4, Option.bind_some, k3] at hnx
      simpa using hnx
    rw [hu]
    exact eachSafeLoop_seg h.seg h.closed h.not_mem (by simp; have := h.fuel; simp at this; omega)

theorem readBlocks_eq {m : Mem} : ∀ {own : List (Nat × Bytes)}, (∀ p ∈ own, m.dat p.1 = some p.2) →
    readBlocks m (own.map (·.1)) = .ok (own.map (·.2))
  | [], _ => rfl
  | p :: own, h => by
    have := readBlocks_eq (own := own) fun q hq => h q (by simp [hq])
    simp only [List.map_cons, readBlocks, this, bind'_ok, h p (by simp)]

theorem contents_rep {m : Mem} {l : Nat} {xs : List Item} (h : Rep m l xs) :
    contents m l = .ok (xs.map fun x => (x.own.map (·.2), x.length, x.flags)) := by
  unfold contents
  rw [each_rep h, bind'_ok]
  have hi := h.items
  have hd := h.data
  clear h
  induction xs with
  | nil => rfl
  | cons x xs ih =>
    obtain ⟨n, h1, h2, h3, h4, h5⟩ := hi x (by simp)
    have := ih (fun y hy => hi y (by simp [hy])) (fun y hy => hd y (by simp [hy]))
    simp only [List.map_cons, readEls, this]
    unfold readEl
    rw [get_of h1, bind'_ok, h3, readBlocks_eq (hd x (by simp)), bind'_ok, bind'_ok, bind'_ok, h4, h5]

/-! ## Release -/

theorem freeOwned_eq {m : Mem} : ∀ {ds : List Nat}, ds.Nodup → (∀ d ∈ ds, m.dat d ≠ none) →
    freeOwned m ds = .ok { m with dat := fun q => if q ∈ ds then none else m.dat q } := by
  intro ds
  induction ds generalizing m with
  | nil => intro _ _; simp [freeOwned]
  | cons d ds ih =>
    intro hnd hl
    obtain ⟨b, hb⟩ := Option.ne_none_iff_exists'.1 (hl d (by simp))
    simp only [freeOwned, Mem.freeData, hb, bind'_ok]
    rw [ih (List.nodup_cons.1 hnd).2 (fun e he => by
      have : e ≠ d := fun h => (List.nodup_cons.1 hnd).1 (h ▸ he)
      simp [this, hl e (by simp [he])])]
    congr 2
    funext q
    by_cases h1 : q ∈ ds
    · simp [h1]
    · by_cases h2 : q = d <;> simp [h1, h2]

/-- Releasing the first element. -/
theorem freeFirst_rep {m : Mem} {l : Nat} {x : Item} {xs : List Item} (h : Rep m l (x :: xs)) :
    ∃ m', freeEl m x.addr = .ok m' ∧ Rep m' l xs ∧ m'.fresh = m.fresh ∧
      (∀ p, p ≠ l → p ∉ (x :: xs).map (·.addr) → m'.node p = m.node p) ∧ m'.node x.addr = none ∧
      m'.dat = fun q => if q ∈ x.own.map (·.1) then none else m.dat q := by
  obtain ⟨nx, h1, h2, h3, h4, h5⟩ := h.items x (by simp)
  have hds := h.dsorted
  rw [List.flatMap_cons, List.pairwise_append] at hds
  have hfo := freeOwned_eq (m := m) (sorted_nodup hds.1) (fun d hd => by
    obtain ⟨p, hp, rfl⟩ := List.mem_map.1 hd
    rw [h.data x (by simp) p hp]; simp)
  generalize hm1 : ({ m with dat := fun q => if q ∈ x.own.map (·.1) then none else m.dat q } : Mem) = m1
    at hfo
  have hnode : m1.node = m.node := by rw [← hm1]
  obtain ⟨b, hb, hbm⟩ : ∃ b, (xs.map (·.addr) ++ [l]).head? = some b ∧ b ∈ l :: xs.map (·.addr) := by
    cases xs with
    | nil => exact ⟨l, rfl, by simp⟩
    | cons y ys => exact ⟨y.addr, rfl, by simp⟩
  have hseg := h.seg
  simp only [List.map_cons] at hseg
  have hxn : nxt m.node x.addr = some b := by
    rw [← hb]
    cases xs with
    | nil => exact hseg.2.2.1
    | cons y ys => exact hseg.2.2.1
  have hxp : prv m.node x.addr = some l := hseg.2.1
  have hnx : nx.next = some b := by simpa [nxt, h1] using hxn
  have hpx : nx.prev = some l := by simpa [prv, h1] using hxp
  have hsorted := h.sorted
  simp only [List.map_cons, List.pairwise_cons] at hsorted
  have hxl : x.addr ≠ l := Nat.ne_of_gt (hsorted.1 _ (by simp))
  have hxb : x.addr ≠ b := by
    rcases List.mem_cons.1 hbm with rfl | hbm
    · exact hxl
    · exact Nat.ne_of_lt (hsorted.2.1 b hbm)
  obtain ⟨nl, hl1, hl2, hl3⟩ := h.head
  obtain ⟨nb, hb1, hb2⟩ := h.node_of (p := b) (by
    rcases List.mem_cons.1 hbm with rfl | hbm <;> simp_all)
  have hdel := del_eq (m := m1) (a := l) (b := b) (x := x.addr) (nx := nx) (by rw [hnode]; exact h1) hnx hpx
    (by rw [hnode]; exact hl1) (by rw [hnode]; exact hb1) (by simp [hxl, hxb])
  have hun : ∀ q, q ≠ x.addr → unlinkNode m1 l b x.addr nx q = (m.node q).map fun n =>
      { n with next := if q = l then some b else n.next, prev := if q = b then some l else n.prev } := by
    intro q hq; simp [unlinkNode, hq, hnode]
  refine ⟨{ m1 with node := fun q => if q = x.addr then none else unlinkNode m1 l b x.addr nx q },
    ?_, ?_, by rw [← hm1], ?_, by simp, by rw [← hm1]⟩
  · unfold freeEl
    rw [get_of h1, bind'_ok, h3, hfo, bind'_ok, hdel, bind'_ok]
    simp [Mem.freeNode, unlinkNode]
  · have hnn : ∀ q, q ≠ x.addr → (fun q => if q = x.addr then none else unlinkNode m1 l b x.addr nx q) q =
        (m.node q).map fun n =>
          { n with next := if q = l then some b else n.next, prev := if q = b then some l else n.prev } := by
      intro q hq; simp only [hq, if_false]; exact hun q hq
    have hne : ∀ p ∈ l :: xs.map (·.addr), p ≠ x.addr := by
      intro p hp
      rcases List.mem_cons.1 hp with rfl | hp
      · exact Ne.symm hxl
      · exact Nat.ne_of_gt (hsorted.2.1 p hp)
    refine ⟨?_, ?_, ?_, ?_, ?_, hds.2.1, ?_, ?_⟩
    · generalize (fun q => if q = x.addr then none else unlinkNode m1 l b x.addr nx q) = node' at hnn
      simp only
      cases xs with
      | nil =>
        cases hb
        refine ⟨?_, ?_⟩
        · simp [nxt, hnn l (hne l (by simp)), hl1]
        · simp [prv, hnn l (hne l (by simp)), hl1]
      | cons y ys =>
        cases hb
        have hs := hseg.2.2
        have hyl : y.addr ≠ l := Nat.ne_of_gt (hsorted.1 _ (by simp))
        refine ⟨?_, ?_, ?_⟩
        · simp [nxt, hnn l (hne l (by simp)), hl1]
        · simp [prv, hnn y.addr (hne y.addr (by simp)), hb1]
        · obtain ⟨hlast, hlast'⟩ := hs.2.2.last
          have hnxt : ∀ p ∈ y.addr :: ys.map (·.addr), nxt node' p = nxt m.node p := by
            intro p hp
            have hpl : p ≠ l := by
              have := hsorted.1 p (List.mem_cons_of_mem _ (by simpa using hp))
              omega
            simp only [nxt, hnn p (hne p (by simp at hp ⊢; exact .inr hp)), hpl, if_false]
            cases m.node p <;> rfl
          refine Seg.congr hs.2.2 (fun p hp _ => hnxt p hp) ?_ ?_ ?_ (sorted_nodup (by simpa using hsorted.2.2))
          · intro p hp
            have hpy : p ≠ y.addr := by
              have := hsorted.2.2
              simp only [List.map_cons, List.pairwise_cons] at this
              exact Nat.ne_of_gt (this.1 p hp)
            simp only [prv, hnn p (hne p (by simp at hp ⊢; exact .inr (.inr hp))), hpy, if_false]
            cases m.node p <;> rfl
          · rw [hnxt _ (List.getLast_mem _)]; exact hlast
          · simp only [prv, hnn l (hne l (by simp)), Ne.symm hyl, if_false]
            simp only [prv] at hlast'
            rw [← hlast']
            cases m.node l <;> rfl
    · exact ⟨{ nl with next := if l = l then some b else nl.next, prev := if l = b then some l else nl.prev }, (hnn l (hne l (by simp))).trans (by rw [hl1]; rfl), hl2, hl3⟩
    · intro y hy
      obtain ⟨n, k1, k2, k3, k4, k5⟩ := h.items y (by simp [hy])
      exact ⟨{ n with next := if y.addr = l then some b else n.next, prev := if y.addr = b then some l else n.prev }, (hnn y.addr (hne y.addr (by simp only [List.mem_cons, List.mem_map]; exact .inr ⟨y, hy, rfl⟩))).trans (by rw [k1]; rfl), k2, k3, k4, k5⟩
    · rw [List.pairwise_cons]
      exact ⟨fun a ha => hsorted.1 a (by simp only [List.mem_cons]; exact .inr ha), hsorted.2.2⟩
    · intro p hp
      rw [← hm1]
      exact h.bound p (by rcases List.mem_cons.1 hp with rfl | hp <;> simp_all)
    · intro y hy p hp
      rw [← hm1]
      exact h.dbound y (by simp [hy]) p hp
    · intro y hy p hp
      rw [← hm1]
      simp only
      rw [if_neg ?_]
      · exact h.data y (by simp [hy]) p hp
      · intro hm
        have := hds.2.2 p.1 hm p.1 (List.mem_flatMap.2 ⟨y, hy, List.mem_map.2 ⟨p, hp, rfl⟩⟩)
        omega
  · intro p hpl hpm
    have hpx : p ≠ x.addr := fun e => hpm (by simp [e])
    have hpb : p ≠ b := by
      rcases List.mem_cons.1 hbm with rfl | hbm
      · exact hpl
      · exact fun e => hpm (by simp only [List.map_cons, List.mem_cons]; exact .inr (e ▸ hbm))
    simp only [hpx, if_false]
    rw [hun p hpx]
    simp only [hpl, hpb, if_false]
    cases m.node p <;> rfl

theorem first_rep {m : Mem} {l : Nat} {xs : List Item} (h : Rep m l xs) :
    first m l = .ok ((xs.map (·.addr)).head?) := by
  obtain ⟨nl, z, nz, h1, h2, h3, h4, h5⟩ := h.first_node
  unfold first
  rw [get_of h1, bind'_ok, h2]
  cases xs with
  | nil => cases h3; simp
  | cons x xs =>
    cases h3
    have : x.addr ≠ l := fun e => h.not_mem (by simp [e])
    simp only [Option.some.injEq, this, if_false]
    rw [get_of h4, bind'_ok, h5]
    rfl

theorem freeLoop_rep {l : Nat} : ∀ {xs : List Item} {m : Mem} {fuel : Nat}, Rep m l xs → xs.length + 1 ≤ fuel →
    ∃ m', freeLoop l fuel m = .ok m' ∧ Rep m' l [] ∧ m'.fresh = m.fresh ∧
      (∀ p, p ≠ l → p ∉ xs.map (·.addr) → m'.node p = m.node p) ∧
      (∀ p ∈ xs.map (·.addr), m'.node p = none) ∧
      m'.dat = fun q => if q ∈ xs.flatMap (fun x => x.own.map (·.1)) then none else m.dat q := by
  intro xs
  induction xs with
  | nil =>
    intro m fuel h hf
    obtain ⟨f, rfl⟩ : ∃ f, fuel = f + 1 := ⟨fuel - 1, by omega⟩
    refine ⟨m, ?_, h, rfl, fun _ _ _ => rfl, by simp, by simp⟩
    simp [freeLoop, first_rep h]
  | cons x xs ih =>
    intro m fuel h hf
    obtain ⟨f, rfl⟩ : ∃ f, fuel = f + 1 := ⟨fuel - 1, by omega⟩
    obtain ⟨m1, e1, hr, hfr, hfn, hfx, hfd⟩ := freeFirst_rep h
    obtain ⟨m2, e2, hr2, hfr2, hfn2, hfx2, hfd2⟩ := ih (fuel := f) hr (by simp only [List.length_cons] at hf; omega)
    have hxl : x.addr ≠ l := fun e => h.not_mem (by simp [e])
    have hxm : x.addr ∉ xs.map (·.addr) := (List.nodup_cons.1 (List.nodup_cons.1 (sorted_nodup h.sorted)).2).1
    refine ⟨m2, ?_, hr2, hfr2.trans hfr, ?_, ?_, ?_⟩
    · simp only [freeLoop, first_rep h, bind'_ok, List.map_cons, List.head?_cons, e1]
      exact e2
    · intro p hp hpm
      have hpm' : p ∉ xs.map (·.addr) := fun h => hpm (by simp only [List.map_cons, List.mem_cons]; exact .inr h)
      rw [hfn2 p hp hpm', hfn p hp hpm]
    · intro p hp
      simp only [List.map_cons, List.mem_cons] at hp
      rcases hp with rfl | hp
      · rw [hfn2 _ hxl hxm, hfx]
      · exact hfx2 p hp
    · rw [hfd2, hfd]
      funext q
      simp only [List.flatMap_cons, List.mem_append]
      by_cases h1 : q ∈ xs.flatMap (fun x => x.own.map (·.1))
      · simp only [h1, or_true, if_true]
      · simp only [h1, or_false, if_false]

theorem freeList_rep {m : Mem} {l : Nat} {xs : List Item} (h : Rep m l xs) :
    ∃ m', freeList m (some l) = .ok m' ∧
      (∀ p, p ∉ l :: xs.map (·.addr) → m'.node p = m.node p) ∧
      (∀ p ∈ l :: xs.map (·.addr), m'.node p = none) ∧
      (m'.dat = fun q => if q ∈ xs.flatMap (fun x => x.own.map (·.1)) then none else m.dat q) ∧
      m'.fresh = m.fresh := by
  obtain ⟨m1, e1, hr, hfr, hfn, hfx, hfd⟩ := freeLoop_rep (fuel := m.fresh + 1) h (by have := h.fuel; omega)
  obtain ⟨n, h1, h2, h3⟩ := hr.head
  have hs := hr.seg
  have hn : n.next = some l := by simpa [nxt, h1] using hs.1
  have hp : n.prev = some l := by simpa [prv, h1] using hs.2
  have hdel := del_eq h1 hn hp h1 h1 (by simp)
  refine ⟨{ m1 with node := fun q => if q = l then none else unlinkNode m1 l l l n q }, ?_, ?_, ?_, hfd, hfr⟩
  · simp only [freeList, e1, bind'_ok, freeEl, get_of h1, h3, freeOwned, hdel]
    simp [Mem.freeNode, unlinkNode]
  · intro p hp
    simp only [List.mem_cons, not_or] at hp
    rw [← hfn p hp.1 hp.2]
    simp only [hp.1, if_false, unlinkNode]
    cases m1.node p <;> rfl
  · intro p hp
    rcases List.mem_cons.1 hp with rfl | hp
    · simp
    · have hpl : p ≠ l := fun e => h.not_mem (e ▸ hp)
      simp only [hpl, if_false, unlinkNode, hfx p hp]
      rfl

/-! ## Construction -/

theorem initList_rep (m : Mem) :
    ∃ m', initList (fun _ => true) m = .ok (m', some m.fresh) ∧ Rep m' m.fresh [] ∧
      m'.fresh = m.fresh + 1 ∧ m'.dat = m.dat ∧ ∀ p, p ≠ m.fresh → m'.node p = m.node p := by
  unfold initList init Mem.newNode
  simp only [if_true]
  rw [upd_of (n := ⟨none, none, none, [], 0, 0⟩) _ (by simp), bind'_ok,
    upd_of (n := ⟨some m.fresh, none, none, [], 0, 0⟩) _ (by simp), bind'_ok,
    upd_of (n := ⟨some m.fresh, some m.fresh, none, [], 0, 0⟩) _ (by simp), bind'_ok]
  refine ⟨_, rfl, ⟨⟨by simp [nxt], by simp [prv]⟩, ⟨_, by simp; rfl, rfl, rfl⟩, by simp, by simp, by simp, by simp, by simp, by simp⟩, rfl, rfl, ?_⟩
  intro p hp
  simp [hp]

/-- Nothing is live at addresses that have not been handed out. -/
def Wf (m : Mem) : Prop := ∀ p, m.fresh ≤ p → m.node p = none ∧ m.dat p = none

/-- What appending one element does to the memory. -/
structure Pushed (m m' : Mem) (l : Nat) (xs : List Item) (y : Item) : Prop where
  rep : Rep m' l (xs ++ [y])
  fresh : m'.fresh = m.fresh + 1 + y.own.length
  addr : y.addr = m.fresh
  own : ∀ p ∈ y.own, m.fresh ≤ p.1 ∧ p.1 < m'.fresh
  node : ∀ p, p ∉ l :: xs.map (·.addr) → p ≠ m.fresh → m'.node p = m.node p
  dat : ∀ p, p ∉ y.own.map (·.1) → m'.dat p = m.dat p

theorem pushArray_rep {m : Mem} {l : Nat} {xs : List Item} (h : Rep m l xs) (al : Oracle)
    (h0 : al 0 = true) (h1 : al 1 = true) (arr : Bytes) (length : Nat) (flags : Int)
    (hlen : length ≤ arr.length) :
    ∃ m', pushArray al m (some l) (some arr) length flags = .ok (m', true) ∧
      Pushed m m' l xs ⟨m.fresh, [(m.fresh + 1, arr.take length)], length, flags⟩ := by
  unfold pushArray
  simp only [h0, if_true, memdup, h1, hlen, bind'_ok]
  rw [upd_of (n := ⟨none, none, none, [], 0, 0⟩) _ (by simp [Mem.newData, Mem.newNode]), bind'_ok]
  simp only [Mem.newData, Mem.newNode]
  generalize hm1 : Mem.mk _ _ _ = m1
  have hnode : ∀ q, q ≠ m.fresh → m1.node q = m.node q := by
    intro q hq; subst hm1; simp [hq]
  have hself : m1.node m.fresh = some ⟨none, none, none, [m.fresh + 1], length, flags⟩ := by
    subst hm1; simp
  have hfresh : m1.fresh = m.fresh + 2 := by subst hm1; rfl
  have hdat : ∀ q, q ≠ m.fresh + 1 → m1.dat q = m.dat q := by
    intro q hq; subst hm1; simp [hq]
  have hdself : m1.dat (m.fresh + 1) = some (arr.take length) := by subst hm1; simp
  have hrep : Rep m1 l xs := by
    have hne : ∀ p ∈ l :: xs.map (·.addr), p ≠ m.fresh := fun p hp => Nat.ne_of_lt (h.bound p hp)
    refine ⟨?_, ?_, ?_, h.sorted, ?_, h.dsorted, ?_, ?_⟩
    · obtain ⟨k1, k2⟩ := h.seg.last
      have hn : ∀ p ∈ l :: xs.map (·.addr), nxt m1.node p = nxt m.node p := fun p hp => by
        simp [nxt, hnode p (hne p hp)]
      refine Seg.congr h.seg (fun p hp _ => hn p hp) (fun p hp => ?_) ?_ ?_ (sorted_nodup h.sorted)
      · simp [prv, hnode p (hne p (by simp only [List.mem_cons]; exact .inr hp))]
      · rw [hn _ (List.getLast_mem _)]; exact k1
      · simpa [prv, hnode l (hne l (by simp))] using k2
    · rw [hnode l (hne l (by simp))]; exact h.head
    · intro x hx
      rw [hnode x.addr (hne x.addr (by simp only [List.mem_cons, List.mem_map]; exact .inr ⟨x, hx, rfl⟩))]
      exact h.items x hx
    · intro a ha; have := h.bound a ha; omega
    · intro x hx p hp; have := h.dbound x hx p hp; omega
    · intro x hx p hp
      have := h.dbound x hx p hp
      rw [hdat p.1 (by omega)]
      exact h.data x hx p hp
  obtain ⟨m', e, hr, hf, hd, hn⟩ := addTail_rep hrep
    ⟨m.fresh, [(m.fresh + 1, arr.take length)], length, flags⟩ _ hself (fun a ha => h.bound a ha)
    (by simp only [hfresh]; omega) rfl rfl rfl (by simp)
    (by
      intro x hx p hp q hq
      simp only [List.mem_singleton] at hq
      subst hq
      have := h.dbound x hx p hp
      simp only
      omega)
    (by simp [hfresh]) (by simp [hdself])
  refine ⟨m', by rw [e]; rfl, hr, by rw [hf, hfresh]; rfl, rfl, by simp [hf, hfresh], ?_, ?_⟩
  · intro p hp hpf
    rw [hn p hp hpf, hnode p hpf]
  · intro p hp
    rw [hd, hdat p (by simpa using hp)]

theorem pushKv_rep {m : Mem} {l : Nat} {xs : List Item} (h : Rep m l xs) (al : Oracle)
    (h0 : al 0 = true) (h1 : al 1 = true) (h2 : al 2 = true) (key value : Bytes) :
    ∃ m', pushKv al m (some l) (some key) (some value) = .ok (m', true) ∧
      Pushed m m' l xs ⟨m.fresh, [(m.fresh + 1, key), (m.fresh + 2, value)], 0, 0⟩ := by
  unfold pushKv
  simp only [h0, if_true, memdup, h1, Nat.le_refl, bind'_ok, List.take_length]
  rw [upd_of (n := ⟨none, none, none, [], 0, 0⟩) _ (by simp [Mem.newData, Mem.newNode]), bind'_ok]
  simp only [h2, if_true, bind'_ok]
  rw [upd_of (n := ⟨none, none, none, [m.fresh + 1], 0, 0⟩) _ (by simp [Mem.newData, Mem.newNode]), bind'_ok]
  simp only [Mem.newData, Mem.newNode]
  generalize hm1 : Mem.mk _ _ _ = m1
  have hnode : ∀ q, q ≠ m.fresh → m1.node q = m.node q := by
    intro q hq; subst hm1; simp [hq]
  have hself : m1.node m.fresh = some ⟨none, none, none, [m.fresh + 1, m.fresh + 2], 0, 0⟩ := by
    subst hm1; simp
  have hfresh : m1.fresh = m.fresh + 3 := by subst hm1; rfl
  have hdat : ∀ q, q ≠ m.fresh + 1 → q ≠ m.fresh + 2 → m1.dat q = m.dat q := by
    intro q hq hq2; subst hm1; simp [hq, hq2]
  have hdself : m1.dat (m.fresh + 1) = some key := by subst hm1; simp
  have hdself2 : m1.dat (m.fresh + 2) = some value := by subst hm1; simp
  have hrep : Rep m1 l xs := by
    have hne : ∀ p ∈ l :: xs.map (·.addr), p ≠ m.fresh := fun p hp => Nat.ne_of_lt (h.bound p hp)
    refine ⟨?_, ?_, ?_, h.sorted, ?_, h.dsorted, ?_, ?_⟩
    · obtain ⟨k1, k2⟩ := h.seg.last
      have hn : ∀ p ∈ l :: xs.map (·.addr), nxt m1.node p = nxt m.node p := fun p hp => by
        simp [nxt, hnode p (hne p hp)]
      refine Seg.congr h.seg (fun p hp _ => hn p hp) (fun p hp => ?_) ?_ ?_ (sorted_nodup h.sorted)
      · simp [prv, hnode p (hne p (by simp only [List.mem_cons]; exact .inr hp))]
      · rw [hn _ (List.getLast_mem _)]; exact k1
      · simpa [prv, hnode l (hne l (by simp))] using k2
    · rw [hnode l (hne l (by simp))]; exact h.head
    · intro x hx
      rw [hnode x.addr (hne x.addr (by simp only [List.mem_cons, List.mem_map]; exact .inr ⟨x, hx, rfl⟩))]
      exact h.items x hx
    · intro a ha; have := h.bound a ha; omega
    · intro x hx p hp; have := h.dbound x hx p hp; omega
    · intro x hx p hp
      have := h.dbound x hx p hp
      rw [hdat p.1 (by omega) (by omega)]
      exact h.data x hx p hp
  obtain ⟨m', e, hr, hf, hd, hn⟩ := addTail_rep hrep
    ⟨m.fresh, [(m.fresh + 1, key), (m.fresh + 2, value)], 0, 0⟩ _ hself (fun a ha => h.bound a ha)
    (by simp only [hfresh]; omega) rfl rfl rfl (by simp)
    (by
      intro x hx p hp q hq
      have := h.dbound x hx p hp
      simp only [List.mem_cons, List.not_mem_nil, or_false] at hq
      rcases hq with rfl | rfl <;> (simp only; omega))
    (by simp [hfresh]) (by simp [hdself, hdself2])
  refine ⟨m', by rw [e]; rfl, hr, by rw [hf, hfresh]; rfl, rfl, by simp [hf, hfresh], ?_, ?_⟩
  · intro p hp hpf
    rw [hn p hp hpf, hnode p hpf]
  · intro p hp
    simp only [List.map_cons, List.map_nil, List.mem_cons, List.not_mem_nil, or_false, not_or] at hp
    rw [hd, hdat p hp.1 hp.2]

end Brski.DlList
