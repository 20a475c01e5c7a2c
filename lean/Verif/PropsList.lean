import Verif.DlListLemmas

/-!
# Properties of the doubly linked lists (C22, C23, C24)
-/

namespace Brski.Props

open Brski.DlList Outcome

/-! ## Specification -/

/-- A push attempt by a client: on a binary array list or on a key/value list.  `none` is NULL. -/
inductive Push where
  | array (arr : Option Bytes) (length : Nat) (flags : Int)
  | kv (key value : Option Bytes)
deriving Repr, DecidableEq

/-- The element the client means to append; `none` when an argument is missing. -/
def Push.wanted : Push → Option (List Bytes × Nat × Int)
  | .array (some b) length flags => some ([b.take length], length, flags)
  | .kv (some k) (some v) => some ([k, v], 0, 0)
  | _ => none

/-- Callers pass a buffer that has at least the given number of bytes. -/
def Push.Valid : Push → Prop
  | .array (some b) length _ => length ≤ b.length
  | _ => True

/-- The call behind a push attempt. -/
def Push.call (al : Oracle) (m : Mem) (l : Option Nat) : Push → Outcome (Mem × Bool)
  | .array arr length flags => pushArray al m l arr length flags
  | .kv key value => pushKv al m l key value

/-- A client that pushes one after the other, the results collected. -/
def runPushes (m : Mem) (l : Option Nat) : List (Push × Oracle) → Outcome (Mem × List Bool)
  | [] => .ok (m, [])
  | (p, al) :: ps =>
    (p.call al m l).bind fun r =>
    (runPushes r.1 l ps).bind fun s => .ok (s.1, r.2 :: s.2)

/-- The elements a list must hold after a history of push attempts: the wanted ones whose memory
could be allocated, in order. -/
def accepted (ps : List (Push × Oracle)) : List (List Bytes × Nat × Int) :=
  ps.filterMap fun p => if p.2 0 then p.1.wanted else none

/-- Memory may run out, but not between the element and its data. -/
def CopyWorks (al : Oracle) : Prop := al 0 = false ∨ (al 1 = true ∧ al 2 = true)

/-! ## One push -/

/-- A push either appends exactly the wanted element or changes nothing. -/
theorem push_step {m : Mem} {l : Nat} {xs : List Item} (h : Rep m l xs) (p : Push) (al : Oracle)
    (hv : p.Valid) (ha : CopyWorks al) :
    (∃ m' y, p.call al m (some l) = .ok (m', true) ∧ Pushed m m' l xs y ∧ al 0 = true ∧
      p.wanted = some (y.own.map (·.2), y.length, y.flags)) ∨
    (p.call al m (some l) = .ok (m, false) ∧ (if al 0 then p.wanted else none) = none) := by
  cases p with
  | array arr length flags =>
    cases arr with
    | none => exact .inr ⟨rfl, by simp [Push.wanted]⟩
    | some b =>
      cases h0 : al 0 with
      | false => exact .inr ⟨by simp [Push.call, pushArray, h0], by simp⟩
      | true =>
        obtain ⟨h1, -⟩ := ha.resolve_left (by simp [h0])
        obtain ⟨m', e, hp⟩ := pushArray_rep h al h0 h1 b length flags hv
        exact .inl ⟨m', _, e, hp, rfl, rfl⟩
  | kv key value =>
    cases key with
    | none => exact .inr ⟨rfl, by simp [Push.wanted]⟩
    | some k =>
      cases value with
      | none => exact .inr ⟨rfl, by simp [Push.wanted]⟩
      | some v =>
        cases h0 : al 0 with
        | false => exact .inr ⟨by simp [Push.call, pushKv, h0], by simp⟩
        | true =>
          obtain ⟨h1, h2⟩ := ha.resolve_left (by simp [h0])
          obtain ⟨m', e, hp⟩ := pushKv_rep h al h0 h1 h2 k v
          exact .inl ⟨m', _, e, hp, rfl, rfl⟩

/-- A list whose blocks are all younger than `m0`, everything else being as in `m0`. -/
structure Since (m0 m : Mem) (l : Nat) (xs : List Item) : Prop where
  rep : Rep m l xs
  mono : m0.fresh ≤ m.fresh
  young : ∀ p ∈ l :: xs.map (·.addr), m0.fresh ≤ p
  dyoung : ∀ x ∈ xs, ∀ p ∈ x.own, m0.fresh ≤ p.1
  node : ∀ p, p ∉ l :: xs.map (·.addr) → m.node p = m0.node p
  dat : ∀ p, p ∉ xs.flatMap (fun x => x.own.map (·.1)) → m.dat p = m0.dat p

theorem since_init (m0 : Mem) : ∃ m, initList (fun _ => true) m0 = .ok (m, some m0.fresh) ∧
    Since m0 m m0.fresh [] := by
  obtain ⟨m, e, hr, hf, hd, hn⟩ := initList_rep m0
  refine ⟨m, e, hr, by omega, by simp, by simp, ?_, by simp [hd]⟩
  intro p hp
  exact hn p (by simpa using hp)

theorem since_push {m0 m m' : Mem} {l : Nat} {xs : List Item} {y : Item} (h : Since m0 m l xs)
    (hp : Pushed m m' l xs y) : Since m0 m' l (xs ++ [y]) := by
  refine ⟨hp.rep, by have := hp.fresh; have := h.mono; omega, ?_, ?_, ?_, ?_⟩
  · intro a ha
    rw [List.map_append, ← List.cons_append, List.mem_append] at ha
    rcases ha with ha | ha
    · exact h.young a ha
    · simp at ha; subst ha; rw [hp.addr]; exact h.mono
  · intro x hx q hq
    rcases List.mem_append.1 hx with hx | hx
    · exact h.dyoung x hx q hq
    · simp only [List.mem_singleton] at hx
      subst hx
      exact Nat.le_trans h.mono (hp.own q hq).1
  · intro a ha
    rw [List.map_append, ← List.cons_append, List.mem_append, not_or] at ha
    rw [hp.node a ha.1 (fun e => ha.2 (by simp [e, hp.addr])), h.node a ha.1]
  · intro a ha
    rw [List.flatMap_append, List.mem_append, not_or] at ha
    rw [hp.dat a (by simpa using ha.2), h.dat a ha.1]

theorem runPushes_since {m0 : Mem} {l : Nat} : ∀ (ps : List (Push × Oracle)) {m : Mem} {xs : List Item},
    Since m0 m l xs → (∀ p ∈ ps, p.1.Valid ∧ CopyWorks p.2) →
    ∃ m' ys, runPushes m (some l) ps =
        .ok (m', ps.map fun p => (if p.2 0 then p.1.wanted else none).isSome) ∧
      Since m0 m' l (xs ++ ys) ∧ ys.map (fun y => (y.own.map (·.2), y.length, y.flags)) = accepted ps
  | [], m, xs, h, _ => ⟨m, [], rfl, by simpa using h, rfl⟩
  | (p, al) :: ps, m, xs, h, hv => by
    obtain ⟨hv1, hc1⟩ := hv (p, al) (by simp)
    have hrest := fun q hq => hv q (List.mem_cons_of_mem _ hq)
    rcases push_step h.rep p al hv1 hc1 with ⟨m1, y, e, hp, h0, hw⟩ | ⟨e, hw⟩
    · obtain ⟨m2, ys, e2, hs, ha⟩ := runPushes_since ps (since_push h hp) hrest
      refine ⟨m2, y :: ys, ?_, by simpa using hs, ?_⟩
      · simp only [runPushes, e, bind'_ok, e2, List.map_cons, h0, if_true, hw, Option.isSome_some]
      · simp only [accepted, List.filterMap_cons, h0, if_true, hw, List.map_cons] at ha ⊢
        rw [ha]
    · obtain ⟨m2, ys, e2, hs, ha⟩ := runPushes_since ps h hrest
      refine ⟨m2, ys, ?_, hs, ?_⟩
      · simp only [runPushes, e, bind'_ok, e2, List.map_cons, hw, Option.isSome_none]
      · simp only [accepted, List.filterMap_cons, hw] at ha ⊢
        exact ha

/-! ## C22 -/

/-- **C22** A list is a first-in first-out sequence of copies: starting from any memory, after any
history of push attempts (missing arguments and exhausted memory for the element included) the
return values tell exactly which attempts appended something, a traversal (either loop macro)
reads exactly the copies of the appended data in order, the length is their number, nothing that
existed before has changed, and all blocks of the list are new. -/
theorem C22_fifo (m0 : Mem) (ps : List (Push × Oracle)) (hv : ∀ p ∈ ps, p.1.Valid ∧ CopyWorks p.2) :
    ∃ m1 l m, initList (fun _ => true) m0 = .ok (m1, some l) ∧
      runPushes m1 (some l) ps =
        .ok (m, ps.map fun p => (if p.2 0 then p.1.wanted else none).isSome) ∧
      contents m l = .ok (accepted ps) ∧
      (∃ els, each m l = .ok els ∧ eachSafe m l = .ok els ∧ els.length = (accepted ps).length ∧
        els.Nodup ∧ ∀ e ∈ els, m0.fresh ≤ e) ∧
      ((accepted ps).length < 2 ^ 31 → len m l = .ok (accepted ps).length) ∧
      (∀ p, p < m0.fresh → m.node p = m0.node p ∧ m.dat p = m0.dat p) := by
  obtain ⟨m1, e, hs⟩ := since_init m0
  obtain ⟨m, ys, e2, hs2, ha⟩ := runPushes_since ps hs hv
  rw [List.nil_append] at hs2
  have hl : (accepted ps).length = ys.length := by rw [← ha, List.length_map]
  refine ⟨m1, m0.fresh, m, e, e2, by rw [contents_rep hs2.rep, ha], ⟨ys.map (·.addr), each_rep hs2.rep,
    eachSafe_rep hs2.rep, by simp [hl], (List.nodup_cons.1 (sorted_nodup hs2.rep.sorted)).2,
    fun a h => hs2.young a (List.mem_cons_of_mem _ h)⟩, ?_, ?_⟩
  · intro h
    rw [len_rep hs2.rep (by rw [← hl]; exact h), hl]
  · intro p hp
    refine ⟨hs2.node p fun hm => ?_, hs2.dat p fun hm => ?_⟩
    · have := hs2.young p hm; omega
    · obtain ⟨x, hx, hm⟩ := List.mem_flatMap.1 hm
      obtain ⟨q, hq, rfl⟩ := List.mem_map.1 hm
      have := hs2.dyoung x hx q hq; omega

/-- An empty memory. -/
def mem0 : Mem := ⟨0, fun _ => none, fun _ => none⟩

/-- A history with a successful push, a missing argument, an exhausted memory and another push. -/
def demoPushes : List (Push × Oracle) :=
  [(.array (some [1, 2, 3]) 2 7, fun _ => true), (.array none 4 0, fun _ => true),
   (.array (some [9]) 1 0, fun _ => false), (.kv (some (str "k")) (some (str "v")), fun _ => true)]

/-- Non-vacuity of `C22_fifo` and `C23_free`. -/
example : (∀ p ∈ demoPushes, p.1.Valid ∧ CopyWorks p.2) ∧
    accepted demoPushes = [([[1, 2]], 2, 7), ([str "k", str "v"], 0, 0)] := by
  refine ⟨?_, by decide⟩
  simp [demoPushes, Push.Valid, CopyWorks]

/-- The model run on this history. -/
example : (initList (fun _ => true) mem0).bind (fun r => (runPushes r.1 r.2 demoPushes).bind fun s =>
    (contents s.1 0).bind fun c => .ok (s.2, c)) =
    .ok ([true, false, false, true], [([[1, 2]], 2, 7), ([str "k", str "v"], 0, 0)]) := by decide

/-! ## C23 -/

/-- **C23** Releasing a list built by any history of push attempts is defined (no block is freed
twice, nothing dead is touched) and leaves exactly the memory there was before the list was
created: every node and every copy is released and nothing else. -/
theorem C23_free (m0 : Mem) (hw : Wf m0) (ps : List (Push × Oracle))
    (hv : ∀ p ∈ ps, p.1.Valid ∧ CopyWorks p.2) :
    ∃ m1 l m rs m', initList (fun _ => true) m0 = .ok (m1, some l) ∧
      runPushes m1 (some l) ps = .ok (m, rs) ∧ freeList m (some l) = .ok m' ∧
      m'.node = m0.node ∧ m'.dat = m0.dat := by
  obtain ⟨m1, e, hs⟩ := since_init m0
  obtain ⟨m, ys, e2, hs2, -⟩ := runPushes_since ps hs hv
  rw [List.nil_append] at hs2
  obtain ⟨m', e3, h1, h2, h3, -⟩ := freeList_rep hs2.rep
  refine ⟨m1, m0.fresh, m, _, m', e, e2, e3, ?_, ?_⟩
  · funext p
    by_cases hp : p ∈ m0.fresh :: ys.map (·.addr)
    · rw [h2 p hp, (hw p (hs2.young p hp)).1]
    · rw [h1 p hp, hs2.node p hp]
  · funext p
    rw [h3]
    simp only
    split
    · rename_i hm
      obtain ⟨x, hx, hm⟩ := List.mem_flatMap.1 hm
      obtain ⟨q, hq, rfl⟩ := List.mem_map.1 hm
      rw [(hw q.1 (hs2.dyoung x hx q hq)).2]
    · rename_i hm
      exact hs2.dat p hm

/-- Releasing a missing list does nothing. -/
theorem C23_free_null (m : Mem) : freeList m none = .ok m := rfl

/-- Releasing the same list a second time is undefined: the head is dead. -/
example : (initList (fun _ => true) mem0).bind (fun r => (freeList r.1 r.2).bind fun m =>
    (freeList m r.2).bind fun _ => .ok true) = .ub := by decide

/-- Non-vacuity of `C23_free`. -/
example : Wf mem0 := fun _ _ => ⟨rfl, rfl⟩

/-! ## C24 -/

/-- **C24** (full statement) Whatever allocation of a push fails, the call is defined, returns -1 and
the list is unchanged. -/
def C24_statement : Prop :=
  ∀ (m : Mem) (l : Nat) (xs : List Item) (p : Push) (al : Oracle), Rep m l xs → p.Valid →
    al 0 = false ∨ al 1 = false ∨ al 2 = false →
    ∃ m' r, p.call al m (some l) = .ok (m', r) ∧ (r = false → contents m' l = contents m l)

/-- The copy of the data cannot be allocated. -/
def copyFails : Oracle := fun i => i == 0

/-- The copy of the value cannot be allocated. -/
def valueFails : Oracle := fun i => i != 2

/-- When the element is allocated but the copy of the data is not, `push_array_list` releases the
element through `dl_list_del`, whose links are still NULL: undefined, for every list. -/
theorem push_array_copy_fails (m : Mem) (l : Nat) (arr : Bytes) (length : Nat) (flags : Int) (al : Oracle)
    (h0 : al 0 = true) (h1 : al 1 = false) :
    pushArray al m (some l) (some arr) length flags = .ub := by
  simp [pushArray, h0, h1, memdup, freeEl, Mem.get, Mem.newNode, freeOwned, del, Mem.upd]

/-- The same for `push_keyvalue_list` and its two copies. -/
theorem push_kv_copy_fails (m : Mem) (l : Nat) (k v : Bytes) (al : Oracle) (h0 : al 0 = true)
    (h1 : al 1 = false ∨ al 2 = false) : pushKv al m (some l) (some k) (some v) = .ub := by
  cases e1 : al 1 with
  | false => simp [pushKv, h0, e1, memdup, freeEl, Mem.get, Mem.newNode, freeOwned, del, Mem.upd]
  | true =>
    have e2 : al 2 = false := by simpa [e1] using h1
    simp [pushKv, h0, e1, e2, memdup, freeEl, Mem.get, Mem.newNode, Mem.newData, freeOwned, del, Mem.upd,
      Mem.freeData]

/-- **C24 is violated**: with the copy failing, a push on a new list is undefined. -/
theorem C24_violated : ¬ C24_statement := by
  intro h
  obtain ⟨m, -, hs⟩ := since_init mem0
  obtain ⟨m', r, e, -⟩ := h m _ [] (.array (some [1]) 1 0) copyFails hs.rep (by simp [Push.Valid]) (by decide)
  rw [Push.call, push_array_copy_fails m _ [1] 1 0 copyFails (by decide) (by decide)] at e
  cases e

/-- **C24** for the key/value list: both copies can trigger it. -/
theorem C24_violated_keyvalue (m : Mem) (l : Nat) (k v : Bytes) :
    pushKv copyFails m (some l) (some k) (some v) = .ub ∧
    pushKv valueFails m (some l) (some k) (some v) = .ub :=
  ⟨push_kv_copy_fails m l k v _ (by decide) (.inl (by decide)),
   push_kv_copy_fails m l k v _ (by decide) (.inr (by decide))⟩

/-- **C24, proved part**: a push is undefined exactly when it got the element but not a copy; when
the element itself cannot be allocated the call returns -1 with the memory untouched. -/
theorem C24_partial {m : Mem} {l : Nat} {xs : List Item} (h : Rep m l xs) (p : Push) (al : Oracle)
    (hv : p.Valid) :
    (al 0 = false → p.call al m (some l) = .ok (m, false)) ∧
    (p.call al m (some l) = .ub ↔ al 0 = true ∧ match p with
      | .array (some _) _ _ => al 1 = false
      | .kv (some _) (some _) => al 1 = false ∨ al 2 = false
      | _ => False) := by
  constructor
  · intro h0
    cases p with
    | array arr length flags => cases arr <;> simp [Push.call, pushArray, h0]
    | kv key value => cases key <;> cases value <;> simp [Push.call, pushKv, h0]
  · cases p with
    | array arr length flags =>
      cases arr with
      | none => simp [Push.call, pushArray]
      | some b =>
        cases h0 : al 0 with
        | false => simp [Push.call, pushArray, h0]
        | true =>
          cases h1 : al 1 with
          | false => simp [Push.call, push_array_copy_fails m l b length flags al h0 h1]
          | true =>
            obtain ⟨m', e, -⟩ := pushArray_rep h al h0 h1 b length flags hv
            simp [Push.call, e]
    | kv key value =>
      cases key with
      | none => simp [Push.call, pushKv]
      | some k =>
        cases value with
        | none => simp [Push.call, pushKv]
        | some v =>
          cases h0 : al 0 with
          | false => simp [Push.call, pushKv, h0]
          | true =>
            by_cases h1 : al 1 = false ∨ al 2 = false
            · simp [Push.call, push_kv_copy_fails m l k v al h0 h1, h1]
            · have h1' : al 1 = true ∧ al 2 = true := by simpa [not_or] using h1
              obtain ⟨m', e, -⟩ := pushKv_rep h al h0 h1'.1 h1'.2 k v
              simp [Push.call, e, h1'.1, h1'.2]

/-- Non-vacuity of `C24_partial`: a list with two elements. -/
example : ∃ m l xs, Rep m l xs ∧ xs.length = 2 := by
  obtain ⟨m1, e, hs⟩ := since_init mem0
  obtain ⟨m, ys, e2, hs2, ha⟩ := runPushes_since demoPushes hs (by simp [demoPushes, Push.Valid, CopyWorks])
  refine ⟨m, _, _, hs2.rep, ?_⟩
  have := congrArg List.length ha
  simpa using this.trans (by decide : (accepted demoPushes).length = 2)

end Brski.Props
