import Verif.Parallel

/-!
# Programs in parallel: from undisturbed runs to all interleavings
-/

namespace Brski.Res
open Outcome

/-! ## Weakest preconditions -/

/-- All runs of the program from the memory, with any results of calls and any names for new objects, are
defined and end in `Post` (/repo/src/voucher/crypto_ossl.c:60-1694). -/
def wp {α : Type} (Post : α → Shared → Prop) : Prog α → Shared → Prop
  | .ret a, g => Post a g
  | .ub, _ => False
  | .draw f, g => ∀ r, wp Post (f r) g
  | .fresh k f, g => ∀ i, g.next ≤ i → wp Post (f i) (g.make k i)
  | .use k i p, g => g.Has k i ∧ wp Post p g
  | .drop k i p, g => g.Has k i ∧ wp Post p (g.setCnt i (g.cnt i - 1))
  | .up k i p, g => g.Has k i ∧ wp Post p (g.setCnt i (g.cnt i + 1))

/-- Two states that agree for all that is to come (/repo/src/voucher/crypto_ossl.c:60-1694). -/
structure Same (s t : St) : Prop where
  next : s.next = t.next
  kind : s.kind = t.kind
  cnt : s.cnt = t.cnt
  tape : ∀ n, s.tape (s.pos + n) = t.tape (t.pos + n)
  gap : ∀ n, s.next ≤ n → s.gap n = t.gap n

theorem Same.has {s t : St} (h : Same s t) {k : Kind} {i : Nat} (hh : s.Has k i) : t.Has k i :=
  ⟨by rw [← h.cnt]; exact hh.1, by rw [← h.kind]; exact hh.2⟩

theorem run_same {α : Type} : ∀ (p : Prog α) (s t : St), Same s t → ∀ a s', p s = .ok (a, s') →
    ∃ t', p t = .ok (a, t') ∧ s'.sh = t'.sh := by
  intro p
  induction p with
  | ret b =>
    intro s t h a s' e
    cases e
    exact ⟨t, rfl, by show (⟨_, _, _⟩ : Shared) = ⟨_, _, _⟩; rw [h.next, h.kind, h.cnt]⟩
  | ub => intro s t h a s' e; cases e
  | draw f ih =>
    intro s t h a s' e
    have h0 : s.tape s.pos = t.tape t.pos := h.tape 0
    have e : (f (s.tape s.pos)).run { s with pos := s.pos + 1 } = .ok (a, s') := e
    rw [h0] at e
    refine ih _ { s with pos := s.pos + 1 } { t with pos := t.pos + 1 } ⟨h.next, h.kind, h.cnt, fun n => ?_, h.gap⟩ a s' e
    have := h.tape (1 + n)
    rw [← Nat.add_assoc, ← Nat.add_assoc] at this
    exact this
  | fresh k f ih =>
    intro s t h a s' e
    have h0 : s.next + s.gap s.next = t.next + t.gap t.next := by rw [h.gap _ (Nat.le_refl _), h.next]
    have e : (f (s.next + s.gap s.next)).run (s.make k (s.next + s.gap s.next)) = .ok (a, s') := e
    have hle : s.next ≤ s.next + s.gap s.next := Nat.le_add_right _ _
    show ∃ t', (f (t.next + t.gap t.next)).run (t.make k (t.next + t.gap t.next)) = .ok (a, t') ∧ _
    rw [← h0]
    generalize s.next + s.gap s.next = i at e hle
    refine ih _ (s.make k i) (t.make k i) ⟨rfl, ?_, ?_, h.tape, fun n hn => h.gap n ?_⟩ a s' e
    · show (fun j => if j = i then k else s.kind j) = fun j => if j = i then k else t.kind j
      rw [h.kind]
    · show (fun j => if j = i then 1 else s.cnt j) = fun j => if j = i then 1 else t.cnt j
      rw [h.cnt]
    · have hn : i + 1 ≤ n := hn
      omega
  | use k i p ih =>
    intro s t h a s' e
    have e : (if s.Has k i then p.run s else .ub) = .ok (a, s') := e
    show ∃ t', (if t.Has k i then p.run t else .ub) = .ok (a, t') ∧ _
    split at e
    · rename_i hh
      rw [if_pos (h.has hh)]
      exact ih s t h a s' e
    · cases e
  | drop k i p ih =>
    intro s t h a s' e
    have e : (if s.Has k i then p.run (s.setCnt i (s.cnt i - 1)) else .ub) = .ok (a, s') := e
    show ∃ t', (if t.Has k i then p.run (t.setCnt i (t.cnt i - 1)) else .ub) = .ok (a, t') ∧ _
    split at e
    · rename_i hh
      rw [if_pos (h.has hh)]
      refine ih (s.setCnt i (s.cnt i - 1)) (t.setCnt i (t.cnt i - 1)) ⟨h.next, h.kind, ?_, h.tape, h.gap⟩ a s' e
      show (fun j => if j = i then s.cnt i - 1 else s.cnt j) = fun j => if j = i then t.cnt i - 1 else t.cnt j
      rw [h.cnt]
    · cases e
  | up k i p ih =>
    intro s t h a s' e
    have e : (if s.Has k i then p.run (s.setCnt i (s.cnt i + 1)) else .ub) = .ok (a, s') := e
    show ∃ t', (if t.Has k i then p.run (t.setCnt i (t.cnt i + 1)) else .ub) = .ok (a, t') ∧ _
    split at e
    · rename_i hh
      rw [if_pos (h.has hh)]
      refine ih (s.setCnt i (s.cnt i + 1)) (t.setCnt i (t.cnt i + 1)) ⟨h.next, h.kind, ?_, h.tape, h.gap⟩ a s' e
      show (fun j => if j = i then s.cnt i + 1 else s.cnt j) = fun j => if j = i then t.cnt i + 1 else t.cnt j
      rw [h.cnt]
    · cases e

/-- A memory with the choices to come (/repo/src/voucher/crypto_ossl.c:60-1694). -/
def Shared.withTape (g : Shared) (tape : Nat → Int) (gap : Nat → Nat) : St := ⟨tape, 0, g.next, g.kind, g.cnt, gap⟩

/-- When every undisturbed run is defined and ends well, so does every run with other choices on the way. -/
theorem wp_of_run {α : Type} {Post : α → Shared → Prop} : ∀ (p : Prog α) (g : Shared),
    (∀ tape gap, ∃ a s', p (g.withTape tape gap) = .ok (a, s') ∧ Post a s'.sh) → wp Post p g := by
  intro p
  induction p with
  | ret a =>
    intro g h
    obtain ⟨b, s', e, hp⟩ := h (fun _ => 0) (fun _ => 0)
    cases e
    exact hp
  | ub =>
    intro g h
    obtain ⟨b, s', e, _⟩ := h (fun _ => 0) (fun _ => 0)
    cases e
  | draw f ih =>
    intro g h r
    refine ih r g fun tape gap => ?_
    obtain ⟨a, s', e, hp⟩ := h (fun n => if n = 0 then r else tape (n - 1)) gap
    have e : (f r).run ⟨fun n => if n = 0 then r else tape (n - 1), 1, g.next, g.kind, g.cnt, gap⟩ = .ok (a, s') := e
    obtain ⟨t', e', hs⟩ := run_same (f r) ⟨fun n => if n = 0 then r else tape (n - 1), 1, g.next, g.kind, g.cnt, gap⟩
      (g.withTape tape gap) ⟨rfl, rfl, rfl, fun n => by
      show (if 1 + n = 0 then r else tape (1 + n - 1)) = tape (0 + n)
      rw [if_neg (by omega)]; congr 1; omega, fun _ _ => rfl⟩ a s' e
    exact ⟨a, t', e', hs ▸ hp⟩
  | fresh k f ih =>
    intro g h i hi
    refine ih i _ fun tape gap => ?_
    obtain ⟨a, s', e, hp⟩ := h tape (fun n => if n = g.next then i - g.next else gap n)
    have hid : g.next + (if g.next = g.next then i - g.next else gap g.next) = i := by rw [if_pos rfl]; omega
    have e : (f (g.next + (if g.next = g.next then i - g.next else gap g.next))).run
        (St.make (g.withTape tape fun n => if n = g.next then i - g.next else gap n) k
          (g.next + (if g.next = g.next then i - g.next else gap g.next))) = .ok (a, s') := e
    rw [hid] at e
    obtain ⟨t', e', hs⟩ := run_same (f i)
      (St.make (g.withTape tape fun n => if n = g.next then i - g.next else gap n) k i) ((g.make k i).withTape tape gap) ⟨rfl, rfl, rfl, fun _ => rfl, fun n hn => by
      have hn : i + 1 ≤ n := hn
      show (if n = g.next then i - g.next else gap n) = gap n
      rw [if_neg (by omega)]⟩ a s' e
    exact ⟨a, t', e', hs ▸ hp⟩
  | use k i p ih =>
    intro g h
    have hh : g.Has k i := by
      obtain ⟨a, s', e, _⟩ := h (fun _ => 0) (fun _ => 0)
      have e : (if g.Has k i then p.run _ else .ub) = .ok (a, s') := e
      split at e
      · assumption
      · cases e
    refine ⟨hh, ih g fun tape gap => ?_⟩
    obtain ⟨a, s', e, hp⟩ := h tape gap
    have e : (if g.Has k i then p.run (g.withTape tape gap) else .ub) = .ok (a, s') := e
    rw [if_pos hh] at e
    exact ⟨a, s', e, hp⟩
  | drop k i p ih =>
    intro g h
    have hh : g.Has k i := by
      obtain ⟨a, s', e, _⟩ := h (fun _ => 0) (fun _ => 0)
      have e : (if g.Has k i then p.run _ else .ub) = .ok (a, s') := e
      split at e
      · assumption
      · cases e
    refine ⟨hh, ih _ fun tape gap => ?_⟩
    obtain ⟨a, s', e, hp⟩ := h tape gap
    have e : (if g.Has k i then p.run ((g.setCnt i (g.cnt i - 1)).withTape tape gap) else .ub) = .ok (a, s') := e
    rw [if_pos hh] at e
    exact ⟨a, s', e, hp⟩
  | up k i p ih =>
    intro g h
    have hh : g.Has k i := by
      obtain ⟨a, s', e, _⟩ := h (fun _ => 0) (fun _ => 0)
      have e : (if g.Has k i then p.run _ else .ub) = .ok (a, s') := e
      split at e
      · assumption
      · cases e
    refine ⟨hh, ih _ fun tape gap => ?_⟩
    obtain ⟨a, s', e, hp⟩ := h tape gap
    have e : (if g.Has k i then p.run ((g.setCnt i (g.cnt i + 1)).withTape tape gap) else .ub) = .ok (a, s') := e
    rw [if_pos hh] at e
    exact ⟨a, s', e, hp⟩

/-- What is dead stays dead. -/
theorem wp_dead {α : Type} {Post : α → Shared → Prop} : ∀ (p : Prog α) (g : Shared) (i : Nat), wp Post p g →
    g.cnt i = 0 → i < g.next → ∃ a g', Post a g' ∧ g'.cnt i = 0 := by
  intro p
  induction p with
  | ret a => exact fun g i h h0 _ => ⟨a, g, h, h0⟩
  | ub => exact fun g i h => False.elim h
  | draw f ih => exact fun g i h h0 hn => ih 0 g i (h 0) h0 hn
  | fresh k f ih =>
    intro g i h h0 hn
    refine ih g.next _ i (h g.next (Nat.le_refl _)) ?_ (by show i < g.next + 1; omega)
    show (if i = g.next then 1 else g.cnt i) = 0
    rw [if_neg (by omega), h0]
  | use k j p ih => exact fun g i h h0 hn => ih g i h.2 h0 hn
  | drop k j p ih =>
    intro g i h h0 hn
    refine ih _ i h.2 ?_ hn
    show (if i = j then g.cnt j - 1 else g.cnt i) = 0
    split
    · rename_i e; rw [← e, h0]
    · exact h0
  | up k j p ih =>
    intro g i h h0 hn
    refine ih _ i h.2 ?_ hn
    show (if i = j then g.cnt j + 1 else g.cnt i) = 0
    have := h.1.1
    rw [if_neg (by intro e; rw [e] at h0; omega), h0]

/-! ## Sums over the threads -/

/-- A sum over the threads (/repo/src/brski/http/httplib.h:668-741). -/
def sumTo : Nat → (Nat → Nat) → Nat
  | 0, _ => 0
  | n + 1, f => sumTo n f + f n

theorem sumTo_congr {n : Nat} {f f' : Nat → Nat} (h : ∀ m < n, f m = f' m) : sumTo n f = sumTo n f' := by
  induction n with
  | zero => rfl
  | succ n ih => simp only [sumTo, ih (fun m hm => h m (by omega)), h n (by omega)]

theorem sumTo_zero {n : Nat} {f : Nat → Nat} (h : ∀ m < n, f m = 0) : sumTo n f = 0 := by
  induction n with
  | zero => rfl
  | succ n ih => simp only [sumTo, ih (fun m hm => h m (by omega)), h n (by omega)]

theorem sumTo_set {n j : Nat} (hj : j < n) {f f' : Nat → Nat} (h : ∀ m, m ≠ j → f' m = f m) :
    sumTo n f' + f j = sumTo n f + f' j := by
  induction n with
  | zero => omega
  | succ n ih =>
    simp only [sumTo]
    by_cases e : j = n
    · subst e
      rw [sumTo_congr (f := f') (f' := f) fun m hm => h m (by omega)]; omega
    · have := ih (by omega)
      rw [h n (fun x => e x.symm)]; omega

theorem sumTo_le {n j : Nat} (hj : j < n) (f : Nat → Nat) : f j ≤ sumTo n f := by
  induction n with
  | zero => omega
  | succ n ih =>
    simp only [sumTo]
    by_cases e : j = n
    · subst e; omega
    · have := ih (by omega); omega

theorem sumTo_add (n : Nat) (f f' : Nat → Nat) : sumTo n (fun m => f m + f' m) = sumTo n f + sumTo n f' := by
  induction n with
  | zero => rfl
  | succ n ih => simp only [sumTo, ih]; omega

/-! ## The invariant -/

/-- Each thread has a memory of its own, in which it is not disturbed; `base` is what is lent to it and `c0`
what belongs to no thread (/repo/src/brski/http/httplib.h:668-741). -/
structure Inv {α : Type} (n : Nat) (Post : Nat → α → Shared → Prop) (base : Nat → Nat → Nat) (c0 : Nat → Nat)
    (g : Shared) (ts : Threads α) (own : Nat → Shared) : Prop where
  pre : ∀ j < n, wp (Post j) (ts j) (own j)
  lent : ∀ j < n, ∀ i, base j i ≤ (own j).cnt i
  sum : ∀ i, g.cnt i = c0 i + sumTo n fun j => (own j).cnt i - base j i
  kinds : ∀ j < n, ∀ i, 0 < (own j).cnt i → (own j).kind i = g.kind i
  next : ∀ j < n, (own j).next ≤ g.next
  unused : ∀ j < n, ∀ i, (own j).next ≤ i → (own j).cnt i = 0
  outer : ∀ i, g.next ≤ i → c0 i = 0

theorem Inv.has {α : Type} {n : Nat} {Post : Nat → α → Shared → Prop} {base : Nat → Nat → Nat} {c0 : Nat → Nat}
    {g : Shared} {ts : Threads α} {own : Nat → Shared} (h : Inv n Post base c0 g ts own)
    (hb : ∀ j < n, ∀ i, base j i ≤ c0 i) {j : Nat} (hj : j < n) {k : Kind} {i : Nat} (hh : (own j).Has k i) : g.Has k i := by
  refine ⟨?_, by rw [← h.kinds j hj i hh.1]; exact hh.2⟩
  have h1 := h.sum i
  have h2 : (own j).cnt i - base j i ≤ sumTo n fun j => (own j).cnt i - base j i :=
    sumTo_le hj fun j => (own j).cnt i - base j i
  have h3 := hb j hj i
  have h4 := hh.1
  omega

/-- One private memory changes (/repo/src/brski/http/httplib.h:668-741). -/
def setOwn (own : Nat → Shared) (j : Nat) (o : Shared) : Nat → Shared := fun m => if m = j then o else own m

theorem inv_step {α : Type} {n : Nat} {Post : Nat → α → Shared → Prop} {base : Nat → Nat → Nat} {c0 : Nat → Nat}
    {g g' : Shared} {ts ts' : Threads α} {own : Nat → Shared} (h : Inv n Post base c0 g ts own)
    (hb : ∀ j < n, ∀ i, base j i ≤ c0 i) (h1 : ∀ j < n, ∀ i, base j i ≤ 1)
    (hP : ∀ j < n, ∀ a o, Post j a o → ∀ i, base j i ≤ o.cnt i) (hs : PStep n (g, ts) (g', ts')) :
    ∃ own', Inv n Post base c0 g' ts' own' := by
  cases hs with
  | @one _ _ _ q j hj st =>
  have same : ∀ o : Shared, ∀ m, m ≠ j → setOwn own j o m = own m := fun o m hm => if_neg hm
  have at' : ∀ o : Shared, setOwn own j o j = o := fun o => if_pos rfl
  have tsame : ∀ m, m ≠ j → (ts.set j q) m = ts m := fun m hm => if_neg hm
  have tat : (ts.set j q) j = q := if_pos rfl
  -- a step that leaves the memory alone
  have quiet : wp (Post j) q (own j) → Inv n Post base c0 g (ts.set j q) own := fun hq =>
    ⟨fun m hm => by
      by_cases e : m = j
      · rw [e, tat]; exact hq
      · rw [tsame m e]; exact h.pre m hm, h.lent, h.sum, h.kinds, h.next, h.unused, h.outer⟩
  -- a step that changes one counter
  have count : ∀ (i : Nat) (c c' : Nat), 0 < (own j).cnt i → wp (Post j) q ((own j).setCnt i c) → base j i ≤ c →
      (c' + (own j).cnt i = g.cnt i + c) →
      Inv n Post base c0 (g.setCnt i c') (ts.set j q) (setOwn own j ((own j).setCnt i c)) := by
    intro i c c' hp hq hle hc
    have hlt : i < (own j).next := by
      rcases Nat.lt_or_ge i (own j).next with hlt | hge
      · exact hlt
      · have := h.unused j hj i hge; omega
    refine ⟨fun m hm => ?_, fun m hm x => ?_, fun x => ?_, fun m hm x hx => ?_, fun m hm => ?_, fun m hm x hx => ?_, h.outer⟩
    · by_cases e : m = j
      · rw [e, tat, at']; exact hq
      · rw [tsame m e, same _ m e]; exact h.pre m hm
    · by_cases e : m = j
      · rw [e, at']
        show base j x ≤ if x = i then c else (own j).cnt x
        split
        · rename_i ex; rw [ex]; exact hle
        · exact h.lent j hj x
      · rw [same _ m e]; exact h.lent m hm x
    · show (if x = i then c' else g.cnt x) = _
      by_cases ex : x = i
      · subst ex
        rw [if_pos rfl]
        have hset := sumTo_set hj (f := fun m => (own m).cnt x - base m x)
          (f' := fun m => (setOwn own j ((own j).setCnt x c) m).cnt x - base m x) fun m hm => by
            show (setOwn own j ((own j).setCnt x c) m).cnt x - base m x = (own m).cnt x - base m x
            rw [same _ m hm]
        simp only [at'] at hset
        have hx : ((own j).setCnt x c).cnt x = c := if_pos rfl
        rw [hx] at hset
        have := h.sum x
        have := h.lent j hj x
        omega
      · rw [if_neg ex, h.sum x]
        congr 1
        refine sumTo_congr fun m hm => ?_
        by_cases e : m = j
        · rw [e, at']
          show _ = (if x = i then c else (own j).cnt x) - base j x
          rw [if_neg ex]
        · rw [same _ m e]
    · by_cases e : m = j
      · rw [e, at'] at hx ⊢
        have hx : 0 < if x = i then c else (own j).cnt x := hx
        show (own j).kind x = g.kind x
        refine h.kinds j hj x ?_
        by_cases ex : x = i
        · rw [ex]; exact hp
        · rw [if_neg ex] at hx; exact hx
      · rw [same _ m e] at hx ⊢; exact h.kinds m hm x hx
    · by_cases e : m = j
      · rw [e, at']; exact h.next j hj
      · rw [same _ m e]; exact h.next m hm
    · by_cases e : m = j
      · rw [e, at'] at hx ⊢
        have hx : (own j).next ≤ x := hx
        show (if x = i then c else (own j).cnt x) = 0
        rw [if_neg (by omega)]
        exact h.unused j hj x hx
      · rw [same _ m e] at hx ⊢; exact h.unused m hm x hx
  have hpre := h.pre j hj
  generalize hp : ts j = p at st hpre
  cases st with
  | draw r => exact ⟨own, quiet (hpre r)⟩
  | use hh => exact ⟨own, quiet hpre.2⟩
  | @up k i p hh =>
    have hpos := hpre.1.1
    exact ⟨_, count i ((own j).cnt i + 1) _ hpos hpre.2 (by have := h.lent j hj i; omega) (by omega)⟩
  | @drop k i p hh =>
    have hpos := hpre.1.1
    have hlt : i < (own j).next := by
      rcases Nat.lt_or_ge i (own j).next with hlt | hge
      · exact hlt
      · have := h.unused j hj i hge; omega
    refine ⟨_, count i ((own j).cnt i - 1) _ hpos hpre.2 ?_ (by have := hh.1; omega)⟩
    have hl1 := h1 j hj i
    rcases Nat.lt_or_ge (base j i) (own j |>.cnt i) with hlt' | hge
    · omega
    · obtain ⟨a, o, hpost, h0⟩ := wp_dead q _ i hpre.2
        (by show (if i = i then (own j).cnt i - 1 else (own j).cnt i) = 0; rw [if_pos rfl]; omega) hlt
      have := hP j hj a o hpost i
      omega
  | @fresh k f i hi =>
    have hge : (own j).next ≤ i := Nat.le_trans (h.next j hj) hi
    have h0 : ∀ m < n, (own m).cnt i = 0 := fun m hm => h.unused m hm i (Nat.le_trans (h.next m hm) hi)
    refine ⟨setOwn own j ((own j).make k i), fun m hm => ?_, fun m hm x => ?_, fun x => ?_, fun m hm x hx => ?_, fun m hm => ?_,
      fun m hm x hx => ?_, fun x hx => h.outer x ?_⟩
    · by_cases e : m = j
      · rw [e, tat, at']; exact hpre i hge
      · rw [tsame m e, same _ m e]; exact h.pre m hm
    · by_cases e : m = j
      · rw [e, at']
        show base j x ≤ if x = i then 1 else (own j).cnt x
        split
        · exact h1 j hj x
        · exact h.lent j hj x
      · rw [same _ m e]; exact h.lent m hm x
    · show (if x = i then 1 else g.cnt x) = _
      by_cases ex : x = i
      · subst ex
        rw [if_pos rfl]
        have hset := sumTo_set hj (f := fun m => (own m).cnt x - base m x)
          (f' := fun m => (setOwn own j ((own j).make k x) m).cnt x - base m x) fun m hm => by
            show (setOwn own j ((own j).make k x) m).cnt x - base m x = (own m).cnt x - base m x
            rw [same _ m hm]
        simp only [at'] at hset
        have hx : ((own j).make k x).cnt x = 1 := if_pos rfl
        rw [hx, sumTo_zero (f := fun m => (own m).cnt x - base m x) fun m hm => by rw [h0 m hm]; omega] at hset
        have h2 := h.outer x hi
        have h3 := h0 j hj
        have h4 := hb j hj x
        omega
      · rw [if_neg ex, h.sum x]
        congr 1
        refine sumTo_congr fun m hm => ?_
        by_cases e : m = j
        · rw [e, at']
          show _ = (if x = i then 1 else (own j).cnt x) - base j x
          rw [if_neg ex]
        · rw [same _ m e]
    · by_cases e : m = j
      · rw [e, at'] at hx ⊢
        have hx : 0 < if x = i then 1 else (own j).cnt x := hx
        show (if x = i then k else (own j).kind x) = if x = i then k else g.kind x
        by_cases ex : x = i
        · rw [if_pos ex, if_pos ex]
        · rw [if_neg ex] at hx
          rw [if_neg ex, if_neg ex]; exact h.kinds j hj x hx
      · rw [same _ m e] at hx ⊢
        show (own m).kind x = if x = i then k else g.kind x
        rw [if_neg (by intro ex; rw [ex, h0 m hm] at hx; omega)]
        exact h.kinds m hm x hx
    · by_cases e : m = j
      · rw [e, at']; exact Nat.le_refl _
      · rw [same _ m e]
        show _ ≤ i + 1
        exact Nat.le_trans (h.next m hm) (by omega)
    · by_cases e : m = j
      · rw [e, at'] at hx ⊢
        have hx : x > i := hx
        show (if x = i then 1 else (own j).cnt x) = 0
        rw [if_neg (by omega)]
        exact h.unused j hj x (by omega)
      · rw [same _ m e] at hx ⊢; exact h.unused m hm x hx
    · have hx : x > i := hx
      omega

theorem inv_reach {α : Type} {n : Nat} {Post : Nat → α → Shared → Prop} {base : Nat → Nat → Nat} {c0 : Nat → Nat}
    (hb : ∀ j < n, ∀ i, base j i ≤ c0 i) (h1 : ∀ j < n, ∀ i, base j i ≤ 1)
    (hP : ∀ j < n, ∀ a o, Post j a o → ∀ i, base j i ≤ o.cnt i) {c c' : Shared × Threads α} (hr : Reach n c c')
    (h : ∃ own, Inv n Post base c0 c.1 c.2 own) : ∃ own, Inv n Post base c0 c'.1 c'.2 own := by
  induction hr with
  | refl => exact h
  | step _ hs ih =>
    obtain ⟨own, hi⟩ := ih
    exact inv_step hi hb h1 hP hs

theorem inv_no_fault {α : Type} {n : Nat} {Post : Nat → α → Shared → Prop} {base : Nat → Nat → Nat} {c0 : Nat → Nat}
    {g : Shared} {ts : Threads α} {own : Nat → Shared} (h : Inv n Post base c0 g ts own)
    (hb : ∀ j < n, ∀ i, base j i ≤ c0 i) {j : Nat} (hj : j < n) : ¬ Faults g (ts j) := by
  intro hf
  have hp := h.pre j hj
  generalize ts j = p at hf hp
  cases p with
  | ret a => exact hf
  | ub => exact hp
  | draw f => exact hf
  | fresh k f => exact hf
  | use k i p => exact hf (h.has hb hj hp.1)
  | drop k i p => exact hf (h.has hb hj hp.1)
  | up k i p => exact hf (h.has hb hj hp.1)

end Brski.Res
