import Verif.Cli
import Verif.PropsConfig

/-!
# C50, C65: the command line
-/

namespace Brski.Props

open Cli Config DlList Outcome

/-! ## Specification: command lines -/

/-- The options that take a value. -/
inductive Key where
  | config | input | output | port | address
deriving Repr, DecidableEq

/-- Their letters. -/
def Key.letter : Key → UInt8
  | .config => 99
  | .input => 105
  | .output => 111
  | .port => 112
  | .address => 97

/-- A part of a command line: `-d…d`, `-d…dkVALUE`, `-d…dk VALUE`, or an operand. -/
inductive Item where
  | flags (n : Nat)
  | attached (n : Nat) (k : Key) (v : Bytes)
  | separate (n : Nat) (k : Key) (v : Bytes)
  | operand (w : Bytes)

/-- The words of a part. -/
def Item.words : Item → List Bytes
  | .flags n => [45 :: List.replicate (n + 1) 100]
  | .attached n k v => [45 :: (List.replicate n 100 ++ k.letter :: v)]
  | .separate n k v => [45 :: (List.replicate n 100 ++ [k.letter]), v]
  | .operand w => [w]

/-- Attached values are not empty; an operand does not look like an option. -/
def Item.Ok : Item → Prop
  | .attached _ _ v => v ≠ []
  | .operand w => w.head? = some 45 → w = [45]
  | _ => True

/-- The value a part gives to an option. -/
def Item.setting : Item → Option (Key × Bytes)
  | .attached _ k v => some (k, v)
  | .separate _ k v => some (k, v)
  | _ => none

/-- A part asks for verbose output. -/
def Item.verbose : Item → Bool
  | .flags _ => true
  | .attached n _ _ => n != 0
  | .separate n _ _ => n != 0
  | .operand _ => false

/-- The operand of a part. -/
def Item.op : Item → Option Bytes
  | .operand w => some w
  | _ => none

/-- A command line: parts, and perhaps `--` followed by operands. -/
structure Line where
  items : List Item
  rest : Option (List Bytes)

/-- All parts are well formed. -/
def Line.Ok (l : Line) : Prop := ∀ i ∈ l.items, i.Ok

/-- The words of a command line. -/
def Line.words (l : Line) : List Bytes :=
  l.items.flatMap Item.words ++ match l.rest with | none => [] | some r => [45, 45] :: r

/-- The operands of a command line. -/
def Line.operands (l : Line) : List Bytes := l.items.filterMap Item.op ++ l.rest.getD []

/-- The value of an option: the last one given. -/
def Line.value (l : Line) (k : Key) : Option Bytes :=
  ((l.items.filterMap Item.setting).filter (·.1 = k)).getLast?.map (·.2)

/-- What the options of a command line mean. -/
def Line.opts (l : Line) : Opts where
  verbose := l.items.any Item.verbose
  config := (l.value .config).getD []
  inFile := (l.value .input).getD []
  outFile := (l.value .output).getD []
  port := ((l.value .port).map portOf).getD 0
  address := (l.value .address).getD []

/-- The labels of the commands. -/
def label : Command → String
  | .exportPvr => "epvr"
  | .pledgeRequest => "preq"
  | .verifyMasa => "vmasa"
  | .signCert => "sign"
  | .getSerial => "serial"
  | .startRegistrar => "registrar"
  | .startMasa => "masa"

/-! ## The scan -/

/-- The effect of `-d`, `n` times. -/
def addD (n : Nat) (o : Opts) : Opts := { o with verbose := o.verbose || n != 0 }

/-- The effect of an option with a value. -/
def setKey (k : Key) (v : Bytes) (o : Opts) : Opts :=
  match k with
  | .config => { o with config := v }
  | .input => { o with inFile := v }
  | .output => { o with outFile := v }
  | .port => { o with port := portOf v }
  | .address => { o with address := v }

/-- The effect of a part. -/
def Item.apply (o : Opts) : Item → Opts
  | .flags n => addD (n + 1) o
  | .attached n k v => setKey k v (addD n o)
  | .separate n k v => setKey k v (addD n o)
  | .operand _ => o

theorem handle_key (help : Outcome Unit) (o : Opts) (k : Key) (v : Bytes) :
    handle help o k.letter v = .ok (.ok (setKey k v o)) := by cases k <;> rfl

theorem optKind_key (k : Key) : optKind k.letter = some true := by cases k <;> rfl

theorem optKind_d : optKind 100 = some false := rfl

theorem optString_eq : optString = [58, 99, 58, 105, 58, 111, 58, 112, 58, 97, 58, 100, 118, 104] := by decide

theorem optKind_cases (c : UInt8) : optKind c = none ∨ (∃ k : Key, c = k.letter ∧ optKind c = some true) ∨
    ((c = 100 ∨ c = 118 ∨ c = 104) ∧ optKind c = some false) := by
  by_cases h1 : c = 99; · exact .inr (.inl ⟨.config, h1, by rw [h1]; rfl⟩)
  by_cases h2 : c = 105; · exact .inr (.inl ⟨.input, h2, by rw [h2]; rfl⟩)
  by_cases h3 : c = 111; · exact .inr (.inl ⟨.output, h3, by rw [h3]; rfl⟩)
  by_cases h4 : c = 112; · exact .inr (.inl ⟨.port, h4, by rw [h4]; rfl⟩)
  by_cases h5 : c = 97; · exact .inr (.inl ⟨.address, h5, by rw [h5]; rfl⟩)
  by_cases h6 : c = 100; · exact .inr (.inr ⟨.inl h6, by rw [h6]; rfl⟩)
  by_cases h7 : c = 118; · exact .inr (.inr ⟨.inr (.inl h7), by rw [h7]; rfl⟩)
  by_cases h8 : c = 104; · exact .inr (.inr ⟨.inr (.inr h8), by rw [h8]; rfl⟩)
  left
  unfold optKind
  split
  · rfl
  · rename_i h9
    have h9 : ¬ 58 = c := fun e => h9 (.inl e.symm)
    have e1 : ¬ 99 = c := fun e => h1 e.symm
    have e2 : ¬ 105 = c := fun e => h2 e.symm
    have e3 : ¬ 111 = c := fun e => h3 e.symm
    have e4 : ¬ 112 = c := fun e => h4 e.symm
    have e5 : ¬ 97 = c := fun e => h5 e.symm
    have e6 : ¬ 100 = c := fun e => h6 e.symm
    have e7 : ¬ 118 = c := fun e => h7 e.symm
    have e8 : ¬ 104 = c := fun e => h8 e.symm
    simp only [optString_eq, findOpt, h9, if_false, e1, e2, e3, e4, e5, e6, e7, e8]

theorem addD_zero (o : Opts) : addD 0 o = o := by simp [addD]

theorem addD_succ (n : Nat) (o : Opts) : addD n { o with verbose := true } = addD (n + 1) o := by simp [addD]

theorem cluster_d (help : Outcome Unit) (cs : Bytes) (o : Opts) :
    cluster help (100 :: cs) o = cluster help cs { o with verbose := true } := rfl

theorem cluster_ds (help : Outcome Unit) (cs : Bytes) : ∀ (n : Nat) (o : Opts),
    cluster help (List.replicate n 100 ++ cs) o = cluster help cs (addD n o)
  | 0, o => by rw [addD_zero]; rfl
  | n + 1, o => by
    rw [List.replicate_succ, List.cons_append, cluster_d, cluster_ds help cs n, addD_succ]

theorem cluster_nil (help : Outcome Unit) (o : Opts) : cluster help [] o = .ok (.ok (o, none)) := rfl

theorem cluster_key (help : Outcome Unit) (o : Opts) (k : Key) (cs : Bytes) : cluster help (k.letter :: cs) o =
    if cs = [] then .ok (.ok (o, some k.letter)) else .ok (.ok (setKey k cs o, none)) := by
  rw [cluster, optKind_key]
  simp only
  split
  · rfl
  · rw [handle_key]; rfl

theorem cluster_sound (help : Outcome Unit) : ∀ (cs : Bytes) (o o' : Opts) (p : Option UInt8),
    cluster help cs o = .ok (.ok (o', p)) →
    (∃ n, cs = List.replicate n 100 ∧ o' = addD n o ∧ p = none) ∨
    (∃ n k, cs = List.replicate n 100 ++ [Key.letter k] ∧ o' = addD n o ∧ p = some k.letter) ∨
    (∃ n k v, cs = List.replicate n 100 ++ Key.letter k :: v ∧ v ≠ [] ∧ o' = setKey k v (addD n o) ∧ p = none)
  | [], o, o', p, h => by
    simp only [cluster_nil, Outcome.ok.injEq, Except.ok.injEq, Prod.mk.injEq] at h
    exact .inl ⟨0, rfl, by rw [addD_zero, h.1], h.2.symm⟩
  | c :: cs, o, o', p, h => by
    rcases optKind_cases c with hn | ⟨k, rfl, -⟩ | ⟨hd, -⟩
    · rw [cluster, hn] at h
      cases h
    · rw [cluster_key] at h
      split at h
      · rename_i hcs
        simp only [Outcome.ok.injEq, Except.ok.injEq, Prod.mk.injEq] at h
        exact .inr (.inl ⟨0, k, by simp [hcs], by rw [addD_zero, h.1], h.2.symm⟩)
      · rename_i hcs
        simp only [Outcome.ok.injEq, Except.ok.injEq, Prod.mk.injEq] at h
        exact .inr (.inr ⟨0, k, cs, rfl, hcs, by rw [addD_zero, h.1], h.2.symm⟩)
    · rcases hd with rfl | rfl | rfl
      · rw [cluster_d] at h
        rcases cluster_sound help cs _ o' p h with ⟨n, h1, h2, h3⟩ | ⟨n, k, h1, h2, h3⟩ | ⟨n, k, v, h1, h2, h3, h4⟩
        · exact .inl ⟨n + 1, by rw [h1]; rfl, by rw [h2, addD_succ], h3⟩
        · exact .inr (.inl ⟨n + 1, k, by rw [h1]; rfl, by rw [h2, addD_succ], h3⟩)
        · exact .inr (.inr ⟨n + 1, k, v, by rw [h1]; rfl, h2, by rw [h3, addD_succ], h4⟩)
      · cases h
      · cases help <;> cases h

/-- The scan of well-formed parts, whatever follows. -/
theorem scan_items (help : Outcome Unit) (more : List Bytes) : ∀ (items : List Item), (∀ i ∈ items, i.Ok) →
    ∀ (ops : List Bytes) (n : Nat) (o : Opts),
    ∃ n', scan help none (items.flatMap Item.words ++ more) ops n o =
      scan help none more (ops ++ items.filterMap Item.op) n' (items.foldl Item.apply o) ∧ n ≤ n' ∧
      (n' = n → items.flatMap Item.words = items.filterMap Item.op) := by
  intro items
  induction items with
  | nil => intro _ ops n o; exact ⟨n, by simp, Nat.le_refl _, fun _ => rfl⟩
  | cons i items ih =>
    intro hok ops n o
    have ih := ih (fun i hi => hok i (.tail _ hi))
    have hi := hok i (.head _)
    rw [List.flatMap_cons, List.append_assoc]
    cases i with
    | flags k =>
      obtain ⟨n', h1, h2, h3⟩ := ih ops (n + 1) (addD (k + 1) o)
      refine ⟨n', ?_, by omega, fun h => by omega⟩
      have hne : ¬ (45 :: List.replicate (k + 1) 100 : Bytes) = [45, 45] := by
        rw [List.replicate_succ]; intro h; simp at h
      have hop : isOption (45 :: List.replicate (k + 1) 100) = true := by rw [List.replicate_succ]; rfl
      show scan help none ((45 :: List.replicate (k + 1) 100) :: (items.flatMap Item.words ++ more)) ops n o = _
      rw [scan, if_neg hne, if_pos hop, List.tail_cons]
      have := cluster_ds help [] (k + 1) o
      rw [List.append_nil] at this
      rw [this, cluster_nil, bind'_ok]
      simp only [h1]
      rfl
    | attached k key v =>
      obtain ⟨n', h1, h2, h3⟩ := ih ops (n + 1) (setKey key v (addD k o))
      refine ⟨n', ?_, by omega, fun h => by omega⟩
      have hl : ∀ k : Key, k.letter ≠ 45 := by intro k; cases k <;> decide
      have hne : ¬ (45 :: (List.replicate k 100 ++ key.letter :: v) : Bytes) = [45, 45] := by
        cases k with
        | zero => intro h; simp [hl key] at h
        | succ k => rw [List.replicate_succ]; intro h; simp at h
      have hop : isOption (45 :: (List.replicate k 100 ++ key.letter :: v)) = true := by
        cases k <;> simp [List.replicate_succ, isOption]
      show scan help none ((45 :: (List.replicate k 100 ++ key.letter :: v)) :: (items.flatMap Item.words ++ more)) ops n o = _
      rw [scan, if_neg hne, if_pos hop, List.tail_cons, cluster_ds, cluster_key, if_neg (show ¬ v = [] from hi), bind'_ok]
      simp only [h1]
      rfl
    | separate k key v =>
      obtain ⟨n', h1, h2, h3⟩ := ih ops (n + 2) (setKey key v (addD k o))
      refine ⟨n', ?_, by omega, fun h => by omega⟩
      have hl : ∀ k : Key, k.letter ≠ 45 := by intro k; cases k <;> decide
      have hne : ¬ (45 :: (List.replicate k 100 ++ [key.letter]) : Bytes) = [45, 45] := by
        cases k with
        | zero => intro h; simp [hl key] at h
        | succ k => rw [List.replicate_succ]; intro h; simp at h
      have hop : isOption (45 :: (List.replicate k 100 ++ [key.letter])) = true := by
        cases k <;> simp [List.replicate_succ, isOption]
      show scan help none ((45 :: (List.replicate k 100 ++ [key.letter])) :: v :: (items.flatMap Item.words ++ more)) ops n o = _
      rw [scan, if_neg hne, if_pos hop, List.tail_cons, cluster_ds, cluster_key, if_pos rfl, bind'_ok]
      simp only
      rw [scan, handle_key, bind'_ok]
      simp only [h1]
      rfl
    | operand w =>
      obtain ⟨n', h1, h2, h3⟩ := ih (ops ++ [w]) n o
      have hop : isOption w = false := by
        cases w with
        | nil => rfl
        | cons c w =>
          by_cases hc : c = 45
          · have : c :: w = [45] := hi (by rw [hc]; rfl)
            rw [this]; rfl
          · cases w with
            | nil => unfold isOption; split <;> simp_all
            | cons d w => unfold isOption; split <;> simp_all
      have hne : ¬ w = [45, 45] := by intro h; rw [h] at hop; cases hop
      refine ⟨n', ?_, h2, fun h => ?_⟩
      · show scan help none (w :: (items.flatMap Item.words ++ more)) ops n o = _
        rw [scan, if_neg hne, if_neg (by rw [hop]; decide), h1]
        simp [Item.op, Item.apply]
      · have := h3 h
        simp [Item.words, Item.op, this]

/-- What the scan of a well-formed command line gives. -/
theorem scan_complete (help : Outcome Unit) (l : Line) (hl : l.Ok) :
    ∃ n', scan help none l.words [] 1 noOpts = .ok (.ok ⟨l.items.foldl Item.apply noOpts, l.operands, n'⟩) ∧
      (n' ≤ 1 → l.words = l.operands) := by
  obtain ⟨n', h1, h2, h3⟩ := scan_items help (match l.rest with | none => [] | some r => [45, 45] :: r) l.items hl [] 1 noOpts
  unfold Line.words Line.operands
  rw [h1]
  cases l.rest with
  | none => exact ⟨n', by simp [scan], fun h => by simp [h3 (by omega)]⟩
  | some r => exact ⟨n' + 1, by simp [scan], fun h => by omega⟩

/-- A part in front of a command line. -/
theorem words_cons (i : Item) (items : List Item) (rest : Option (List Bytes)) :
    Line.words ⟨i :: items, rest⟩ = i.words ++ Line.words ⟨items, rest⟩ := by simp [Line.words]

theorem operands_cons (i : Item) (items : List Item) (rest : Option (List Bytes)) :
    Line.operands ⟨i :: items, rest⟩ = i.op.toList ++ Line.operands ⟨items, rest⟩ := by
  cases i <;> rfl

/-- A scan that comes to an end has read a well-formed command line. -/
theorem scan_sound (help : Outcome Unit) : ∀ (args : List Bytes) (ops : List Bytes) (n : Nat) (o : Opts) (s : Scanned),
    (scan help none args ops n o = .ok (.ok s) → ∃ l : Line, l.Ok ∧ args = l.words ∧
      s.opts = l.items.foldl Item.apply o ∧ s.operands = ops ++ l.operands) ∧
    (∀ k : Key, scan help (some k.letter) args ops n o = .ok (.ok s) → ∃ (v : Bytes) (l : Line), l.Ok ∧
      args = v :: l.words ∧ s.opts = l.items.foldl Item.apply (setKey k v o) ∧ s.operands = ops ++ l.operands)
  | [], ops, n, o, s => by
    constructor
    · intro h
      rw [scan] at h
      simp only [Outcome.ok.injEq, Except.ok.injEq] at h
      subst h
      exact ⟨⟨[], none⟩, (fun i hi => by cases hi), rfl, rfl, by simp [Line.operands]⟩
    · intro k h
      rw [scan] at h
      cases h
  | w :: args, ops, n, o, s => by
    constructor
    · intro h
      rw [scan] at h
      split at h
      · rename_i hw
        simp only [Outcome.ok.injEq, Except.ok.injEq] at h
        subst h
        exact ⟨⟨[], some args⟩, (fun i hi => by cases hi), by simp [Line.words, hw], rfl, by simp [Line.operands]⟩
      · split at h
        · rename_i hop
          obtain ⟨c, w', rfl⟩ : ∃ c w', w = 45 :: c :: w' := by
            unfold isOption at hop
            split at hop
            · exact ⟨_, _, rfl⟩
            · cases hop
          rw [List.tail_cons] at h
          cases hc : cluster help (c :: w') o with
          | ub => rw [hc] at h; cases h
          | ok r =>
            rw [hc, bind'_ok] at h
            cases r with
            | error e => cases h
            | ok q =>
              obtain ⟨o', p⟩ := q
              simp only at h
              rcases cluster_sound help _ _ _ _ hc with ⟨m, h1, h2, h3⟩ | ⟨m, k, h1, h2, h3⟩ | ⟨m, k, v, h1, h2, h3, h4⟩
              · subst h3
                obtain ⟨l, l1, l2, l3, l4⟩ := (scan_sound help args ops (n + 1) o' s).1 h
                cases m with
                | zero => cases h1
                | succ m =>
                  refine ⟨⟨.flags m :: l.items, l.rest⟩, ?_, ?_, ?_, ?_⟩
                  · intro i hi
                    rcases List.mem_cons.1 hi with rfl | hi
                    · trivial
                    · exact l1 i hi
                  · rw [words_cons, h1, l2]; rfl
                  · rw [l3, h2]; rfl
                  · rw [l4, operands_cons]; rfl
              · subst h3
                obtain ⟨v, l, l1, l2, l3, l4⟩ := (scan_sound help args ops (n + 1) o' s).2 k h
                refine ⟨⟨.separate m k v :: l.items, l.rest⟩, ?_, ?_, ?_, ?_⟩
                · intro i hi
                  rcases List.mem_cons.1 hi with rfl | hi
                  · trivial
                  · exact l1 i hi
                · rw [words_cons, h1, l2]; rfl
                · rw [l3, h2]; rfl
                · rw [l4, operands_cons]; rfl
              · subst h4
                obtain ⟨l, l1, l2, l3, l4⟩ := (scan_sound help args ops (n + 1) o' s).1 h
                refine ⟨⟨.attached m k v :: l.items, l.rest⟩, ?_, ?_, ?_, ?_⟩
                · intro i hi
                  rcases List.mem_cons.1 hi with rfl | hi
                  · exact h2
                  · exact l1 i hi
                · rw [words_cons, h1, l2]; rfl
                · rw [l3, h3]; rfl
                · rw [l4, operands_cons]; rfl
        · rename_i hop
          obtain ⟨l, l1, l2, l3, l4⟩ := (scan_sound help args (ops ++ [w]) n o s).1 h
          refine ⟨⟨.operand w :: l.items, l.rest⟩, ?_, ?_, ?_, ?_⟩
          · intro i hi
            rcases List.mem_cons.1 hi with rfl | hi
            · intro hh
              cases w with
              | nil => cases hh
              | cons c w =>
                simp only [List.head?_cons, Option.some.injEq] at hh
                subst hh
                cases w with
                | nil => rfl
                | cons d w => exact absurd rfl hop
            · exact l1 i hi
          · rw [words_cons, l2]; rfl
          · rw [l3]; rfl
          · rw [l4, operands_cons]; simp [Item.op]
    · intro k h
      rw [scan, handle_key, bind'_ok] at h
      obtain ⟨l, l1, l2, l3, l4⟩ := (scan_sound help args ops (n + 1) _ s).1 h
      exact ⟨w, l, l1, by rw [l2], l3, l4⟩

/-! ## The options -/

theorem foldl_verbose (items : List Item) : ∀ o : Opts,
    (items.foldl Item.apply o).verbose = (o.verbose || items.any Item.verbose) := by
  induction items with
  | nil => intro o; simp
  | cons i items ih =>
    intro o
    rw [List.foldl_cons, ih, List.any_cons, ← Bool.or_assoc]
    congr 1
    cases i with
    | flags n => simp [Item.apply, Item.verbose, addD]
    | attached n k v => cases k <;> simp [Item.apply, Item.verbose, addD, setKey]
    | separate n k v => cases k <;> simp [Item.apply, Item.verbose, addD, setKey]
    | operand w => simp [Item.apply, Item.verbose]

/-- The member of the options that belongs to an option. -/
def member (k : Key) (o : Opts) : Bytes ⊕ Nat :=
  match k with
  | .config => .inl o.config
  | .input => .inl o.inFile
  | .output => .inl o.outFile
  | .port => .inr o.port
  | .address => .inl o.address

/-- The value of an option as the member holds it. -/
def asMember (k : Key) (v : Bytes) : Bytes ⊕ Nat := if k = .port then .inr (portOf v) else .inl v

theorem member_apply (k : Key) (i : Item) (o : Opts) :
    member k (i.apply o) = match (i.setting.toList.filter (·.1 = k)).getLast? with
      | none => member k o
      | some p => asMember k p.2 := by
  cases i with
  | flags n => cases k <;> rfl
  | operand w => rfl
  | attached n k' v => cases k <;> cases k' <;> rfl
  | separate n k' v => cases k <;> cases k' <;> rfl

theorem foldl_member (k : Key) (items : List Item) : ∀ o : Opts,
    member k (items.foldl Item.apply o) = match ((items.filterMap Item.setting).filter (·.1 = k)).getLast? with
      | none => member k o
      | some p => asMember k p.2 := by
  induction items with
  | nil => intro o; rfl
  | cons i items ih =>
    intro o
    rw [List.foldl_cons, ih, member_apply]
    have : (i :: items).filterMap Item.setting = i.setting.toList ++ items.filterMap Item.setting := by
      rw [List.filterMap_cons]
      cases i.setting <;> rfl
    rw [this, List.filter_append, List.getLast?_append]
    cases ((items.filterMap Item.setting).filter (·.1 = k)).getLast? with
    | none => rfl
    | some p => rfl

theorem foldl_opts (l : Line) : l.items.foldl Item.apply noOpts = l.opts := by
  have hv := foldl_verbose l.items noOpts
  have h := fun k => foldl_member k l.items noOpts
  have h1 := h .config
  have h2 := h .input
  have h3 := h .output
  have h4 := h .port
  have h5 := h .address
  unfold Line.opts Line.value
  generalize l.items.foldl Item.apply noOpts = r at *
  cases r with
  | mk a b c d e f =>
    simp only [member] at h1 h2 h3 h4 h5
    simp only [Opts.mk.injEq]
    refine ⟨hv.trans (by simp [noOpts]), ?_, ?_, ?_, ?_, ?_⟩
    · revert h1
      split <;> rename_i he <;> rw [he] <;> intro h1 <;> cases h1 <;> rfl
    · revert h2
      split <;> rename_i he <;> rw [he] <;> intro h2 <;> cases h2 <;> rfl
    · revert h3
      split <;> rename_i he <;> rw [he] <;> intro h3 <;> cases h3 <;> rfl
    · revert h4
      split <;> rename_i he <;> rw [he] <;> intro h4 <;> cases h4 <;> rfl
    · revert h5
      split <;> rename_i he <;> rw [he] <;> intro h5 <;> cases h5 <;> rfl

/-! ## C50 -/

theorem getCommandId_iff (w : Bytes) (c : Command) : getCommandId w commandList = some c ↔ w = str (label c) := by
  constructor
  · intro h
    simp only [getCommandId, commandList] at h
    repeat' split at h
    all_goals first
      | (rename_i he; injection h with h; subst h; exact he.symm)
      | cases h
  · rintro rfl
    cases c <;> decide

/-- **C50** (which command lines are accepted): a command is run iff the arguments form a command line whose first operand is
exactly its label, and the options are the last values given. -/
theorem C50_accepted (help : Outcome Unit) (args : List Bytes) (o : Opts) (c : Command) :
    processOptions help args = .ok (.run o c) ↔
      ∃ l : Line, l.Ok ∧ args = l.words ∧ l.operands.head? = some (str (label c)) ∧ o = l.opts := by
  constructor
  · intro h
    unfold processOptions at h
    cases hs : scan help none args [] 1 noOpts with
    | ub => rw [hs] at h; cases h
    | ok r =>
      rw [hs, bind'_ok] at h
      cases r with
      | error e => cases h
      | ok s =>
        obtain ⟨l, l1, l2, l3, l4⟩ := (scan_sound help args [] 1 noOpts s).1 hs
        rw [List.nil_append] at l4
        simp only [l4] at h
        cases hop : l.operands with
        | nil =>
          rw [hop] at h
          simp only at h
          split at h <;> cases help <;> cases h
        | cons w ops =>
          rw [hop] at h
          simp only at h
          cases hc : getCommandId w commandList with
          | none => rw [hc] at h; cases help <;> cases h
          | some c' =>
            rw [hc] at h
            simp only [Outcome.ok.injEq, Parsed.run.injEq] at h
            refine ⟨l, l1, l2, ?_, ?_⟩
            · rw [hop, List.head?_cons, (getCommandId_iff w c').1 hc, h.2]
            · rw [← h.1, l3, foldl_opts]
  · rintro ⟨l, l1, rfl, l3, rfl⟩
    obtain ⟨n', h1, -⟩ := scan_complete help l l1
    unfold processOptions
    rw [h1, bind'_ok]
    cases hop : l.operands with
    | nil => rw [hop] at l3; cases l3
    | cons w ops =>
      rw [hop, List.head?_cons, Option.some.injEq] at l3
      simp only [(getCommandId_iff w c).2 l3, foldl_opts]

/-- **C50** (unknown labels, no label), when printing the help is defined: they are refused; only the empty command line
succeeds (with the help). -/
theorem C50_refused (l : Line) (hl : l.Ok) (h : ∀ c, l.operands.head? ≠ some (str (label c))) :
    processOptions (.ok ()) l.words = .ok (.exit (decide (l.words = []))) := by
  obtain ⟨n', h1, h2⟩ := scan_complete (.ok ()) l hl
  unfold processOptions
  rw [h1, bind'_ok]
  cases hop : l.operands with
  | nil =>
    simp only
    split
    · rename_i hn
      have : l.words = [] := by rw [h2 hn, hop]
      simp [this]
    · rename_i hn
      have : l.words ≠ [] := by
        intro hw
        rw [hw, scan] at h1
        simp only [Outcome.ok.injEq, Except.ok.injEq, Scanned.mk.injEq] at h1
        omega
      simp [this]
  | cons w ops =>
    have hw : l.words ≠ [] := by
      intro hw
      rw [hw, scan] at h1
      simp only [Outcome.ok.injEq, Except.ok.injEq, Scanned.mk.injEq] at h1
      rw [hop] at h1
      cases h1.2.1
    have hg : getCommandId w commandList = none := by
      cases hc : getCommandId w commandList with
      | none => rfl
      | some c => exact absurd (by rw [hop, (getCommandId_iff w c).1 hc]; rfl) (h c)
    simp [hg, hw]

/-- `show_help` reads past its buffer for every program name. -/
theorem showHelp_ub (name : Bytes) (h : 0 ∉ name) : showHelp name = .ub := by
  unfold showHelp basename Utils.strlen
  rw [if_neg h]
  rfl

/-- **C50** as stated (choice of the command): the command is the one with exactly the label given, unknown labels are
refused. -/
def C50_statement : Prop :=
  ∀ (name : Bytes) (l : Line), 0 ∉ name → l.Ok → ∀ w, l.operands.head? = some w →
    (∀ c, w = str (label c) → processOptions (showHelp name) l.words = .ok (.run l.opts c)) ∧
    ((∀ c, w ≠ str (label c)) → processOptions (showHelp name) l.words = .ok (.exit false))

/-- The code violates C50: an unknown label is not refused in a defined way. -/
theorem C50_violated : ¬ C50_statement := by
  intro h
  have := (h (str "brski") ⟨[.operand (str "foo")], none⟩ (by decide)
    (by intro i hi; cases hi with
        | head => intro hh; exact absurd hh (by decide)
        | tail _ hi => cases hi) (str "foo") rfl).2
    (by intro c; cases c <;> decide)
  rw [showHelp_ub _ (by decide)] at this
  exact absurd this (by decide)

/-- **C50**, exactly: with a known label the command runs with the options given, and all other well-formed command lines
end in the undefined help. -/
theorem C50_partial (name : Bytes) (l : Line) (hn : 0 ∉ name) (hl : l.Ok) :
    (∀ c, l.operands.head? = some (str (label c)) → processOptions (showHelp name) l.words = .ok (.run l.opts c)) ∧
    ((∀ c, l.operands.head? ≠ some (str (label c))) → processOptions (showHelp name) l.words = .ub) := by
  refine ⟨fun c hc => (C50_accepted _ _ _ _).2 ⟨l, hl, rfl, hc, rfl⟩, fun h => ?_⟩
  rw [showHelp_ub name hn]
  obtain ⟨n', h1, h2⟩ := scan_complete .ub l hl
  unfold processOptions
  rw [h1, bind'_ok]
  cases hop : l.operands with
  | nil =>
    simp only
    split <;> rfl
  | cons w ops =>
    have hg : getCommandId w commandList = none := by
      cases hc : getCommandId w commandList with
      | none => rfl
      | some c => exact absurd (by rw [hop, (getCommandId_iff w c).1 hc]; rfl) (h c)
    simp only [hg]
    rfl

/-- Non-vacuity: `-dp8443 -c f -a ::1 preq -- x` and an override of an option. -/
example : processOptions .ub [str "-c", str "old", str "-dp8443", str "preq", str "-c", str "f", str "-a", str "::1", str "--", str "x"] =
    .ok (.run ⟨true, str "f", [], [], 8443, str "::1"⟩ .pledgeRequest) ∧
    (⟨[.separate 0 .config (str "old"), .attached 1 .port (str "8443"), .operand (str "preq"), .separate 0 .config (str "f"),
      .separate 0 .address (str "::1")], some [str "x"]⟩ : Line).words =
      [str "-c", str "old", str "-dp8443", str "preq", str "-c", str "f", str "-a", str "::1", str "--", str "x"] ∧
    processOptions .ub [str "preqq"] = .ub ∧ processOptions .ub [str "preq", str "-x"] = .ok (.exit false) ∧
    processOptions .ub [str "-c"] = .ok (.exit false) ∧ processOptions .ub [str "-v", str "-h"] = .ok (.exit true) ∧
    processOptions .ub [str "-p", str "abc", str "masa"] = .ok (.run noOpts .startMasa) := by decide +kernel

/-- The digits of a number read back. -/
theorem digitsVal_natDec (n : Nat) : digitsVal (BoolTime.natDec n) = n ∧ (BoolTime.natDec n).all isDigit = true := by
  induction n using Nat.strongRecOn with
  | _ n ih =>
    have hd : ∀ k, k < 10 → (BoolTime.dig k).toNat - 48 = k ∧ isDigit (BoolTime.dig k) = true := by decide
    rw [BoolTime.natDec]
    split
    · rename_i h
      simp [digitsVal, hd n h]
    · rename_i h
      obtain ⟨i1, i2⟩ := ih (n / 10) (by omega)
      unfold digitsVal at i1 ⊢
      rw [List.foldl_append, i1, List.all_append, i2]
      simp only [List.foldl_cons, List.foldl_nil, List.all_cons, List.all_nil, hd (n % 10) (by omega)]
      simp
      omega

theorem natDec_ne_nil (n : Nat) : ∃ c r, BoolTime.natDec n = c :: r := by
  rw [BoolTime.natDec]
  split
  · exact ⟨_, _, rfl⟩
  · cases h : BoolTime.natDec (n / 10) with
    | nil => exact ⟨_, _, rfl⟩
    | cons c r => exact ⟨c, _, rfl⟩

theorem takeWhile_isAll (p : UInt8 → Bool) (l : Bytes) (h : l.all p = true) : l.takeWhile p = l := by
  induction l with
  | nil => rfl
  | cons a l ih =>
    rw [List.all_cons, Bool.and_eq_true] at h
    rw [List.takeWhile_cons, h.1, if_pos rfl, ih h.2]

/-- **C50** (ports): the text of a port number gives that port. -/
theorem C50_port (n : Nat) (h : n < 4294967296) : portOf (BoolTime.natDec n) = n := by
  obtain ⟨h1, h2⟩ := digitsVal_natDec n
  obtain ⟨c, r, hc⟩ := natDec_ne_nil n
  rw [hc] at h1 h2
  have hd : isDigit c = true := by
    rw [List.all_cons, Bool.and_eq_true] at h2
    exact h2.1
  have hb : 48 ≤ c.toNat ∧ c.toNat ≤ 57 := by
    unfold isDigit at hd
    simpa [UInt8.le_iff_toNat_le] using hd
  have hs : isSpace c = false := by
    unfold isSpace
    have e1 : ¬ c = 32 := by rintro rfl; exact absurd hb.1 (by decide)
    have e2 : ¬ c ≤ 13 := by rw [UInt8.le_iff_toNat_le]; intro h; have : (13 : UInt8).toNat = 13 := rfl; omega
    simp [e1, e2]
  have e3 : ¬ c = 45 := by rintro rfl; exact absurd hb.1 (by decide)
  have e4 : ¬ c = 43 := by rintro rfl; exact absurd hb.1 (by decide)
  have htw : (c :: r).takeWhile isDigit = c :: r := by
    exact takeWhile_isAll _ _ h2
  unfold portOf strtol
  rw [hc]
  simp only [List.dropWhile_cons, hs, Bool.false_eq_true, if_false, List.head?_cons]
  have f1 : (some c == some (45 : UInt8)) = false := by simp [e3]
  have f2 : (some c == some (43 : UInt8)) = false := by simp [e4]
  simp only [f1, f2, Bool.or_self, Bool.false_eq_true, if_false, htw, h1]
  omega

/-! ## C50: the overrides -/

/-- **C50** (overrides): from a configuration in memory, the options change nothing for `epvr`, `vmasa`, `serial` and `masa`;
for `preq`, `sign` and `registrar` a port other than 0 replaces the port, a non-empty address replaces the address, and
nothing else changes.  When `strdup` fails the address is NULL and the program ends. -/
theorem C50_overrides {m0 m : Mem} {c : Conf} {g : Slot → Option Obj} (hw : Wf m0) (h : Own m0 m g) (hm : Match c g)
    (al : Bool) (o : Opts) (cmd : Command) (port : Nat) :
    ∃ m' c' port' ok g', applyOverrides al o cmd m c port = .ok (m', c', port', ok) ∧ Own m0 m' g' ∧ Match c' g' ∧
      (∀ t, t ≠ .str .registrar .bindAddress → g' t = g t ∧ c' t = c t) ∧
      (cmd ≠ .pledgeRequest ∧ cmd ≠ .signCert ∧ cmd ≠ .startRegistrar →
        m' = m ∧ c' = c ∧ port' = port ∧ ok = true ∧ g' = g) ∧
      (cmd = .pledgeRequest ∨ cmd = .signCert ∨ cmd = .startRegistrar →
        port' = (if o.port = 0 then port else o.port) ∧ (ok = false ↔ al = false ∧ o.address ≠ []) ∧
        (o.address = [] → m' = m ∧ c' = c ∧ g' = g) ∧
        (o.address ≠ [] → g' (.str .registrar .bindAddress) =
          if al then some (.str m.fresh (o.address ++ [0])) else none)) := by
  have hother : usesRegistrar cmd = false → cmd ≠ .pledgeRequest ∧ cmd ≠ .signCert ∧ cmd ≠ .startRegistrar := by
    cases cmd <;> simp [usesRegistrar]
  have hreg : usesRegistrar cmd = true → cmd = .pledgeRequest ∨ cmd = .signCert ∨ cmd = .startRegistrar := by
    cases cmd <;> simp [usesRegistrar]
  unfold applyOverrides
  cases hu : usesRegistrar cmd with
  | false =>
    refine ⟨m, c, port, true, g, by simp, h, hm, fun t _ => ⟨rfl, rfl⟩, fun _ => ⟨rfl, rfl, rfl, rfl, rfl⟩, fun hc => ?_⟩
    obtain ⟨h1, h2, h3⟩ := hother hu
    rcases hc with hc | hc | hc
    · exact absurd hc h1
    · exact absurd hc h2
    · exact absurd hc h3
  | true =>
    have hno : ¬ (cmd ≠ .pledgeRequest ∧ cmd ≠ .signCert ∧ cmd ≠ .startRegistrar) := by
      rintro ⟨h1, h2, h3⟩
      rcases hreg hu with hc | hc | hc
      · exact h1 hc
      · exact h2 hc
      · exact h3 hc
    have hport : (if o.port ≠ 0 then o.port else port) = if o.port = 0 then port else o.port := by
      by_cases hp : o.port = 0 <;> simp [hp]
    simp only [if_true, hport]
    by_cases ha : o.address = []
    · exact ⟨m, c, _, true, g, by simp [ha], h, hm, fun t _ => ⟨rfl, rfl⟩, fun hc => absurd hc hno,
        fun _ => ⟨rfl, by simp [ha], fun _ => ⟨rfl, rfl, rfl⟩, fun hne => absurd ha hne⟩⟩
    · rw [if_pos ha]
      -- release of the old address
      have hold : ∃ m1, freeOld m (c (.str .registrar .bindAddress)) = .ok m1 ∧ m1.fresh = m.fresh ∧
          Own m0 m1 (setObj g (.str .registrar .bindAddress) none) := by
        rw [hm.ptr]
        cases hg : g (.str .registrar .bindAddress) with
        | none =>
          refine ⟨m, rfl, rfl, ?_⟩
          have : setObj g (.str .registrar .bindAddress) none = g := by
            funext t
            unfold setObj
            split
            · rename_i e; rw [e, hg]
            · rfl
          rw [this]
          exact h
        | some ob =>
          obtain ⟨p, b, rfl⟩ := hm.strs _ _ _ hg
          obtain ⟨m1, e1, e2, e3⟩ := h.freeStr hw _ hg
          exact ⟨m1, e1, e2, e3⟩
      obtain ⟨m1, e1, e2, e3⟩ := hold
      rw [e1, bind'_ok]
      have hm1 := match_none hm (.str .registrar .bindAddress)
      cases al with
      | false =>
        refine ⟨m1, _, _, false, _, rfl, e3, hm1, fun t ht => ?_, fun hc => absurd hc hno,
          fun _ => ⟨rfl, by simp [ha], fun hh => absurd hh ha, fun _ => by simp [setObj]⟩⟩
        simp [setObj, Conf.put, ht]
      | true =>
        have hn := e3.new hw (.str .registrar .bindAddress) (by simp [setObj]) (o.address ++ [0])
        have hset : setObj (setObj g (.str .registrar .bindAddress) none) (.str .registrar .bindAddress)
            (some (.str m1.fresh (o.address ++ [0]))) =
            setObj g (.str .registrar .bindAddress) (some (.str m.fresh (o.address ++ [0]))) := by
          funext t
          unfold setObj
          split <;> simp [e2]
        rw [hset] at hn
        have hm2 := match_set hm (.str .registrar .bindAddress) (some (.str m.fresh (o.address ++ [0])))
          (by rintro s f x - ⟨⟩; exact ⟨_, _, rfl⟩) (by rintro s f x ⟨⟩)
        refine ⟨_, _, _, true, _, rfl, hn, ?_, fun t ht => ?_, fun hc => absurd hc hno,
          fun _ => ⟨rfl, by simp, fun hh => absurd hh ha, fun _ => by simp [setObj]⟩⟩
        · have : ((m1.newData (o.address ++ [0])).2 : Nat) = m.fresh := e2
          rw [this]
          exact hm2
        · simp [setObj, Conf.put, ht]

/-- The registrar's settings can be overridden for this command. -/
def Overrides (cmd : Command) : Prop := cmd = .pledgeRequest ∨ cmd = .signCert ∨ cmd = .startRegistrar

instance (cmd : Command) : Decidable (Overrides cmd) := by unfold Overrides; exact inferInstance

/-- **C50** (what a command finds): whatever the configuration file and whichever allocations fail (within the limits of C45
for the certificate lists), `main` either ends before the command with everything released, or runs the command given with a
configuration that is the content of the file except for the overridden address, with the overridden port, and that can be
released completely. -/
theorem C50_effective (help : Outcome Unit) (al : Sec → Alloc) (dup : Bool) (files : Bytes → Option Ini.IniFile)
    (port : Bytes → Nat) (args : List Bytes) (m : Mem) (o : Opts) (cmd : Command) (hw : Wf m)
    (hal : ∀ s l, (al s).list l 0 = false ∨ (al s).list l 1 = false ∨ ∀ k, (al s).list l k = true)
    (h : processOptions help args = .ok (.run o cmd)) :
    (∃ m', prepare help al dup files port args m = .ok (.exit false m') ∧ m'.node = m.node ∧ m'.dat = m.dat) ∨
    (∃ m' c p g, prepare help al dup files port args m = .ok (.go o cmd m' c p) ∧ Own m m' g ∧ Match c g ∧
      (p = if Overrides cmd ∧ o.port ≠ 0 then o.port else if cmd = .getSerial then 0 else port o.config) ∧
      (cmd ≠ .getSerial → ∃ f g0, files o.config = some f ∧ (∀ s, Loaded f s g0) ∧
        (∀ t, t ≠ .str .registrar .bindAddress → g t = g0 t) ∧
        (Overrides cmd ∧ o.address ≠ [] → ∃ q, g (.str .registrar .bindAddress) = some (.str q (o.address ++ [0]))) ∧
        (¬ (Overrides cmd ∧ o.address ≠ []) → g (.str .registrar .bindAddress) = g0 (.str .registrar .bindAddress))) ∧
      ∃ m2 c2, freeConfig m' c = .ok (m2, c2) ∧ m2.node = m.node ∧ m2.dat = m.dat) := by
  have hm0 : Match (fun _ => none) (fun _ : Slot => none) := ⟨fun _ => rfl, nofun, nofun⟩
  -- the configuration before the overrides
  have hload : ∃ m1 c1 ok1 g0, (if cmd = .getSerial then .ok (m, (fun _ => none), true)
      else loadConfig al (files o.config) m fun _ => none) = Outcome.ok (m1, c1, ok1) ∧ Own m m1 g0 ∧ Match c1 g0 ∧
      (∀ t, (∀ s, t ∉ sectionSlots s) → g0 t = none) ∧
      (ok1 = true → cmd ≠ .getSerial → ∃ f, files o.config = some f ∧ ∀ s, Loaded f s g0) := by
    by_cases hc : cmd = .getSerial
    · exact ⟨m, _, true, fun _ => none, by rw [if_pos hc], own_nil m, hm0, fun _ _ => rfl, fun _ h => absurd hc h⟩
    · obtain ⟨m1, c1, ok1, g, e, h1, h2, h3, h4, -, -⟩ := loadConfig_own (al := al) (file := files o.config) hw hal
      exact ⟨m1, c1, ok1, g, by rw [if_neg hc, e], h1, h2, h3, fun hk _ => h4 hk⟩
  obtain ⟨m1, c1, ok1, g0, e1, h1, hm1, hout1, hld⟩ := hload
  unfold prepare
  rw [h, bind'_ok]
  simp only
  rw [e1, bind'_ok]
  simp only
  cases ok1 with
  | false =>
    obtain ⟨m2, c2, e2, h2, -⟩ := freeConfig_own hw h1 hm1 hout1
    left
    exact ⟨m2, by simp [e2], h2.back fun _ => rfl⟩
  | true =>
    rw [if_pos rfl]
    obtain ⟨m2, c2, p2, ok2, g, e2, h2, hm2, hrest, hno, hyes⟩ :=
      C50_overrides hw h1 hm1 dup o cmd (if cmd = .getSerial then 0 else port o.config)
    rw [e2, bind'_ok]
    simp only
    have hout2 : ∀ t, (∀ s, t ∉ sectionSlots s) → g t = none := by
      intro t ht
      have hne : t ≠ .str .registrar .bindAddress := by
        rintro rfl
        exact ht .registrar (by decide)
      rw [(hrest t hne).1]
      exact hout1 t ht
    obtain ⟨m3, c3, e3, h3, -⟩ := freeConfig_own hw h2 hm2 hout2
    have hback := h3.back fun _ => rfl
    cases ok2 with
    | false =>
      left
      exact ⟨m3, by simp [e3], hback⟩
    | true =>
      right
      by_cases hov : Overrides cmd
      · obtain ⟨y1, y2, y3, y4⟩ := hyes hov
        refine ⟨m2, c2, p2, g, rfl, h2, hm2, ?_, fun hc => ?_, m3, c3, e3, hback⟩
        · rw [y1]
          by_cases hp : o.port = 0
          · have hn : ¬ (Overrides cmd ∧ o.port ≠ 0) := fun hh => hh.2 hp
            rw [if_pos hp, if_neg hn]
          · rw [if_neg hp, if_pos ⟨hov, hp⟩]
        · obtain ⟨f, hf, hl⟩ := hld rfl hc
          refine ⟨f, g0, hf, hl, fun t ht => (hrest t ht).1, fun ha => ?_, fun ha => ?_⟩
          · have hd : dup = true := by
              cases dup with
              | true => rfl
              | false => exact absurd (y2.2 ⟨rfl, ha.2⟩) (by simp)
            rw [y4 ha.2, if_pos hd]
            exact ⟨_, rfl⟩
          · by_cases h0 : o.address = []
            · rw [(y3 h0).2.2]
            · exact absurd ⟨hov, h0⟩ ha
      · have hov' : cmd ≠ .pledgeRequest ∧ cmd ≠ .signCert ∧ cmd ≠ .startRegistrar := by
          unfold Overrides at hov
          simpa [not_or] using hov
        obtain ⟨-, -, y3, -, y5⟩ := hno hov'
        refine ⟨m2, c2, p2, g, rfl, h2, hm2, ?_, fun hc => ?_, m3, c3, e3, hback⟩
        · have hn : ¬ (Overrides cmd ∧ o.port ≠ 0) := fun hh => hov hh.1
          rw [y3, if_neg hn]
        · obtain ⟨f, hf, hl⟩ := hld rfl hc
          refine ⟨f, g0, hf, hl, fun t ht => (hrest t ht).1, fun ha => absurd ha.1 hov, fun _ => ?_⟩
          rw [y5]

/-! ## C65: the help -/

/-- **C65** as stated: printing the help is defined, whatever the name of the program. -/
def C65_statement : Prop := ∀ name : Bytes, name ≠ [] → 0 ∉ name → showHelp name = .ok ()

/-- The code violates C65, for every name. -/
theorem C65_violated : ¬ C65_statement := by
  intro h
  have := h (str "brski") (by decide) (by decide)
  rw [showHelp_ub _ (by decide)] at this
  cases this

/-- A command line that asks for the help: well-formed parts, then a word of options with an `h` after any number of `d`. -/
def AsksHelp (args : List Bytes) : Prop :=
  ∃ (items : List Item) (n : Nat) (cs : Bytes) (more : List Bytes), (∀ i ∈ items, i.Ok) ∧
    args = items.flatMap Item.words ++ (45 :: (List.replicate n 100 ++ 104 :: cs)) :: more

/-- A well-formed command line without a known command. -/
def NoCommand (args : List Bytes) : Prop :=
  ∃ l : Line, l.Ok ∧ args = l.words ∧ ∀ c, l.operands.head? ≠ some (str (label c))

theorem cluster_ub : ∀ (cs : Bytes) (o : Opts), cluster .ub cs o = .ub →
    ∃ n r, cs = List.replicate n 100 ++ 104 :: r
  | [], o, h => by cases h
  | c :: cs, o, h => by
    rcases optKind_cases c with hn | ⟨k, rfl, -⟩ | ⟨hd, -⟩
    · rw [cluster, hn] at h
      cases h
    · rw [cluster_key] at h
      split at h <;> cases h
    · rcases hd with rfl | rfl | rfl
      · rw [cluster_d] at h
        obtain ⟨n, r, hr⟩ := cluster_ub cs _ h
        exact ⟨n + 1, r, by rw [hr]; rfl⟩
      · cases h
      · exact ⟨0, cs, rfl⟩

theorem asksHelp_cons (i : Item) (hi : i.Ok) {args : List Bytes} (h : AsksHelp args) : AsksHelp (i.words ++ args) := by
  obtain ⟨items, n, cs, more, h1, h2⟩ := h
  refine ⟨i :: items, n, cs, more, fun j hj => ?_, by rw [h2, List.flatMap_cons, List.append_assoc]⟩
  rcases List.mem_cons.1 hj with rfl | hj
  · exact hi
  · exact h1 j hj

theorem scan_ub : ∀ (args : List Bytes) (ops : List Bytes) (n : Nat) (o : Opts),
    (scan .ub none args ops n o = .ub → AsksHelp args) ∧
    (∀ k : Key, scan .ub (some k.letter) args ops n o = .ub → ∃ v rest, args = v :: rest ∧ AsksHelp rest)
  | [], ops, n, o => by
    constructor
    · intro h; rw [scan] at h; cases h
    · intro k h; rw [scan] at h; cases h
  | w :: args, ops, n, o => by
    constructor
    · intro h
      rw [scan] at h
      split at h
      · cases h
      · split at h
        · rename_i hop
          obtain ⟨c, w', rfl⟩ : ∃ c w', w = 45 :: c :: w' := by
            unfold isOption at hop
            split at hop
            · exact ⟨_, _, rfl⟩
            · cases hop
          rw [List.tail_cons] at h
          cases hc : cluster .ub (c :: w') o with
          | ub =>
            obtain ⟨n, r, hr⟩ := cluster_ub _ _ hc
            exact ⟨[], n, r, args, (fun i hi => by cases hi), by rw [hr]; rfl⟩
          | ok r =>
            rw [hc, bind'_ok] at h
            cases r with
            | error e => cases h
            | ok q =>
              obtain ⟨o', p⟩ := q
              simp only at h
              rcases cluster_sound .ub _ _ _ _ hc with ⟨m, h1, h2, h3⟩ | ⟨m, k, h1, h2, h3⟩ | ⟨m, k, v, h1, h2, h3, h4⟩
              · subst h3
                cases m with
                | zero => cases h1
                | succ m =>
                  have := asksHelp_cons (.flags m) trivial ((scan_ub args ops (n + 1) o').1 h)
                  rw [h1]
                  exact this
              · subst h3
                obtain ⟨v, rest, rfl, hr⟩ := (scan_ub args ops (n + 1) o').2 k h
                have := asksHelp_cons (.separate m k v) trivial hr
                rw [h1]
                exact this
              · subst h4
                have := asksHelp_cons (.attached m k v) h2 ((scan_ub args ops (n + 1) o').1 h)
                rw [h1]
                exact this
        · rename_i hop
          refine asksHelp_cons (.operand w) ?_ ((scan_ub args (ops ++ [w]) n o).1 h)
          intro hh
          cases w with
          | nil => cases hh
          | cons c w =>
            simp only [List.head?_cons, Option.some.injEq] at hh
            subst hh
            cases w with
            | nil => rfl
            | cons d w => exact absurd rfl hop
    · intro k h
      rw [scan, handle_key, bind'_ok] at h
      exact ⟨w, args, rfl, (scan_ub args ops (n + 1) _).1 h⟩

/-- **C65**, exactly: the command lines whose processing is undefined are those that ask for the help and those without a
known command; every other command line ends the program or runs its command in a defined way. -/
theorem C65_partial (name : Bytes) (hn : 0 ∉ name) (args : List Bytes) :
    processOptions (showHelp name) args = .ub ↔ AsksHelp args ∨ NoCommand args := by
  constructor
  · intro h
    rw [showHelp_ub name hn] at h
    unfold processOptions at h
    cases hs : scan .ub none args [] 1 noOpts with
    | ub => exact .inl ((scan_ub args [] 1 noOpts).1 hs)
    | ok r =>
      rw [hs, bind'_ok] at h
      cases r with
      | error e => cases h
      | ok s =>
        right
        obtain ⟨l, l1, l2, l3, l4⟩ := (scan_sound .ub args [] 1 noOpts s).1 hs
        refine ⟨l, l1, l2, fun c hc => ?_⟩
        rw [List.nil_append] at l4
        rw [← l4] at hc
        simp only at h
        cases hso : s.operands with
        | nil => rw [hso] at hc; cases hc
        | cons w ops =>
          rw [hso] at hc h
          simp only [List.head?_cons, Option.some.injEq] at hc
          simp only [(getCommandId_iff w c).2 hc] at h
          cases h
  · rintro (⟨items, n, cs, more, h1, rfl⟩ | ⟨l, h1, rfl, h2⟩)
    · rw [showHelp_ub name hn]
      unfold processOptions
      obtain ⟨n', h, -, -⟩ := scan_items .ub ((45 :: (List.replicate n 100 ++ 104 :: cs)) :: more) items h1 [] 1 noOpts
      have hne : ¬ (45 :: (List.replicate n 100 ++ 104 :: cs) : Bytes) = [45, 45] := by
        cases n with
        | zero => intro h; simp at h
        | succ k => rw [List.replicate_succ]; intro h; simp at h
      have hop : isOption (45 :: (List.replicate n 100 ++ 104 :: cs)) = true := by
        cases n <;> simp [List.replicate_succ, isOption]
      rw [h, scan, if_neg hne, if_pos hop, List.tail_cons, cluster_ds]
      rfl
    · exact (C50_partial name l hn h1).2 h2

/-- Non-vacuity, and lines on both sides: `-c f -dh masa` asks for the help, `-c f` has no command, `-c -h masa` is neither. -/
example : AsksHelp [str "-c", str "f", str "-dh", str "masa"] ∧ NoCommand [str "-c", str "f"] ∧
    processOptions (showHelp (str "./brski")) [str "-c", str "f", str "-dh", str "masa"] = .ub ∧
    processOptions (showHelp (str "./brski")) [] = .ub ∧
    processOptions (showHelp (str "./brski")) [str "-c", str "-h", str "masa"] =
      .ok (.run { noOpts with config := str "-h" } .startMasa) :=
  ⟨⟨[.separate 0 .config (str "f")], 1, [], [str "masa"], by intro i hi; rcases List.mem_singleton.1 hi with rfl; trivial,
      by decide +kernel⟩,
   ⟨⟨[.separate 0 .config (str "f")], none⟩, by intro i hi; rcases List.mem_singleton.1 hi with rfl; trivial, by decide +kernel,
      by intro c; cases c <;> decide⟩, by decide +kernel, by decide +kernel, by decide +kernel⟩

/-- Non-vacuity of `C50_effective`: a run with a file, and an address and a port that override it. -/
example : (match prepare .ub (fun _ => ⟨fun _ => true, fun _ _ => true⟩) true (fun _ => some []) (fun _ => 443)
      [str "-a", str "::1", str "-p", str "99", str "sign"] mem0 with
    | .ok (.go o .signCert m c p) => (p == 99) && ((c (.str .registrar .bindAddress)).bind m.dat == some (str "::1" ++ [0]))
        && o.address == str "::1"
    | _ => false) = true ∧
    (match prepare .ub (fun _ => ⟨fun _ => true, fun _ _ => true⟩) true (fun _ => some []) (fun _ => 443)
      [str "-a", str "::1", str "-p", str "99", str "masa"] mem0 with
    | .ok (.go _ .startMasa m c p) => (p == 443) && ((c (.str .registrar .bindAddress)).bind m.dat).map BoolTime.cstr == some (str "0.0.0.0")
    | _ => false) = true ∧ Wf mem0 := ⟨by decide +kernel, by decide +kernel, wf_mem0⟩

end Brski.Props
