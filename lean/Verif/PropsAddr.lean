import Verif.Addr
import Verif.PropsHeaders

/-!
# C146: what a handler is told about the connection
-/

namespace Brski.Props
open Routes Wire Addr

/-! ## Specification -/

/-- An address of the internet with a name that can be a field (specification). -/
def Located (a : Address) (name : Bytes) (port : Nat) : Prop :=
  (a.family = .inet port ∨ a.family = .inet6 port) ∧ a.name = some name ∧ hasCrlf name = false

/-- **C146** as stated: a handler is told the addresses of both ends of the connection, whatever the client sends. -/
def C146_statement : Prop :=
  ∀ (remote here : Address) (r l : Bytes) (rp lp : Nat) (fs ts : List SentField), Located remote r rp → Located here l lp →
    let m := given (some remote) (some here) (fs.map SentField.line) (ts.map SentField.line)
    m.lookup (str "REMOTE_ADDR") = some r ∧ m.lookup (str "REMOTE_PORT") = some (BoolTime.natDec rp) ∧
    m.lookup (str "LOCAL_ADDR") = some l ∧ m.lookup (str "LOCAL_PORT") = some (BoolTime.natDec lp)

/-- The values of the fields sent with exactly this name (specification). -/
def valuesOf (k : Bytes) (fs : List SentField) : List Bytes := (fs.filter fun f => f.name = k).map arrives

/-- The names of the fields the server adds (specification). -/
def addressNames : List Bytes := [str "REMOTE_ADDR", str "REMOTE_PORT", str "LOCAL_ADDR", str "LOCAL_PORT"]

/-! ## Lemmas -/

theorem addField_named {hs : List Field} (h : Sorted hs) (k v n : Bytes) : Sorted (addField hs k v) ∧
    fieldsNamed n (addField hs k v) = fieldsNamed n hs ++ if !hasCrlf k && !hasCrlf v then fieldsNamed n [(k, v)] else [] := by
  unfold addField
  split
  · exact ⟨emplace_sorted h _, emplace_named h _ n⟩
  · exact ⟨h, by simp⟩

theorem filterMap_lines (fs : List SentField) :
    (fs.map SentField.line).filterMap parseHeader = fs.map fun f => (f.name, arrives f) := by
  induction fs with
  | nil => rfl
  | cons f fs ih => rw [List.map_cons, List.filterMap_cons, parseHeader_line, List.map_cons, ih]

theorem readHeaders_sorted (ls : List Bytes) : Sorted (readHeaders ls) :=
  (foldl_emplace _ [] List.Pairwise.nil).1

theorem intDec_plain (i : Int) : hasCrlf (Ports.intDec i) = false := by
  have hd : ∀ k : Nat, k < 10 → BoolTime.dig k ≠ 13 ∧ BoolTime.dig k ≠ 10 := by decide
  have hn : ∀ n : Nat, ∀ c ∈ BoolTime.natDec n, c ≠ 13 ∧ c ≠ 10 := by
    intro n
    induction n using Nat.strongRecOn with
    | ind n ih =>
      rw [BoolTime.natDec]
      split
      · intro c hc
        cases List.mem_singleton.1 hc
        exact hd n (by assumption)
      · intro c hc
        rcases List.mem_append.1 hc with hc | hc
        · exact ih (n / 10) (by omega) c hc
        · cases List.mem_singleton.1 hc
          exact hd (n % 10) (by omega)
  have hall : ∀ c ∈ Ports.intDec i, c ≠ 13 ∧ c ≠ 10 := by
    intro c hc
    rcases List.mem_append.1 hc with hc | hc
    · split at hc
      · cases List.mem_singleton.1 hc
        decide
      · cases hc
    · exact hn _ c hc
  unfold hasCrlf
  rw [List.any_eq_false]
  intro c hc
  have := hall c (List.takeWhile_sublist _ |>.subset hc)
  simp [this.1, this.2]

/-- The fields of a name in all of a request. -/
theorem fieldsOf_named (remote here : Option Address) (ls more : List Bytes) (n : Bytes)
    (hr : hasCrlf (remoteOf remote unknown).1 = false) (hl : hasCrlf (localOf here unknown).1 = false) :
    fieldsNamed n (fieldsOf remote here ls more) = fieldsNamed n (ls.filterMap parseHeader) ++
      fieldsNamed n [(str "REMOTE_ADDR", (remoteOf remote unknown).1), (str "REMOTE_PORT", Ports.intDec (remoteOf remote unknown).2),
        (str "LOCAL_ADDR", (localOf here unknown).1), (str "LOCAL_PORT", Ports.intDec (localOf here unknown).2)] ++
      fieldsNamed n (more.filterMap parseHeader) := by
  have h0 := readHeaders_sorted ls
  have e0 : fieldsNamed n (readHeaders ls) = fieldsNamed n (ls.filterMap parseHeader) := by
    have := (foldl_emplace (ls.filterMap parseHeader) [] List.Pairwise.nil).2 n
    simpa [fieldsNamed, readHeaders] using this
  obtain ⟨h1, e1⟩ := addField_named h0 (str "REMOTE_ADDR") (remoteOf remote unknown).1 n
  obtain ⟨h2, e2⟩ := addField_named h1 (str "REMOTE_PORT") (Ports.intDec (remoteOf remote unknown).2) n
  obtain ⟨h3, e3⟩ := addField_named h2 (str "LOCAL_ADDR") (localOf here unknown).1 n
  obtain ⟨h4, e4⟩ := addField_named h3 (str "LOCAL_PORT") (Ports.intDec (localOf here unknown).2) n
  have n1 : hasCrlf (str "REMOTE_ADDR") = false := by decide
  have n2 : hasCrlf (str "REMOTE_PORT") = false := by decide
  have n3 : hasCrlf (str "LOCAL_ADDR") = false := by decide
  have n4 : hasCrlf (str "LOCAL_PORT") = false := by decide
  unfold fieldsOf withAddresses
  dsimp only
  rw [(foldl_emplace _ _ h4).2 n, e4, e3, e2, e1, e0, hr, hl, intDec_plain, intDec_plain, n1, n2, n3, n4]
  simp only [Bool.not_false, Bool.and_self, if_true, List.append_assoc]
  congr 1
  have split4 : ∀ a b c d : Field, fieldsNamed n [a, b, c, d] =
      fieldsNamed n [a] ++ (fieldsNamed n [b] ++ (fieldsNamed n [c] ++ fieldsNamed n [d])) := by
    intro a b c d
    unfold fieldsNamed
    rw [← List.filter_append, ← List.filter_append, ← List.filter_append]
    rfl
  rw [split4]
  simp only [List.append_assoc]

theorem spelled_sent (k : Bytes) (fs : List SentField) : spelled k (fs.map fun f => (f.name, arrives f)) = valuesOf k fs := by
  simp only [spelled, valuesOf, List.filter_map, List.map_map]
  rfl

theorem spelled_append (k : Bytes) (a b : List Field) : spelled k (a ++ b) = spelled k a ++ spelled k b := by
  simp [spelled, List.filter_append]

theorem given_lookup (remote here : Option Address) (fs ts : List SentField) (k : Bytes)
    (hr : hasCrlf (remoteOf remote unknown).1 = false) (hl : hasCrlf (localOf here unknown).1 = false) :
    (given remote here (fs.map SentField.line) (ts.map SentField.line)).lookup k = entryOf (valuesOf k fs ++
      spelled k [(str "REMOTE_ADDR", (remoteOf remote unknown).1), (str "REMOTE_PORT", Ports.intDec (remoteOf remote unknown).2),
        (str "LOCAL_ADDR", (localOf here unknown).1), (str "LOCAL_PORT", Ports.intDec (localOf here unknown).2)] ++
      valuesOf k ts) := by
  unfold given
  rw [(getRequestHeader_spec _).2 k, spelled_named, fieldsOf_named remote here _ _ k hr hl, spelled_append, spelled_append,
    ← spelled_named, ← spelled_named, ← spelled_named, filterMap_lines, filterMap_lines, spelled_sent, spelled_sent]

/-! ## C146 -/

/-- **C146**, exactly: what a handler is told under each of the four names is the values the client has sent under that name in its
header, the true one, and the values it has sent in the trailer, joined by commas. -/
theorem C146_exact {remote here : Address} {r l : Bytes} {rp lp : Nat} (fs ts : List SentField) (hr : Located remote r rp)
    (hl : Located here l lp) :
    let m := given (some remote) (some here) (fs.map SentField.line) (ts.map SentField.line)
    ∀ p ∈ [(str "REMOTE_ADDR", r), (str "REMOTE_PORT", BoolTime.natDec rp), (str "LOCAL_ADDR", l), (str "LOCAL_PORT", BoolTime.natDec lp)],
      m.lookup p.1 = some (joined (valuesOf p.1 fs ++ p.2 :: valuesOf p.1 ts)) := by
  intro m p hp
  have er : remoteOf (some remote) unknown = (r, (rp : Int)) := by
    obtain ⟨h1, h2, -⟩ := hr
    unfold remoteOf ipAndPort
    rcases h1 with h1 | h1 <;> simp only [h1, h2]
  have el : localOf (some here) unknown = (l, (lp : Int)) := by
    obtain ⟨h1, h2, -⟩ := hl
    unfold localOf ipAndPort
    rcases h1 with h1 | h1 <;> simp only [h1, h2]
  have ed : ∀ n : Nat, Ports.intDec (n : Int) = BoolTime.natDec n := by
    intro n
    unfold Ports.intDec
    rw [if_neg (by omega), List.nil_append, Int.natAbs_natCast]
  have := given_lookup (some remote) (some here) fs ts p.1 (by rw [er]; exact hr.2.2) (by rw [el]; exact hl.2.2)
  show (given _ _ _ _).lookup p.1 = _
  rw [this, er, el]
  simp only [ed]
  have e : spelled p.1 [(str "REMOTE_ADDR", r), (str "REMOTE_PORT", BoolTime.natDec rp), (str "LOCAL_ADDR", l),
      (str "LOCAL_PORT", BoolTime.natDec lp)] = [p.2] := by
    simp only [List.mem_cons, List.not_mem_nil, or_false] at hp
    have d12 : str "REMOTE_ADDR" ≠ str "REMOTE_PORT" := by decide
    have d13 : str "REMOTE_ADDR" ≠ str "LOCAL_ADDR" := by decide
    have d14 : str "REMOTE_ADDR" ≠ str "LOCAL_PORT" := by decide
    have d23 : str "REMOTE_PORT" ≠ str "LOCAL_ADDR" := by decide
    have d24 : str "REMOTE_PORT" ≠ str "LOCAL_PORT" := by decide
    have d34 : str "LOCAL_ADDR" ≠ str "LOCAL_PORT" := by decide
    generalize str "REMOTE_ADDR" = a at *
    generalize str "REMOTE_PORT" = b at *
    generalize str "LOCAL_ADDR" = c at *
    generalize str "LOCAL_PORT" = d at *
    rcases hp with rfl | rfl | rfl | rfl <;>
      simp [spelled, d12, d13, d14, d23, d24, d34, d12.symm, d13.symm, d14.symm, d23.symm, d24.symm, d34.symm]
  rw [e, entryOf, if_neg (by simp)]
  simp only [List.append_assoc, List.cons_append, List.nil_append]

theorem valuesOf_nil {k : Bytes} {fs : List SentField} (h : ∀ f ∈ fs, f.name ≠ k) : valuesOf k fs = [] := by
  unfold valuesOf
  rw [List.map_eq_nil_iff, List.filter_eq_nil_iff]
  intro f hf
  simpa using h f hf

/-- **C146**, the part that holds: a client that sends no fields of these names does not change what the handler is told.  Missing:
fields of these names. -/
theorem C146_partial {remote here : Address} {r l : Bytes} {rp lp : Nat} (fs ts : List SentField) (hr : Located remote r rp)
    (hl : Located here l lp) (hf : ∀ f ∈ fs ++ ts, f.name ∉ addressNames) :
    let m := given (some remote) (some here) (fs.map SentField.line) (ts.map SentField.line)
    m.lookup (str "REMOTE_ADDR") = some r ∧ m.lookup (str "REMOTE_PORT") = some (BoolTime.natDec rp) ∧
    m.lookup (str "LOCAL_ADDR") = some l ∧ m.lookup (str "LOCAL_PORT") = some (BoolTime.natDec lp) := by
  intro m
  have h := C146_exact fs ts hr hl
  have key : ∀ k ∈ addressNames, valuesOf k fs = [] ∧ valuesOf k ts = [] := by
    intro k hk
    constructor
    · exact valuesOf_nil fun f hm e => hf f (List.mem_append_left _ hm) (e ▸ hk)
    · exact valuesOf_nil fun f hm e => hf f (List.mem_append_right _ hm) (e ▸ hk)
  have one : ∀ p ∈ [(str "REMOTE_ADDR", r), (str "REMOTE_PORT", BoolTime.natDec rp), (str "LOCAL_ADDR", l), (str "LOCAL_PORT", BoolTime.natDec lp)],
      p.1 ∈ addressNames → m.lookup p.1 = some p.2 := by
    intro p hp hk
    obtain ⟨k1, k2⟩ := key p.1 hk
    have := h p hp
    rw [k1, k2] at this
    exact this
  exact ⟨one (str "REMOTE_ADDR", r) (by simp) (by simp [addressNames]),
    one (str "REMOTE_PORT", BoolTime.natDec rp) (by simp) (by simp [addressNames]),
    one (str "LOCAL_ADDR", l) (by simp) (by simp [addressNames]),
    one (str "LOCAL_PORT", BoolTime.natDec lp) (by simp) (by simp [addressNames])⟩

/-- **C146** (the other fields): the fields that are added change nothing for any other name, neither for a handler nor for the
library; this is why the rest of the model can leave them out. -/
theorem C146_others (remote here : Option Address) (ls more : List Bytes) (hr : hasCrlf (remoteOf remote unknown).1 = false)
    (hl : hasCrlf (localOf here unknown).1 = false) (n : Bytes) (hn : ∀ k ∈ addressNames, ¬ SameName k n) :
    fieldsNamed n (fieldsOf remote here ls more) = fieldsNamed n (readHeaders (ls ++ more)) ∧
    (given remote here ls more).lookup n = (getRequestHeader (readHeaders (ls ++ more))).lookup n := by
  have e : fieldsNamed n (fieldsOf remote here ls more) = fieldsNamed n (readHeaders (ls ++ more)) := by
    rw [fieldsOf_named remote here ls more n hr hl]
    have h1 : fieldsNamed n [(str "REMOTE_ADDR", (remoteOf remote unknown).1), (str "REMOTE_PORT", Ports.intDec (remoteOf remote unknown).2),
        (str "LOCAL_ADDR", (localOf here unknown).1), (str "LOCAL_PORT", Ports.intDec (localOf here unknown).2)] = [] := by
      unfold fieldsNamed
      rw [List.filter_eq_nil_iff]
      intro f hf
      simp only [List.mem_cons, List.not_mem_nil, or_false] at hf
      simp only [decide_eq_true_eq]
      rcases hf with rfl | rfl | rfl | rfl <;> exact hn _ (by simp [addressNames])
    have h2 : fieldsNamed n (readHeaders (ls ++ more)) = fieldsNamed n ((ls ++ more).filterMap parseHeader) := by
      have := (foldl_emplace ((ls ++ more).filterMap parseHeader) [] List.Pairwise.nil).2 n
      simpa [fieldsNamed, readHeaders] using this
    rw [h1, h2, List.append_nil, List.filterMap_append, fieldsNamed, fieldsNamed, fieldsNamed, List.filter_append]
  refine ⟨e, ?_⟩
  unfold given
  rw [(getRequestHeader_spec _).2 n, (getRequestHeader_spec _).2 n, spelled_named, e, ← spelled_named]

/-- A field `REMOTE_ADDR` (specification). -/
def claims (v : Bytes) (h2 : ∃ c, v.head? = some c ∧ isBlank c = false) (h3 : ∃ c, v.getLast? = some c ∧ isBlank c = false) :
    SentField := sent (str "REMOTE_ADDR") v (by decide) h2 h3

/-- **C146** (addresses cannot be told apart): of any two addresses each client can make the handler believe that the other one has
made the request as much as itself: the one sends a trailer with the address of the other, which sends a field with that of the
first, and both requests arrive with the same text.  So neither the first nor the last of the addresses can be relied on. -/
theorem C146_alike {a b here : Address} {v w l : Bytes} {p q lp : Nat} (ha : Located a v p) (hb : Located b w q) (hl : Located here l lp)
    (hv2 : ∃ c, v.head? = some c ∧ isBlank c = false) (hv3 : ∃ c, v.getLast? = some c ∧ isBlank c = false) (hv : (37 : UInt8) ∉ v)
    (hw2 : ∃ c, w.head? = some c ∧ isBlank c = false) (hw3 : ∃ c, w.getLast? = some c ∧ isBlank c = false) (hw : (37 : UInt8) ∉ w) :
    (given (some a) (some here) [] [(claims w hw2 hw3).line]).lookup (str "REMOTE_ADDR") = some (v ++ [44, 32] ++ w) ∧
    (given (some b) (some here) [(claims v hv2 hv3).line] []).lookup (str "REMOTE_ADDR") = some (v ++ [44, 32] ++ w) := by
  have ev : ∀ (x : Bytes) h2 h3, (37 : UInt8) ∉ x → valuesOf (str "REMOTE_ADDR") [claims x h2 h3] = [x] := by
    intro x h2 h3 hx
    have : arrives (claims x h2 h3) = x := C47_partial_value (claims x h2 h3) hx
    have hn : (claims x h2 h3).name = str "REMOTE_ADDR" := rfl
    simp [valuesOf, hn, this]
  have h1 := C146_exact [] [claims w hw2 hw3] ha hl (str "REMOTE_ADDR", v) (by simp)
  have h2 := C146_exact [claims v hv2 hv3] [] hb hl (str "REMOTE_ADDR", w) (by simp)
  constructor
  · refine h1.trans ?_
    rw [ev _ _ _ hw]
    rfl
  · refine h2.trans ?_
    rw [ev _ _ _ hv]
    rfl

/-- The registrar on this machine and a client on another one. -/
def registrarAt : Address := ⟨.inet 12345, some (str "10.0.0.1")⟩
/-- A client. -/
def clientAt : Address := ⟨.inet 40000, some (str "10.0.0.9")⟩

theorem clientAt_located : Located clientAt (str "10.0.0.9") 40000 ∧ Located registrarAt (str "10.0.0.1") 12345 :=
  ⟨⟨.inl rfl, rfl, by decide⟩, ⟨.inl rfl, rfl, by decide⟩⟩

/-- The code violates C146: a client that sends the field itself is given two addresses. -/
theorem C146_violated : ¬ C146_statement := by
  intro h
  have h1 := (h clientAt registrarAt _ _ _ _
    [claims (str "127.0.0.1") ⟨49, by decide⟩ ⟨49, by decide⟩] [] clientAt_located.1 clientAt_located.2).1
  exact absurd h1 (by decide +kernel)

/-- Non-vacuity: what a handler is told about a request with one field, and about one that claims to come from this machine. -/
example : given (some clientAt) (some registrarAt) [str "Host: r"] [] =
      [(str "Host", str "r"), (str "LOCAL_ADDR", str "10.0.0.1"), (str "LOCAL_PORT", str "12345"), (str "REMOTE_ADDR", str "10.0.0.9"),
        (str "REMOTE_PORT", str "40000")] ∧
    (given (some clientAt) (some registrarAt) [str "REMOTE_ADDR: 127.0.0.1"] []).lookup (str "REMOTE_ADDR") =
      some (str "127.0.0.1, 10.0.0.9") ∧
    (given (some clientAt) (some registrarAt) [] [str "REMOTE_ADDR: 127.0.0.1"]).lookup (str "REMOTE_ADDR") =
      some (str "10.0.0.9, 127.0.0.1") ∧
    (given none (some ⟨.unix none, none⟩) [] []).lookup (str "REMOTE_PORT") = some (str "-1") ∧
    (∀ k ∈ addressNames, ¬ SameName k (str "Content-Type")) := by decide +kernel

end Brski.Props
