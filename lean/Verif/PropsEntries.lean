import Verif.PropsEnroll
import Verif.PropsClient

/-!
# C144: what the enrolment log tells

`save_to_log` (/repo/src/brski/registrar/registrar_api.cpp:31-88) puts the serial numbers of the certificates between
quotes as they are.
-/

namespace Brski.Props
open Outcome Brski.Voucher VoucherJson Crypto BoolTime Request Base64 Brski.Spec Server

/-! ## Specification -/

/-- An enrolment that has taken place: when, the certificate of the client and the certificate issued (specification). -/
structure Enrolment where
  time : Nat
  client : Meta
  issued : Meta
deriving Repr, DecidableEq

/-- Requests served one after the other, and the enrolments that have taken place meanwhile: those that were answered
with a certificate (specification for /repo/src/brski/registrar/registrar_api.cpp:354-432). -/
inductive Served (O : Ossl) : List (EnrollEnv O × Option O.Cert × Bytes) → Heap → Heap → List Enrolment → Prop where
  | nil {h} : Served O [] h h []
  | refused {e client body rest h h' r es} : simpleEnroll O e client body h = .ok r → r.status ≠ 200 →
      Served O rest r.heap h' es → Served O ((e, client, body) :: rest) h h' es
  | enrolled {e x body rest h h' r es der w i l} : simpleEnroll O e (some x) body h = .ok r → r.status = 200 →
      r.body = rfc4648 der → O.d2iX509 der = some w → e.certInfo x = some i → e.certInfo w = some l →
      Served O rest r.heap h' es → Served O ((e, some x, body) :: rest) h h' (⟨e.time, i, l⟩ :: es)

/-- Requests for which the model of the handler is defined and that can be recorded (specification). -/
def Recordable {O : Ossl} (rs : List (EnrollEnv O × Option O.Cert × Bytes)) : Prop :=
  ∀ q ∈ rs, q.1.blk.length = 4 ∧ (cstr q.2.2).length < 2 ^ 63 ∧ q.1.logOpen = true

/-- **C144** as stated: what is in the log tells which enrolments have taken place: two histories that leave the same
log consist of the same enrolments. -/
def C144_statement : Prop :=
  ∀ (O : Ossl) (rs rs' : List (EnrollEnv O × Option O.Cert × Bytes)) (h h1 k k1 : Heap) (es es' : List Enrolment)
    (log : Bytes) (out out' : Heap × Bytes × Nat), Recordable rs → Recordable rs' →
    Served O rs h h1 es → Served O rs' k k1 es' →
    serveEnrolments O rs h log = .ok out → serveEnrolments O rs' k log = .ok out' → out.2.1 = out'.2.1 → es = es'

/-- A serial number without quote that is not the text NULL (specification). -/
def PlainSerial (m : Meta) : Prop := (∀ s, m.serial = some s → (34 : UInt8) ∉ s) ∧ m.serial ≠ some (str "NULL")

instance (m : Meta) : Decidable (PlainSerial m) :=
  match h : m.serial with
  | none => .isTrue ⟨(fun s e => by rw [h] at e; cases e), (by rw [h]; simp)⟩
  | some s =>
    if h1 : (34 : UInt8) ∉ s ∧ s ≠ str "NULL" then
      .isTrue ⟨(fun t e => by rw [h] at e; cases e; exact h1.1), by rw [h]; exact fun e => h1.2 (by injection e)⟩
    else .isFalse fun q => h1 ⟨q.1 s h, fun e => q.2 (by rw [h, e])⟩

/-- The text recorded for a list of enrolments (with the format of /repo/src/brski/registrar/registrar_api.cpp:76-78). -/
def entries (es : List Enrolment) : Bytes := es.flatMap fun x => logLine x.time x.client x.issued

/-! ## Digits -/

theorem natDec_inj : ∀ a b : Nat, natDec a = natDec b → a = b := by
  have hd : ∀ x : Nat, x < 10 → ∀ y : Nat, y < 10 → dig x = dig y → x = y := by decide
  intro a
  induction a using Nat.strongRecOn with
  | ind a ih =>
    intro b h
    rw [natDec, natDec.eq_def b] at h
    have ne : ∀ n, natDec n ≠ [] := by
      intro n
      rw [natDec]
      split <;> simp
    split at h <;> split at h
    · exact hd _ (by assumption) _ (by assumption) (by simpa using h)
    · have := congrArg List.length h
      simp only [List.length_append, List.length_cons, List.length_nil] at this
      exact absurd (List.eq_nil_of_length_eq_zero (by omega)) (ne (b / 10))
    · have := congrArg List.length h
      simp only [List.length_append, List.length_cons, List.length_nil] at this
      exact absurd (List.eq_nil_of_length_eq_zero (by omega)) (ne (a / 10))
    · obtain ⟨h1, h2⟩ := List.append_inj' h rfl
      have e1 := ih (a / 10) (by omega) _ h1
      have e2 := hd _ (Nat.mod_lt _ (by omega)) _ (Nat.mod_lt _ (by omega)) (by simpa using h2)
      omega

theorem hexNat_inj : ∀ a b : Nat, hexNat a = hexNat b → a = b := by
  have hd : ∀ x : Nat, x < 16 → ∀ y : Nat, y < 16 → hexDig x = hexDig y → x = y := by decide
  intro a
  induction a using Nat.strongRecOn with
  | ind a ih =>
    intro b h
    rw [hexNat, hexNat.eq_def b] at h
    have ne : ∀ n, hexNat n ≠ [] := by
      intro n
      rw [hexNat]
      split <;> simp
    split at h <;> split at h
    · exact hd _ (by assumption) _ (by assumption) (by simpa using h)
    · have := congrArg List.length h
      simp only [List.length_append, List.length_cons, List.length_nil] at this
      exact absurd (List.eq_nil_of_length_eq_zero (by omega)) (ne (b / 16))
    · have := congrArg List.length h
      simp only [List.length_append, List.length_cons, List.length_nil] at this
      exact absurd (List.eq_nil_of_length_eq_zero (by omega)) (ne (a / 16))
    · obtain ⟨h1, h2⟩ := List.append_inj' h rfl
      have e1 := ih (a / 16) (by omega) _ h1
      have e2 := hd _ (Nat.mod_lt _ (by omega)) _ (Nat.mod_lt _ (by omega)) (by simpa using h2)
      omega

theorem natDec_no_space (n : Nat) : (32 : UInt8) ∉ natDec n := by
  have hd : ∀ x : Nat, x < 10 → (32 : UInt8) ≠ dig x := by decide
  induction n using Nat.strongRecOn with
  | ind n ih =>
    rw [natDec]
    split
    · simpa using hd n (by assumption)
    · intro hc
      rcases List.mem_append.1 hc with hc | hc
      · exact ih (n / 10) (by omega) hc
      · exact hd (n % 10) (by omega) (by simpa using hc)

theorem hexNat_no_space (n : Nat) : (32 : UInt8) ∉ hexNat n := by
  have hd : ∀ x : Nat, x < 16 → (32 : UInt8) ≠ hexDig x := by decide
  induction n using Nat.strongRecOn with
  | ind n ih =>
    rw [hexNat]
    split
    · simpa using hd n (by assumption)
    · intro hc
      rcases List.mem_append.1 hc with hc | hc
      · exact ih (n / 16) (by omega) hc
      · exact hd (n % 16) (by omega) (by simpa using hc)

/-- What stands before the first occurrence of a character. -/
theorem before_first {c : UInt8} : ∀ {a b x y : Bytes}, c ∉ a → c ∉ b → a ++ c :: x = b ++ c :: y → a = b ∧ x = y
  | [], [], _, _, _, _, h => ⟨rfl, by simpa using h⟩
  | [], b :: bs, _, _, _, hb, h => by
    simp only [List.nil_append, List.cons_append, List.cons.injEq] at h
    exact absurd (by rw [h.1]; exact List.mem_cons_self) hb
  | a :: as, [], _, _, ha, _, h => by
    simp only [List.nil_append, List.cons_append, List.cons.injEq] at h
    exact absurd (by rw [← h.1]; exact List.mem_cons_self) ha
  | a :: as, b :: bs, x, y, ha, hb, h => by
    simp only [List.cons_append, List.cons.injEq] at h
    obtain ⟨e1, e2⟩ := before_first (fun m => ha (List.mem_cons_of_mem _ m)) (fun m => hb (List.mem_cons_of_mem _ m)) h.2
    exact ⟨by rw [h.1, e1], e2⟩

theorem serialText_noquote {m : Meta} (h : PlainSerial m) : (34 : UInt8) ∉ serialText m := by
  unfold serialText
  cases hs : m.serial with
  | none => decide
  | some s => exact h.1 s hs

theorem serialText_inj {m m' : Meta} (h : PlainSerial m) (h' : PlainSerial m') (e : serialText m = serialText m') :
    m.serial = m'.serial := by
  unfold serialText at e
  cases hs : m.serial with
  | none =>
    cases hs' : m'.serial with
    | none => rfl
    | some s =>
      rw [hs, hs'] at e
      exact absurd (by rw [hs']; exact congrArg some e.symm) h'.2
  | some s =>
    cases hs' : m'.serial with
    | none =>
      rw [hs, hs'] at e
      exact absurd (by rw [hs]; exact congrArg some e) h.2
    | some s' => rw [hs, hs'] at e; exact congrArg some e

/-- An entry as a chain of fields with the characters that end them. -/
theorem logLine_fields (t : Nat) (i l : Meta) (rest : Bytes) : logLine t i l ++ rest =
    natDec t ++ 32 :: ([48, 120] ++ (hexNat i.number ++ 32 :: (34 :: (serialText i ++ 34 :: (32 :: ([48, 120] ++
      (hexNat l.number ++ 32 :: (34 :: (serialText l ++ 34 :: (10 :: rest)))))))))) := by
  have e1 : str " 0x" = 32 :: [48, 120] := by decide
  have e2 : str " \"" = [32, 34] := by decide
  have e3 : str "\" 0x" = 34 :: 32 :: [48, 120] := by decide
  have e4 : str "\"\n" = [34, 10] := by decide
  simp only [logLine, e1, e2, e3, e4, List.append_assoc, List.cons_append, List.nil_append]

theorem logLine_first {t t' : Nat} {i i' l l' : Meta} {rest rest' : Bytes} (hi : PlainSerial i) (hi' : PlainSerial i')
    (hl : PlainSerial l) (hl' : PlainSerial l') (h : logLine t i l ++ rest = logLine t' i' l' ++ rest') :
    t = t' ∧ i = i' ∧ l = l' ∧ rest = rest' := by
  rw [logLine_fields, logLine_fields] at h
  obtain ⟨h1, h⟩ := before_first (natDec_no_space _) (natDec_no_space _) h
  obtain ⟨h2, h⟩ := before_first (hexNat_no_space _) (hexNat_no_space _) (List.append_cancel_left h)
  obtain ⟨h3, h⟩ := before_first (serialText_noquote hi) (serialText_noquote hi') (List.cons.inj h).2
  obtain ⟨h4, h⟩ := before_first (hexNat_no_space _) (hexNat_no_space _) (List.append_cancel_left (List.cons.inj h).2)
  obtain ⟨h5, h⟩ := before_first (serialText_noquote hl) (serialText_noquote hl') (List.cons.inj h).2
  refine ⟨natDec_inj _ _ h1, ?_, ?_, (List.cons.inj h).2⟩
  · have e1 := hexNat_inj _ _ h2
    have e2 := serialText_inj hi hi' h3
    cases i; cases i'; simp_all
  · have e1 := hexNat_inj _ _ h4
    have e2 := serialText_inj hl hl' h5
    cases l; cases l'; simp_all

theorem logLine_ne_nil (t : Nat) (i l : Meta) : logLine t i l ≠ [] := by
  have := logLine_fields t i l []
  intro h
  rw [h] at this
  have := congrArg List.length this
  simp at this

/-- The entries can be read back when no serial number has a quote or is the text NULL. -/
theorem entries_inj : ∀ {es es' : List Enrolment}, (∀ x ∈ es, PlainSerial x.client ∧ PlainSerial x.issued) →
    (∀ x ∈ es', PlainSerial x.client ∧ PlainSerial x.issued) → entries es = entries es' → es = es'
  | [], [], _, _, _ => rfl
  | [], x :: xs, _, _, h => by
    have h' : [] = logLine x.time x.client x.issued ++ entries xs := h
    exact absurd (List.append_eq_nil_iff.1 h'.symm).1 (logLine_ne_nil _ _ _)
  | x :: xs, [], _, _, h => by
    have h' : logLine x.time x.client x.issued ++ entries xs = [] := h
    exact absurd (List.append_eq_nil_iff.1 h').1 (logLine_ne_nil _ _ _)
  | x :: xs, y :: ys, hx, hy, h => by
    have h' : logLine x.time x.client x.issued ++ entries xs = logLine y.time y.client y.issued ++ entries ys := h
    obtain ⟨a1, a2⟩ := hx x List.mem_cons_self
    obtain ⟨b1, b2⟩ := hy y List.mem_cons_self
    obtain ⟨e1, e2, e3, e4⟩ := logLine_first a1 b1 a2 b2 h'
    have := entries_inj (fun z m => hx z (List.mem_cons_of_mem _ m)) (fun z m => hy z (List.mem_cons_of_mem _ m)) e4
    cases x; cases y; simp_all

/-! ## C144 -/

/-- **C144** (what is recorded): whatever requests are served, the text appended to the log is that of the enrolments
that have taken place, in their order. -/
theorem C144_recorded (O : Ossl) : ∀ (rs : List (EnrollEnv O × Option O.Cert × Bytes)) (h h1 : Heap) (es : List Enrolment)
    (log : Bytes), Recordable rs → Served O rs h h1 es →
    serveEnrolments O rs h log = .ok (h1, log ++ entries es, es.length) := by
  intro rs h h1 es log hr hs
  induction hs generalizing log with
  | nil => simp [serveEnrolments, entries]
  | @refused e client body rest h h' r es he hst hs ih =>
    obtain ⟨b1, b2, b3⟩ := hr _ List.mem_cons_self
    have := ih (log ++ r.log) fun q hq => hr q (List.mem_cons_of_mem _ hq)
    rcases enroll_answer O e b1 client body b2 h r he with ⟨-, -, a3⟩ | ⟨a1, -⟩
    · rw [a3, List.append_nil] at this
      simp only [serveEnrolments, he, bind'_ok, a3, List.append_nil, this, hst, if_false, Nat.add_zero]
    · exact absurd a1 hst
  | @enrolled e x body rest h h' r es der w i l he hst hb hw hi hl hs ih =>
    obtain ⟨b1, b2, b3⟩ := hr _ List.mem_cons_self
    have := ih (log ++ r.log) fun q hq => hr q (List.mem_cons_of_mem _ hq)
    rcases enroll_answer O e b1 (some x) body b2 h r he with ⟨a1, -⟩ | ⟨-, _, _, _, _, _, _, der', -, -, a4, a5⟩
    · rw [a1] at hst; cases hst
    · have ed : der' = der := rfc_injective (a4.symm.trans hb)
      subst ed
      have b3' : e.logOpen = true := b3
      have hlog : r.log = logLine e.time i l := by
        rw [a5, hw]
        simp only [saveToLog, Option.bind_some, hi, hl, b3', if_true]
      have hent : entries (⟨e.time, i, l⟩ :: es) = logLine e.time i l ++ entries es := rfl
      simp only [serveEnrolments, he, bind'_ok, this, hst, if_true]
      rw [hlog, hent, List.append_assoc, List.length_cons]

/-- **C144**, the part that holds: the log tells which enrolments have taken place as long as no serial number of a
certificate has a quote in it or is the text NULL; newlines do no harm.  Missing: serial numbers with quotes. -/
theorem C144_partial (O : Ossl) (rs rs' : List (EnrollEnv O × Option O.Cert × Bytes)) (h h1 k k1 : Heap)
    (es es' : List Enrolment) (log : Bytes) (out out' : Heap × Bytes × Nat) (hr : Recordable rs) (hr' : Recordable rs')
    (hs : Served O rs h h1 es) (hs' : Served O rs' k k1 es')
    (hq : ∀ x ∈ es, PlainSerial x.client ∧ PlainSerial x.issued) (hq' : ∀ x ∈ es', PlainSerial x.client ∧ PlainSerial x.issued)
    (ho : serveEnrolments O rs h log = .ok out) (ho' : serveEnrolments O rs' k log = .ok out')
    (hlog : out.2.1 = out'.2.1) : es = es' := by
  rw [C144_recorded O rs h h1 es log hr hs] at ho
  rw [C144_recorded O rs' k k1 es' log hr' hs'] at ho'
  cases ho
  cases ho'
  exact entries_inj hq hq' (List.append_cancel_left hlog)

/-- The serial number that makes one entry look like two: the first with the given ends, the second with the given time,
number and serial number of the client. -/
def forged (s : Bytes) (l : Meta) (t : Nat) (i : Meta) : Bytes :=
  s ++ str "\" 0x" ++ hexNat l.number ++ str " \"" ++ serialText l ++ str "\"\n" ++ natDec t ++ str " 0x" ++
    hexNat i.number ++ str " \"" ++ serialText i

/-- **C144** (how the log is forged): for every two enrolments there is a serial number such that a single enrolment of
a client whose certificate has this serial number leaves the very entries of the two; of the two only the time and number
of the first client and the issued certificate of the second are not free. -/
theorem C144_forged (t : Nat) (n : Nat) (s : Bytes) (l1 : Meta) (t2 : Nat) (i2 l2 : Meta) :
    entries [⟨t, ⟨n, some (forged s l1 t2 i2)⟩, l2⟩] = entries [⟨t, ⟨n, some s⟩, l1⟩, ⟨t2, i2, l2⟩] := by
  have e4 : ∀ m : Bytes, serialText ⟨n, some m⟩ = m := fun _ => rfl
  simp only [entries, List.flatMap_cons, List.flatMap_nil, List.append_nil, logLine, forged, e4, List.append_assoc]

/-- Serial numbers as the two certificates of the example have them. -/
def namedInfo (i l : Meta) : UInt8 → Option Meta := fun c => if c = 3 then some i else some l

theorem demo_served (i l : Meta) : ∃ h1, Served toy [(demoEnroll (namedInfo i l), some (3 : UInt8), rfc4648 [5])] Heap.empty h1
    [⟨1000, i, l⟩] := by
  obtain ⟨r, h1, h2, h3, -⟩ := demo_enrolled (namedInfo i l) (some 3)
  exact ⟨r.heap, .enrolled h1 h2 h3 (w := (8 : UInt8)) rfl rfl rfl .nil⟩

theorem demo_recordable (i l : Meta) :
    Recordable [((demoEnroll (namedInfo i l), some (3 : UInt8), rfc4648 [5]) : EnrollEnv toy × Option toy.Cert × Bytes)] := by
  intro q hq
  cases List.mem_singleton.1 hq
  exact ⟨rfl, demo_size, rfl⟩

/-- Non-vacuity of `C144_recorded` and `C144_partial`: an enrolment, with a newline in a serial number, and its entry. -/
example : ∃ h1, Served toy [(demoEnroll (namedInfo ⟨255, some (str "S\n1")⟩ ⟨7, none⟩), some (3 : UInt8), rfc4648 [5])] Heap.empty h1
      [⟨1000, ⟨255, some (str "S\n1")⟩, ⟨7, none⟩⟩] ∧
    serveEnrolments toy [(demoEnroll (namedInfo ⟨255, some (str "S\n1")⟩ ⟨7, none⟩), some (3 : UInt8), rfc4648 [5])] Heap.empty
      (str "old\n") = .ok (h1, str "old\n1000 0xff \"S\n1\" 0x7 \"NULL\"\n", 1) ∧
    PlainSerial ⟨255, some (str "S\n1")⟩ ∧ PlainSerial ⟨7, none⟩ := by
  obtain ⟨h1, hs⟩ := demo_served ⟨255, some (str "S\n1")⟩ ⟨7, none⟩
  refine ⟨h1, hs, ?_, by decide, by decide⟩
  rw [C144_recorded toy _ _ _ _ (str "old\n") (demo_recordable _ _) hs]
  have e : str "old\n" ++ entries [⟨1000, ⟨255, some (str "S\n1")⟩, ⟨7, none⟩⟩] = str "old\n1000 0xff \"S\n1\" 0x7 \"NULL\"\n" := by
    decide +kernel
  rw [e]
  rfl

/-- The code violates C144: two clients with different serial numbers leave the same log, since the one has quotes in its
serial number. -/
theorem C144_violated : ¬ C144_statement := by
  intro h
  obtain ⟨h1, hs⟩ := demo_served ⟨1, some (str "a\" 0x2 \"b")⟩ ⟨3, some (str "c")⟩
  obtain ⟨k1, ks⟩ := demo_served ⟨1, some (str "a")⟩ ⟨2, some (str "b\" 0x3 \"c")⟩
  have := h toy _ _ _ _ _ _ _ _ [] _ _ (demo_recordable _ _) (demo_recordable _ _) hs ks
    (C144_recorded toy _ _ _ _ [] (demo_recordable _ _) hs) (C144_recorded toy _ _ _ _ [] (demo_recordable _ _) ks)
    (by dsimp only; decide +kernel)
  exact absurd this (by decide)

/-- **C144** (an enrolment that never took place): one client is enrolled once, and the log says that two were, the second
of them a device the registrar has never seen. -/
theorem C144_violated_forged : ∃ (rs : List (EnrollEnv toy × Option toy.Cert × Bytes)) (h1 : Heap) (es : List Enrolment),
    Recordable rs ∧ Served toy rs Heap.empty h1 es ∧ es.length = 1 ∧
    serveEnrolments toy rs Heap.empty [] = .ok (h1, str "1000 0x1 \"pledge\" 0x2 \"pledge\"\n2000 0x9 \"victim\" 0x2 \"pledge\"\n", 1) := by
  obtain ⟨h1, hs⟩ := demo_served ⟨1, some (forged (str "pledge") ⟨2, some (str "pledge")⟩ 2000 ⟨9, some (str "victim")⟩)⟩
    ⟨2, some (str "pledge")⟩
  refine ⟨_, h1, _, demo_recordable _ _, hs, rfl, ?_⟩
  rw [C144_recorded toy _ _ _ _ [] (demo_recordable _ _) hs, C144_forged]
  have e : [] ++ entries [⟨1000, ⟨1, some (str "pledge")⟩, ⟨2, some (str "pledge")⟩⟩, ⟨2000, ⟨9, some (str "victim")⟩, ⟨2, some (str "pledge")⟩⟩] =
      str "1000 0x1 \"pledge\" 0x2 \"pledge\"\n2000 0x9 \"victim\" 0x2 \"pledge\"\n" := by decide +kernel
  rw [e]
  rfl

end Brski.Props
