import Verif.PropsRegistrar

/-!
# Properties C41 (enrolment and overall), C56, C59, C60: certificates issued by the registrar
-/

namespace Brski.Props
open Outcome Brski.Voucher VoucherJson Crypto BoolTime Request Base64 Brski.Spec Server

/-- The certificate issued for a submitted one: issuer name of the CA, signature with the key of the CA, all
other fields as submitted (specification for /repo/src/brski/registrar/registrar_api.cpp:354-432,
/repo/src/voucher/crypto_ossl.c:1106-1186). -/
structure IssuedCert (O : Ossl) (e : EnrollEnv O) (c : Bytes) (ca submitted named signed : O.Cert) (key : O.Key)
    (der : Bytes) : Prop where
  hca : ∃ b, e.caCert = .der b ∧ O.d2iX509 b = some ca
  hkey : ∃ b, e.caKey = .der b ∧ O.d2iKey b = some key
  hsubmitted : O.d2iX509 c = some submitted
  hnamed : e.ca.setIssuer submitted ca = some named
  hsigned : e.ca.sign named key = some signed
  hder : O.i2dX509 signed = some der

theorem signCert_inv {O : Ossl} {ca : Ca O} {key cert c der : Bytes} (h : signCert O ca key cert c = some der) :
    ∃ k x y z w, O.d2iKey key = some k ∧ O.d2iX509 cert = some x ∧ O.d2iX509 c = some y ∧ ca.setIssuer y x = some z ∧
      ca.sign z k = some w ∧ O.i2dX509 w = some der := by
  unfold signCert at h
  simp only [Option.bind_eq_some_iff] at h
  obtain ⟨k, h1, x, h2, y, h3, z, h4, w, h5, h6⟩ := h
  exact ⟨k, x, y, z, w, h1, h2, h3, h4, h5, h6⟩

theorem enrollFail_inv {h : Heap} {ps : List (Option Nat)} {r : EnrollReply} (he : enrollFail h ps = .ok r) :
    r.status = 400 ∧ r.body = [] ∧ r.log = [] := by
  unfold enrollFail at he
  cases hf : freeAll h ps with
  | ub => rw [hf] at he; cases he
  | ok h' => rw [hf, bind'_ok] at he; cases he; exact ⟨rfl, rfl, rfl⟩

/-- Every answer of the enrolment endpoint. -/
theorem enroll_answer (O : Ossl) (e : EnrollEnv O) (hblk : e.blk.length = 4) (client : Option O.Cert) (body : Bytes)
    (hsz : (cstr body).length < 2 ^ 63) (h : Heap) (r : EnrollReply) (he : simpleEnroll O e client body h = .ok r) :
    (r.status = 400 ∧ r.body = [] ∧ r.log = []) ∨
    (r.status = 200 ∧ ∃ c ca x y z k der, BodyDecodes e.al e.blk body c ∧ IssuedCert O e c ca x y z k der ∧
      r.body = rfc4648 der ∧
      r.log = match O.d2iX509 der with | none => [] | some w => saveToLog O e client w) := by
  unfold simpleEnroll enrollSigned at he
  have fin : ∀ {H ps}, enrollFail H ps = .ok r → (r.status = 400 ∧ r.body = [] ∧ r.log = []) := enrollFail_inv
  cases hb : decodeBody e.al e.blk h body with
  | ub => rw [hb] at he; cases he
  | ok b =>
    rw [hb, bind'_ok] at he
    cases hr : b.ret with
    | none => rw [hr] at he; exact .inl (fin he)
    | some n =>
      obtain ⟨c, hdec, hbe⟩ : ∃ c, BodyDecodes e.al e.blk body c ∧ b.bytes = c := by
        rcases decodeBody_cases e.al e.blk hblk h body hsz with ⟨c, h1, h2⟩ | ⟨-, h2⟩ | ⟨-, h2⟩
        · rw [h2] at hb; cases hb; exact ⟨c, h1, rfl⟩
        · rw [h2] at hb; cases hb; cases hr
        · rw [h2] at hb; cases hb; cases hr
      rw [hr] at he
      simp only at he
      cases hc : readFile b.heap e.caCert with
      | ub => rw [hc] at he; cases he
      | ok f =>
        rw [hc, bind'_ok] at he
        rcases readFile_inv hc with ⟨-, rfl⟩ | ⟨cert, hcert, rfl⟩
        · exact .inl (fin he)
        · simp only at he
          cases hk : readFile (b.heap.alloc cert).1 e.caKey with
          | ub => rw [hk] at he; cases he
          | ok f =>
            rw [hk, bind'_ok] at he
            rcases readFile_inv hk with ⟨-, rfl⟩ | ⟨ky, hky, rfl⟩
            · exact .inl (fin he)
            · simp only [hcert, hky, FileRes.arr, BinArr.of, Option.getD_some, bind'_ok, hbe] at he
              cases hsg : signCert O e.ca ky cert c with
              | none => rw [hsg] at he; exact .inl (fin he)
              | some der =>
                rw [hsg] at he
                simp only at he
                cases hfp : (((b.heap.alloc cert).1.alloc ky).1.alloc der).1.freePtr b.ptr with
                | ub => rw [hfp] at he; cases he
                | ok h2 =>
                  rw [hfp, bind'_ok] at he
                  cases hs : array2base64str e.out der with
                  | ub => rw [hs] at he; cases he
                  | ok s =>
                    rw [hs, bind'_ok] at he
                    cases s with
                    | none => exact .inl (fin he)
                    | some s =>
                      obtain ⟨buf, m⟩ := s
                      simp only at he
                      generalize freeAll _ _ = F at he
                      cases F with
                      | ub => cases he
                      | ok H =>
                        cases he
                        obtain ⟨k, x, y, z, w, h1, h2, h3, h4, h5, h6⟩ := signCert_inv hsg
                        exact .inr ⟨rfl, c, x, y, z, w, k, der, hdec, ⟨⟨cert, hcert, h2⟩, ⟨ky, hky, h1⟩, h3, h4, h5, h6⟩,
                          cstr_encoded hs, rfl⟩

/-! ## C59 -/

/-- **C59**: an answer 200 carries the base64 text of the submitted certificate with the issuer name of the
configured CA certificate and the signature of the configured CA key; otherwise the answer is 400 with an empty
body. -/
theorem C59_issued (O : Ossl) (e : EnrollEnv O) (hblk : e.blk.length = 4) (client : Option O.Cert) (body : Bytes)
    (hsz : (cstr body).length < 2 ^ 63) (h : Heap) (r : EnrollReply) (he : simpleEnroll O e client body h = .ok r) :
    (r.status = 200 ∧ ∃ c ca x y z k der, BodyDecodes e.al e.blk body c ∧ IssuedCert O e c ca x y z k der ∧
      r.body = rfc4648 der) ∨ (r.status = 400 ∧ r.body = []) := by
  rcases enroll_answer O e hblk client body hsz h r he with ⟨h1, h2, -⟩ | ⟨h1, c, ca, x, y, z, k, der, h2, h3, h4, -⟩
  · exact .inr ⟨h1, h2⟩
  · exact .inl ⟨h1, c, ca, x, y, z, k, der, h2, h3, h4⟩

/-- **C59**, completeness: whenever the certificate can be made it is returned, the block table is as before, and
the log text is that of `save_to_log`. -/
theorem C59_complete (O : Ossl) (e : EnrollEnv O) (client : Option O.Cert) (body : Bytes) (h : Heap) (hw : h.Wf)
    (hout : NoOom e.out) (c : Bytes) (ca x y z : O.Cert) (k : O.Key) (der : Bytes) (hdec : BodyDecodes e.al e.blk body c)
    (hi : IssuedCert O e c ca x y z k der) (hlen : der.length < sizeMax / 4) :
    ∃ r, simpleEnroll O e client body h = .ok r ∧ r.status = 200 ∧ r.body = rfc4648 der ∧ r.heap.blk = h.blk ∧
      r.log = match O.d2iX509 der with | none => [] | some w => saveToLog O e client w := by
  obtain ⟨⟨cert, hcert, h1⟩, ⟨ky, hky, h2⟩, h3, h4, h5, h6⟩ := hi
  have hbody : decodeBody e.al e.blk h body = .ok ⟨(h.alloc c).1, some c.length, some (h.alloc c).2, c⟩ := by
    unfold decodeBody
    rw [hdec, bind'_ok]
  have hsg : signCert O e.ca ky cert c = some der := by
    simp only [signCert, h1, h2, h3, h4, h5, h6, Option.bind_some]
  unfold simpleEnroll enrollSigned
  simp only [hbody, bind'_ok, hcert, hky, readFile, FileRes.arr, BinArr.of, Option.getD_some, hsg]
  have o := owns_alloc (owns_alloc (owns_alloc (owns_alloc (owns_nil hw) c) cert) ky) der
  obtain ⟨h', e1, o1⟩ := owns_free hw (owns_perm (qs := some (h.alloc c).2 ::
      [some ((((h.alloc c).1.alloc cert).1.alloc ky).1.alloc der).2, some ((h.alloc c).1.alloc cert).2,
        some (((h.alloc c).1.alloc cert).1.alloc ky).2])
    (List.perm_iff_count.2 fun a => by simp only [List.count_cons, List.count_nil]; omega) o)
  rw [e1, bind'_ok]
  obtain ⟨buf, n, hb, -⟩ := C02_encode_rfc4648 e.out hout der hlen
  rw [hb, bind'_ok]
  simp only
  obtain ⟨h'', e2, o2⟩ := owns_freeAll hw _ (owns_alloc o1 buf)
  rw [e2, bind'_ok]
  exact ⟨_, rfl, rfl, cstr_encoded hb, owns_blk o2, rfl⟩

/-- A CA for instances over `toy`: certificates are numbers, the issued one is 8. -/
def demoEnroll (info : UInt8 → Option Meta) : EnrollEnv toy where
  al := zeroAllocator
  blk := [0, 0, 0, 0]
  caCert := .der [1]
  caKey := .der [1]
  ca := ⟨fun _ _ => some (8 : UInt8), fun x _ => some x⟩
  out := zeroAllocator
  certInfo := info
  logOpen := true
  time := 1000

theorem demo_issued (info : UInt8 → Option Meta) :
    IssuedCert toy (demoEnroll info) [5] (1 : UInt8) (5 : UInt8) (8 : UInt8) (8 : UInt8) (1 : UInt8) [8] :=
  ⟨⟨[1], rfl, rfl⟩, ⟨[1], rfl, rfl⟩, rfl, rfl, rfl, rfl⟩

theorem demo_enrolled (info : UInt8 → Option Meta) (client : Option UInt8) :
    ∃ r, simpleEnroll toy (demoEnroll info) client (rfc4648 [5]) Heap.empty = .ok r ∧ r.status = 200 ∧
      r.body = rfc4648 [8] ∧ r.log = saveToLog toy (demoEnroll info) client (8 : UInt8) := by
  obtain ⟨r, h1, h2, h3, -, h4⟩ := C59_complete toy (demoEnroll info) client (rfc4648 [5]) Heap.empty Heap.wf_empty
    noOom_zero [5] _ _ _ _ _ [8] (decodes_rfc _ noOom_zero _ _ rfl (by decide) (by decide)) (demo_issued info)
    (by decide)
  exact ⟨r, h1, h2, h3, h4⟩

theorem demo_size : (cstr (rfc4648 [5])).length < 2 ^ 63 := by
  have := rfc_length [5]
  simp only [List.length_cons, List.length_nil] at this
  omega

/-- non-vacuity of C59_issued and C59_complete. -/
example : ∃ r, simpleEnroll toy (demoEnroll fun _ => none) (some (3 : UInt8)) (rfc4648 [5]) Heap.empty = .ok r ∧
    r.status = 200 ∧ r.body = rfc4648 [8] := by
  obtain ⟨r, h1, h2, h3, -⟩ := demo_enrolled (fun _ => none) (some 3)
  exact ⟨r, h1, h2, h3⟩

/-! ## C60 -/

/-- **C60** as stated, in a necessary part: only clients the registrar has authorised are enrolled, so in
particular no client that shows no certificate at all (specification for
/repo/src/brski/registrar/registrar_api.cpp:354-432; RFC 8995 section 5.9). -/
def C60_statement : Prop :=
  ∀ (O : Ossl) (e : EnrollEnv O) (client : Option O.Cert) (body : Bytes) (h : Heap) (r : EnrollReply),
    e.blk.length = 4 → (cstr body).length < 2 ^ 63 → simpleEnroll O e client body h = .ok r → r.status = 200 →
    client ≠ none

/-- The code violates C60: a client without any certificate is enrolled. -/
theorem C60_violated : ¬ C60_statement := by
  intro h
  obtain ⟨r, h1, h2, -⟩ := demo_enrolled (fun _ => none) none
  exact h toy _ none _ _ r rfl demo_size h1 h2 rfl

/-- Everything but the log text. -/
def EnrollReply.answer (r : EnrollReply) : Heap × Nat × Bytes := (r.heap, r.status, r.body)

/-- **C60**, what holds instead: the answer does not depend on who the client is. -/
theorem C60_any_client_partial (O : Ossl) (e : EnrollEnv O) (c1 c2 : Option O.Cert) (body : Bytes) (h : Heap) :
    (simpleEnroll O e c1 body h).bind (fun r => .ok (EnrollReply.answer r)) =
      (simpleEnroll O e c2 body h).bind (fun r => .ok (EnrollReply.answer r)) := by
  unfold simpleEnroll
  cases decodeBody e.al e.blk h body with
  | ub => rfl
  | ok b =>
    simp only [bind'_ok]
    cases b.ret with
    | none => rfl
    | some n =>
      simp only
      cases readFile b.heap e.caCert with
      | ub => rfl
      | ok c =>
        simp only [bind'_ok]
        cases c.2 with
        | none => rfl
        | some cp =>
          simp only
          cases readFile c.1 e.caKey with
          | ub => rfl
          | ok k =>
            simp only [bind'_ok]
            cases k.2 with
            | none => rfl
            | some kp =>
              simp only
              have key : ∀ S : Outcome (Option Bytes), (S.bind fun signed => enrollSigned O e c1 b.ptr k.1 cp kp signed).bind
                  (fun r => .ok (EnrollReply.answer r)) =
                  (S.bind fun signed => enrollSigned O e c2 b.ptr k.1 cp kp signed).bind
                  (fun r => .ok (EnrollReply.answer r)) := by
                intro S
                cases S with
                | ub => rfl
                | ok sg =>
                  simp only [bind'_ok]
                  cases sg with
                  | none => rfl
                  | some der =>
                    simp only [enrollSigned]
                    cases (k.1.alloc der).1.freePtr b.ptr with
                    | ub => rfl
                    | ok h2 =>
                      simp only [bind'_ok]
                      cases array2base64str e.out der with
                      | ub => rfl
                      | ok s =>
                        simp only [bind'_ok]
                        cases s with
                        | none => rfl
                        | some s =>
                          simp only
                          cases freeAll (h2.alloc s.1).1 [some (h2.alloc s.1).2, some (k.1.alloc der).2, some cp, some kp] with
                          | ub => rfl
                          | ok H => rfl
              exact key _

/-! ## C56 -/

/-- One line of text: exactly one newline, at the end (specification). -/
def OneLine (t : Bytes) : Prop := ∃ l, t = l ++ [10] ∧ (10 : UInt8) ∉ l

/-- A text quoted as in the log (specification for /repo/src/brski/registrar/registrar_api.cpp:76). -/
def inQuotes (s : Option Bytes) : Bytes := str "\"" ++ s.getD (str "NULL") ++ str "\""

/-- One line naming the serial numbers of two certificates, in this order (specification for
/repo/src/brski/registrar/registrar_api.cpp:76-78). -/
def Records (t : Bytes) (i l : Meta) : Prop :=
  OneLine t ∧ ∃ a b c, t = a ++ inQuotes i.serial ++ b ++ inQuotes l.serial ++ c

/-- **C56** as stated, for one enrolment with readable certificates and a log that can be opened: success appends
exactly one line with the serial numbers of the client and of the issued certificate; failure appends nothing
(specification for /repo/src/brski/registrar/registrar_api.cpp:31-88,412-420). -/
def C56_statement : Prop :=
  ∀ (O : Ossl) (e : EnrollEnv O) (client : O.Cert) (body : Bytes) (h : Heap) (r : EnrollReply),
    e.blk.length = 4 → e.logOpen = true → (cstr body).length < 2 ^ 63 → (∀ c, e.certInfo c ≠ none) →
    simpleEnroll O e (some client) body h = .ok r →
    (r.status ≠ 200 → r.log = []) ∧
    (r.status = 200 → ∃ der w i l, r.body = rfc4648 der ∧ O.d2iX509 der = some w ∧ e.certInfo client = some i ∧
      e.certInfo w = some l ∧ Records r.log i l)

/-- The code violates C56: a newline in the serial number of a certificate starts a second line of the log. -/
theorem C56_violated : ¬ C56_statement := by
  intro h
  obtain ⟨r, h1, h2, -, h4⟩ := demo_enrolled (fun _ => some ⟨1, some [10]⟩) (some 3)
  obtain ⟨-, -, -, -, -, -, -, -, ⟨l, hl, hn⟩, -⟩ := (h toy (demoEnroll fun _ => some ⟨1, some [10]⟩) (3 : UInt8) _ _ r
    rfl rfl demo_size (by intro c hc; cases hc) h1).2 h2
  have hcount : (logLine 1000 ⟨1, some [10]⟩ ⟨1, some [10]⟩).count 10 = 3 := by decide +kernel
  have e1 : l ++ [10] = logLine 1000 ⟨1, some [10]⟩ ⟨1, some [10]⟩ := hl.symm.trans h4
  rw [← e1, List.count_append, List.count_eq_zero.2 hn] at hcount
  simp at hcount

theorem dec_no_newline (n : Nat) : (10 : UInt8) ∉ natDec n := by
  induction n using Nat.strongRecOn with
  | ind n ih =>
    have hdig : ∀ k : Nat, k < 10 → ¬ 10 = dig k := by decide
    rw [natDec]
    split
    · simpa using hdig n (by assumption)
    · intro hc
      rcases List.mem_append.1 hc with hc | hc
      · exact ih (n / 10) (by omega) hc
      · exact hdig (n % 10) (by omega) (by simpa using hc)

theorem hex_no_newline (n : Nat) : (10 : UInt8) ∉ hexNat n := by
  induction n using Nat.strongRecOn with
  | ind n ih =>
    have hdig : ∀ k : Nat, k < 16 → ¬ 10 = hexDig k := by decide
    rw [hexNat]
    split
    · simpa using hdig n (by assumption)
    · intro hc
      rcases List.mem_append.1 hc with hc | hc
      · exact ih (n / 16) (by omega) hc
      · exact hdig (n % 16) (by omega) (by simpa using hc)

theorem logLine_records (time : Nat) (i l : Meta) (hi : ∀ s, i.serial = some s → (10 : UInt8) ∉ s)
    (hl : ∀ s, l.serial = some s → (10 : UInt8) ∉ s) : Records (logLine time i l) i l := by
  have ser : ∀ m : Meta, (∀ s, m.serial = some s → (10 : UInt8) ∉ s) → (10 : UInt8) ∉ serialText m := by
    intro m hm
    unfold serialText
    cases h : m.serial with
    | none => decide
    | some s => exact hm s h
  refine ⟨⟨natDec time ++ str " 0x" ++ hexNat i.number ++ str " \"" ++ serialText i ++ str "\" 0x" ++ hexNat l.number ++
    str " \"" ++ serialText l ++ str "\"", ?_, ?_⟩, natDec time ++ str " 0x" ++ hexNat i.number ++ str " ",
    str " 0x" ++ hexNat l.number ++ str " ", str "\n", ?_⟩
  · rw [logLine, List.append_assoc _ (str "\"") [10]]
    rfl
  · simp only [List.mem_append, not_or]
    have h1 := ser i hi
    have h2 := ser l hl
    have h3 := dec_no_newline time
    have h4 := hex_no_newline i.number
    have h5 := hex_no_newline l.number
    refine ⟨⟨⟨⟨⟨⟨⟨⟨⟨h3, ?_⟩, h4⟩, ?_⟩, h1⟩, ?_⟩, h5⟩, ?_⟩, h2⟩, ?_⟩ <;> decide
  · have e1 : str " \"" = str " " ++ str "\"" := by decide
    have e2 : str "\" 0x" = str "\"" ++ str " 0x" := by decide
    have e3 : str "\"\n" = str "\"" ++ str "\n" := by decide
    simp only [logLine, serialText, inQuotes, e1, e2, e3, List.append_assoc]

/-- **C56**, the part that holds: failure appends nothing; success appends nothing or the line for exactly the
two certificates; it does append it when the certificates are readable and the log can be opened; and when the
serial numbers contain no newline this is one line.  Missing: serial numbers with newlines. -/
theorem C56_partial (O : Ossl) (e : EnrollEnv O) (hblk : e.blk.length = 4) (client : Option O.Cert) (body : Bytes)
    (hsz : (cstr body).length < 2 ^ 63) (h : Heap) (r : EnrollReply) (he : simpleEnroll O e client body h = .ok r) :
    (r.status ≠ 200 → r.log = []) ∧
    (r.status = 200 → ∃ der, r.body = rfc4648 der ∧
      ∀ x w i l, client = some x → O.d2iX509 der = some w → e.certInfo x = some i → e.certInfo w = some l →
        e.logOpen = true → (∀ s, i.serial = some s → (10 : UInt8) ∉ s) → (∀ s, l.serial = some s → (10 : UInt8) ∉ s) →
        Records r.log i l) := by
  rcases enroll_answer O e hblk client body hsz h r he with ⟨h1, h2, h3⟩ | ⟨h1, c, ca, x, y, z, k, der, h2, h3, h4, h5⟩
  · exact ⟨fun _ => h3, fun h => by rw [h1] at h; cases h⟩
  · refine ⟨fun h => absurd h1 h, fun _ => ⟨der, h4, ?_⟩⟩
    intro x w i l hx hw hi hl ho hn1 hn2
    rw [h5, hw]
    simp only [saveToLog, hx, Option.bind_some, hi, hl, ho, if_true]
    exact logLine_records _ _ _ hn1 hn2

/-- non-vacuity of C56_partial. -/
example : ∃ r, simpleEnroll toy (demoEnroll fun _ => some ⟨255, some (str "S1")⟩) (some (3 : UInt8)) (rfc4648 [5])
    Heap.empty = .ok r ∧ r.status = 200 ∧ r.log = str "1000 0xff \"S1\" 0xff \"S1\"\n" := by
  obtain ⟨r, h1, h2, -, h4⟩ := demo_enrolled (fun _ => some ⟨255, some (str "S1")⟩) (some 3)
  refine ⟨r, h1, h2, h4.trans ?_⟩
  show logLine 1000 ⟨255, some (str "S1")⟩ ⟨255, some (str "S1")⟩ = _
  decide +kernel

/-- **C56**, when nothing is recorded: a log that cannot be opened, a client without certificate, or a client certificate
that cannot be read.  The enrolment itself is not affected (`C56_unlogged_issued`). -/
theorem C56_unlogged (O : Ossl) (e : EnrollEnv O) (hblk : e.blk.length = 4) (client : Option O.Cert) (body : Bytes)
    (hsz : (cstr body).length < 2 ^ 63) (h : Heap) (r : EnrollReply) (he : simpleEnroll O e client body h = .ok r)
    (hc : e.logOpen = false ∨ client = none ∨ ∃ x, client = some x ∧ e.certInfo x = none) : r.log = [] := by
  have key : ∀ w, saveToLog O e client w = [] := by
    intro w
    unfold saveToLog
    rcases hc with hc | rfl | ⟨x, rfl, hx⟩
    · rw [hc]
      split
      · rfl
      · split <;> rfl
    · rfl
    · simp only [Option.bind_some, hx]
  rcases enroll_answer O e hblk client body hsz h r he with ⟨-, -, h3⟩ | ⟨-, -, -, -, -, -, -, der, -, -, -, h5⟩
  · exact h3
  · rw [h5]
    split
    · rfl
    · exact key _

/-- Non-vacuity of `C56_unlogged`: a certificate is issued and nothing recorded, since the log cannot be opened. -/
theorem C56_unlogged_issued :
    ∃ r, simpleEnroll toy { demoEnroll (fun _ => some ⟨255, some (str "S1")⟩) with logOpen := false } (some (3 : UInt8))
      (rfc4648 [5]) Heap.empty = .ok r ∧ r.status = 200 ∧ r.body = rfc4648 [8] ∧ r.log = [] := by
  obtain ⟨r, h1, h2, h3, -, -⟩ := C59_complete toy
    { demoEnroll (fun _ => some ⟨255, some (str "S1")⟩) with logOpen := false } (some (3 : UInt8)) (rfc4648 [5]) Heap.empty
    Heap.wf_empty noOom_zero [5] (1 : UInt8) (5 : UInt8) (8 : UInt8) (8 : UInt8) (1 : UInt8) [8]
    (decodes_rfc _ noOom_zero _ _ rfl (by decide) (by decide))
    ⟨⟨[1], rfl, rfl⟩, ⟨[1], rfl, rfl⟩, rfl, rfl, rfl, rfl⟩ (by decide)
  exact ⟨r, h1, h2, h3, C56_unlogged toy _ rfl _ _ demo_size _ r h1 (.inl rfl)⟩

/-- Enrolments served one after another: heap, log file and number of successes
(/repo/src/brski/registrar/registrar_api.cpp:354-432 called from the route at
/repo/src/brski/registrar/registrar_server.cpp:26-46; the log is opened with mode `"a"`, line 73). -/
def serveEnrolments (O : Ossl) : List (EnrollEnv O × Option O.Cert × Bytes) → Heap → Bytes → Outcome (Heap × Bytes × Nat)
  | [], h, log => .ok (h, log, 0)
  | (e, client, body) :: rest, h, log =>
    (simpleEnroll O e client body h).bind fun r =>
    (serveEnrolments O rest r.heap (log ++ r.log)).bind fun q =>
    .ok (q.1, q.2.1, q.2.2 + if r.status = 200 then 1 else 0)

/-- **C56** over histories: earlier text is never changed, and when all certificates are readable with serial
numbers free of newlines the log grows by exactly one line per success. -/
theorem C56_history_partial (O : Ossl) (rs : List (EnrollEnv O × Option O.Cert × Bytes))
    (hok : ∀ q ∈ rs, q.1.blk.length = 4 ∧ (cstr q.2.2).length < 2 ^ 63) :
    ∀ (h : Heap) (log : Bytes) (out : Heap × Bytes × Nat), serveEnrolments O rs h log = .ok out →
      log <+: out.2.1 ∧
      ((∀ q ∈ rs, q.1.logOpen = true ∧ q.2.1 ≠ none ∧ ∀ x, ∃ m, q.1.certInfo x = some m ∧
          ∀ s, m.serial = some s → (10 : UInt8) ∉ s) →
        (∀ x der, O.i2dX509 x = some der → O.d2iX509 der ≠ none) →
        out.2.1.count 10 = log.count 10 + out.2.2) := by
  induction rs with
  | nil => intro h log out ho; cases ho; exact ⟨List.prefix_refl _, fun _ _ => rfl⟩
  | cons q rs ih =>
    intro h log out ho
    obtain ⟨e, client, body⟩ := q
    obtain ⟨hb, hsz⟩ := hok (e, client, body) List.mem_cons_self
    simp only at hb hsz
    simp only [serveEnrolments] at ho
    cases hr : simpleEnroll O e client body h with
    | ub => rw [hr] at ho; cases ho
    | ok r =>
      rw [hr, bind'_ok] at ho
      cases hq : serveEnrolments O rs r.heap (log ++ r.log) with
      | ub => rw [hq] at ho; cases ho
      | ok p =>
        rw [hq, bind'_ok] at ho
        cases ho
        obtain ⟨i1, i2⟩ := ih (fun q hm => hok q (by simp [hm])) _ _ _ hq
        refine ⟨List.IsPrefix.trans (List.prefix_append _ _) i1, fun hall hdd => ?_⟩
        have hone : r.log.count 10 = if r.status = 200 then 1 else 0 := by
          rcases enroll_answer O e hb client body hsz h r hr with ⟨h1, -, h3⟩ | ⟨h1, c, ca, x, y, z, k, der, -, h3, -, h5⟩
          · rw [h3, h1]; rfl
          · obtain ⟨a1, a2, a3⟩ := hall _ List.mem_cons_self
            simp only at a1 a2 a3
            cases client with
            | none => exact absurd rfl a2
            | some cl =>
              cases hw : O.d2iX509 der with
              | none => exact absurd hw (hdd _ _ h3.hder)
              | some w =>
                obtain ⟨m1, e1, n1⟩ := a3 cl
                obtain ⟨m2, e2, n2⟩ := a3 w
                rw [h5, hw, if_pos h1]
                simp only [saveToLog, Option.bind_some, e1, e2, a1, if_true]
                obtain ⟨⟨l, hl, hn⟩, -⟩ := logLine_records e.time m1 m2 n1 n2
                rw [hl, List.count_append, List.count_eq_zero.2 hn]
                rfl
        have := i2 (fun q hm => hall q (by simp [hm])) hdd
        simp only
        rw [this, List.count_append, hone]
        omega

/-- non-vacuity of C56_history_partial: one enrolment, one line after the earlier one. -/
example : ∃ out, serveEnrolments toy [(demoEnroll fun _ => some ⟨255, none⟩, some (3 : UInt8), rfc4648 [5])] Heap.empty
    (str "old\n") = .ok out ∧ out.2.2 = 1 ∧ out.2.1.count 10 = 2 := by
  obtain ⟨r, h1, h2, -, h4⟩ := demo_enrolled (fun _ => some ⟨255, none⟩) (some 3)
  refine ⟨(r.heap, str "old\n" ++ r.log, 1), ?_, rfl, ?_⟩
  · simp only [serveEnrolments, bind'_ok]
    refine (congrArg (fun o => Outcome.bind o _) h1).trans ?_
    simp only [bind'_ok, h2, if_true]
  · have e1 : r.log = logLine 1000 ⟨255, none⟩ ⟨255, none⟩ := h4
    simp only [e1]
    decide +kernel

/-! ## C41, enrolment and overall -/

/-- The enrolment handler on a body that is not badly padded. -/
theorem enroll_owns (O : Ossl) (e : EnrollEnv O) (hblk : e.blk.length = 4) (hf1 : e.caCert ≠ .unset)
    (hf2 : e.caKey ≠ .unset) (client : Option O.Cert) (body : Bytes) (hsz : (cstr body).length < 2 ^ 63)
    (hd : base64str2array e.al e.blk (cstr body) ≠ .ok (none, .dangling)) (h : Heap) (hw : h.Wf) :
    ∃ r, simpleEnroll O e client body h = .ok r ∧ Owns h r.heap [] := by
  have ret : ∀ {H : Heap} {ps : List (Option Nat)}, Owns h H ps → ∃ r, enrollFail H ps = .ok r ∧ Owns h r.heap [] := by
    intro H ps ho
    obtain ⟨h', e, o⟩ := owns_freeAll hw _ ho
    exact ⟨⟨h', 400, [], []⟩, by rw [enrollFail, e, bind'_ok], o⟩
  unfold simpleEnroll enrollSigned
  rcases decodeBody_cases e.al e.blk hblk h body hsz with ⟨c, -, h2⟩ | ⟨-, h2⟩ | ⟨h1, -⟩
  · rw [h2, bind'_ok]
    have ob := owns_alloc (owns_nil hw) c
    simp only
    rcases readFile_set hf1 (h.alloc c).1 with e1 | ⟨cert, hcert, e1⟩
    · rw [e1, bind'_ok]; exact ret ob
    · rw [e1, bind'_ok]
      have o1 := owns_alloc ob cert
      simp only
      rcases readFile_set hf2 ((h.alloc c).1.alloc cert).1 with e2 | ⟨ky, hky, e2⟩
      · rw [e2, bind'_ok]
        exact ret (owns_perm (List.perm_iff_count.2 fun a => by simp only [List.count_cons, List.count_nil]; omega) o1)
      · rw [e2, bind'_ok]
        have o2 := owns_alloc o1 ky
        simp only [hcert, hky, FileRes.arr, bind'_ok]
        cases signCert O e.ca _ _ c with
        | none =>
          exact ret (owns_perm (List.perm_iff_count.2 fun a => by simp only [List.count_cons, List.count_nil]; omega) o2)
        | some der =>
          simp only
          have o3 := owns_alloc o2 der
          obtain ⟨h', e3, o4⟩ := owns_free hw (owns_perm (qs := some (h.alloc c).2 ::
              [some ((((h.alloc c).1.alloc cert).1.alloc ky).1.alloc der).2, some ((h.alloc c).1.alloc cert).2,
                some (((h.alloc c).1.alloc cert).1.alloc ky).2])
            (List.perm_iff_count.2 fun a => by simp only [List.count_cons, List.count_nil]; omega) o3)
          rw [e3, bind'_ok]
          obtain ⟨s, hs⟩ := C03_encode_safe e.out der
          rw [hs, bind'_ok]
          cases s with
          | none => exact ret o4
          | some s =>
            obtain ⟨buf, n⟩ := s
            simp only
            obtain ⟨h'', e4, o5⟩ := owns_freeAll hw _ (owns_alloc o4 buf)
            rw [e4, bind'_ok]
            exact ⟨_, rfl, o5⟩
  · rw [h2, bind'_ok]
    exact ret (owns_none.2 (owns_nil hw))
  · exact absurd h1 hd

/-- A badly padded body makes the enrolment handler release a block twice, whoever the client is. -/
theorem enroll_dangling (O : Ossl) (e : EnrollEnv O) (client : Option O.Cert) (body : Bytes)
    (hd : base64str2array e.al e.blk (cstr body) = .ok (none, .dangling)) (h : Heap) (hw : h.Wf) :
    simpleEnroll O e client body h = .ub := by
  unfold simpleEnroll
  have hb : decodeBody e.al e.blk h body = .ok ⟨(burn h).1, none, some (burn h).2, []⟩ := by
    unfold decodeBody
    rw [hd, bind'_ok]
  rw [hb, bind'_ok]
  simp only [enrollFail]
  rw [freeAll_stale _ (stale_of_burn hw) (by simp)]
  rfl

/-- **C41** for enrolment, exact: defined, with no block left behind and none released twice, exactly for the
bodies that are not badly padded. -/
theorem C41_enroll_partial (O : Ossl) (e : EnrollEnv O) (hblk : e.blk.length = 4) (hf1 : e.caCert ≠ .unset)
    (hf2 : e.caKey ≠ .unset) (hmem : NoOom e.al) (client : Option O.Cert) (body : Bytes)
    (hsz : (cstr body).length < 2 ^ 63) (h : Heap) (hw : h.Wf) :
    (∃ r, simpleEnroll O e client body h = .ok r ∧ r.heap.blk = h.blk) ↔
      ((cstr body).filter isB64Char = [] ∨ ¬ BadPadding (padded (cstr body))) := by
  have hiff := dangling_iff e.al e.blk (cstr body) hblk hsz
  by_cases hd : base64str2array e.al e.blk (cstr body) = .ok (none, .dangling)
  · have h1 := hiff.1 hd
    constructor
    · rintro ⟨r, hr, -⟩
      rw [enroll_dangling O e client body hd h hw] at hr
      cases hr
    · rintro (h2 | h2)
      · exact absurd h2 h1.1
      · exact absurd h1.2.2 h2
  · constructor
    · intro _
      by_cases h0 : (cstr body).filter isB64Char = []
      · exact .inl h0
      · exact .inr fun hb => hd (hiff.2 ⟨h0, hmem _, hb⟩)
    · intro _
      obtain ⟨r, h1, h2⟩ := enroll_owns O e hblk hf1 hf2 client body hsz hd h hw
      exact ⟨r, h1, owns_blk h2⟩

/-- **C41** as stated: for every body the three endpoints that read it return a status and leave the heap as it
was, so that each block they allocate is released exactly once (specification for
/repo/src/brski/masa/masa_api.cpp:62-183, /repo/src/brski/registrar/registrar_api.cpp:135-304,354-432). -/
def C41_statement : Prop :=
  (∀ (O : Ossl) (e : MasaEnv) (body : Bytes) (h : Heap), Small O → e.blk.length = 4 → MasaEnv.Complete e → NoFail e.rt →
    h.Wf → (cstr body).length < 2 ^ 63 → ∃ r, masaRequestVoucher O e body h none = .ok r ∧ r.heap.blk = h.blk) ∧
  (∀ (O : Ossl) (e : RegEnv) (body : Bytes) (h : Heap), Small O → e.blk.length = 4 → e.mem = true → strOk e.serial →
    e.tlsCert ≠ .unset → e.signCert ≠ .unset → e.signKey ≠ .unset → e.host ≠ none → e.keyPath ≠ none → NoFail e.rt → h.Wf → (cstr body).length < 2 ^ 63 →
    ∃ r, registrarRequestVoucher O e body h = .ok r ∧ r.heap.blk = h.blk) ∧
  (∀ (O : Ossl) (e : EnrollEnv O) (client : Option O.Cert) (body : Bytes) (h : Heap), e.blk.length = 4 →
    e.caCert ≠ .unset → e.caKey ≠ .unset → h.Wf → (cstr body).length < 2 ^ 63 →
    ∃ r, simpleEnroll O e client body h = .ok r ∧ r.heap.blk = h.blk)

/-- The text `A` is badly padded. -/
theorem bad_A : base64str2array zeroAllocator [0, 0, 0, 0] (cstr (str "A")) = .ok (none, .dangling) := by decide +kernel

/-- The body `A` crashes each of the three endpoints (double free). -/
theorem C41_violated_each :
    registrarRequestVoucher toy (demoReg fun _ => none) (str "A") Heap.empty = .ub ∧
    simpleEnroll toy (demoEnroll fun _ => none) none (str "A") Heap.empty = .ub := by
  refine ⟨?_, enroll_dangling toy _ none _ bad_A _ Heap.wf_empty⟩
  exact registrar_dangling toy _ _ rfl (by intro h; cases h) (by intro h; cases h) bad_A _ Heap.wf_empty

/-- The code violates C41. -/
theorem C41_violated : ¬ C41_statement := by
  rintro ⟨-, -, h⟩
  obtain ⟨r, hr, -⟩ := h toy (demoEnroll fun _ => none) none (str "A") Heap.empty rfl (by intro h; cases h)
    (by intro h; cases h) Heap.wf_empty (by decide)
  rw [C41_violated_each.2] at hr
  cases hr

/-- non-vacuity of the exact theorems: `QQ==` is well padded, `A` is not. -/
example : ((cstr (str "QQ==")).filter isB64Char = [] ∨ ¬ BadPadding (padded (cstr (str "QQ==")))) ∧
    ¬ ((cstr (str "A")).filter isB64Char = [] ∨ ¬ BadPadding (padded (cstr (str "A")))) := by
  rw [← decBlocks_none_iff, ← decBlocks_none_iff]
  decide +kernel

/-! ## Instances for the MASA -/

/-- A MASA for instances: registrar 7 and pledge 3 are trusted, certificate 8 is pinned. -/
def demoMasa : MasaEnv where
  lib := TimeLib.plain
  expiresOn := some (str "2030-01-01T00:00:00Z")
  al := zeroAllocator
  blk := [0, 0, 0, 0]
  ldevid := .der [8]
  signCert := .der [1]
  signKey := .der [1]
  registrarCerts := .absent
  registrarStore := .list [([7], 0)]
  pledgeCerts := .absent
  pledgeStore := .list [([3], 0)]
  additional := .absent
  rt := Rt.plain
  cbMem := zeroAllocator
  out := zeroAllocator

theorem demoMasa_complete : MasaEnv.Complete demoMasa := by
  refine ⟨(fun h => by cases h), (fun h => by cases h), (fun h => by cases h), ?_⟩
  intro l hl
  simp only [demoMasa, List.mem_cons, List.not_mem_nil, or_false] at hl
  rcases hl with rfl | rfl | rfl | rfl | rfl <;> intro h <;> cases h

/-- The MASA of the instance answers the request of the instance with a voucher: non-vacuity of C40. -/
theorem demoMasa_runs (ctx : Option Nat) :
    ∃ r, masaRequestVoucher toy demoMasa (rfc4648 demoRequest) Heap.empty ctx = .ok r ∧ r.status = 200 ∧
      r.body = rfc4648 (1 :: demoIssuedText) := by
  have hlen : demoRequest.length < 1000 := by decide +kernel
  have hsz := rfc_length demoRequest
  obtain ⟨r, h1, h2, h3, -⟩ := C40_issued toy toy_small demoMasa rfl (rfc4648 demoRequest) (by omega) Heap.empty
    Heap.wf_empty ctx demoRequest (str "2030-01-01T00:00:00Z") [8] ⟨0, 0, 0, 1, 0, 130, 2, 0, 0⟩ demoVr demoPv (str "S1")
    (some [([7], 0)]) (1 :: demoIssuedText) noFail_plain noOom_zero noOom_zero
    (by intro l hl
        simp only [demoMasa, List.mem_cons, List.not_mem_nil, or_false] at hl
        rcases hl with rfl | rfl | rfl | rfl | rfl <;> exact ⟨(fun h => by cases h), (fun h => by cases h)⟩)
    rfl (by decide +kernel) (decodes_rfc _ noOom_zero _ _ rfl (by decide) (by unfold sizeMax; omega)) demo_consistent
    ⟨(7, _), rfl, .inr ⟨(fun h => by cases h), [[7]], rfl, rfl⟩⟩ rfl ⟨(fun h => by cases h), (fun h => by cases h)⟩ ⟨(fun h => by cases h), (fun h => by cases h)⟩
    (by decide +kernel) (by decide +kernel)
  exact ⟨r, h1, h2, h3⟩

/-- The body `A` crashes the MASA as well. -/
theorem C41_violated_masa (ctx : Option Nat) : masaRequestVoucher toy demoMasa (str "A") Heap.empty ctx = .ub :=
  masa_dangling toy demoMasa rfl _ (by decide) bad_A _ Heap.wf_empty _ (by decide +kernel)

end Brski.Props
