import Verif.PropsHeaders

/-!
# C64: the announced length of a reply

A client finds the end of a reply by `Content-Length`.  Every reply of both servers has exactly one such field, and
its value is the length of the body that follows (for HEAD: of the body that is left out).
-/

namespace Brski.Props

open Routes

/-- The values of the field `Content-Length` (specification). -/
def lengthFields (r : Res) : List Bytes := (fieldsNamed (str "Content-Length") r.headers).map Prod.snd

/-- `v` is a decimal text for `n` (specification). -/
def Denotes (v : Bytes) (n : Nat) : Prop :=
  v ≠ [] ∧ (∀ c ∈ v, 48 ≤ c.toNat ∧ c.toNat ≤ 57) ∧ v.foldl (fun a c => 10 * a + (c.toNat - 48)) 0 = n

theorem dig_toNat {n : Nat} (h : n < 10) : (BoolTime.dig n).toNat = 48 + n := by
  revert n
  decide

theorem natDec_denotes (n : Nat) : Denotes (BoolTime.natDec n) n := by
  induction n using Nat.strongRecOn with
  | ind n ih =>
    rw [BoolTime.natDec]
    split
    · rename_i h
      have := dig_toNat h
      refine ⟨by simp, fun c hc => ?_, ?_⟩
      · rw [List.mem_singleton.1 hc]
        omega
      · simp only [List.foldl_cons, List.foldl_nil]
        omega
    · rename_i h
      obtain ⟨h1, h2, h3⟩ := ih (n / 10) (by omega)
      have := dig_toNat (Nat.mod_lt n (by omega : 0 < 10))
      refine ⟨by simp, fun c hc => ?_, ?_⟩
      · rcases List.mem_append.1 hc with hc | hc
        · exact h2 c hc
        · rw [List.mem_singleton.1 hc]
          omega
      · rw [List.foldl_append, h3]
        simp only [List.foldl_cons, List.foldl_nil]
        omega

theorem natDec_no_crlf (n : Nat) : hasCrlf (BoolTime.natDec n) = false := by
  obtain ⟨-, h, -⟩ := natDec_denotes n
  refine Classical.byContradiction fun hx => ?_
  have hx : hasCrlf (BoolTime.natDec n) = true := by simpa using hx
  obtain ⟨c, hc, hd⟩ := List.any_eq_true.1 hx
  have hm : c ∈ BoolTime.natDec n := (List.takeWhile_sublist _).mem hc
  have := h c hm
  rcases Bool.or_eq_true_iff.1 hd with hd | hd <;> rw [beq_iff_eq.1 hd] at this <;> revert this <;> decide

/-- One more field of another name. -/
theorem other_step {r : Res} (h : Sorted r.headers) (b : Prop) [Decidable b] {k v : Bytes}
    (hk : ¬ SameName k (str "Content-Length")) :
    let q := if b then setHeader r k v else r
    Sorted q.headers ∧ q.status = r.status ∧ q.body = r.body ∧ lengthFields q = lengthFields r := by
  by_cases hb : b
  · obtain ⟨s1, s2⟩ := setHeader_rest r k v
    simp only [hb, if_true]
    exact ⟨setHeader_sorted h _ _, s1, s2, by simp only [lengthFields, setHeader_other h hk]⟩
  · simp only [hb, if_false]
    exact ⟨h, trivial, trivial, trivial⟩

/-- The first `Content-Length` field. -/
theorem length_step {r : Res} (h : Sorted r.headers) (hl : lengthFields r = []) (b : Prop) [Decidable b] {v : Bytes}
    (hv : hasCrlf v = false) :
    let q := if b then setHeader r (str "Content-Length") v else r
    Sorted q.headers ∧ q.status = r.status ∧ q.body = r.body ∧ lengthFields q = if b then [v] else [] := by
  by_cases hb : b
  · obtain ⟨s1, s2⟩ := setHeader_rest r (str "Content-Length") v
    simp only [hb, if_true]
    refine ⟨setHeader_sorted h _ _, s1, s2, ?_⟩
    have hl' : fieldsNamed (str "Content-Length") r.headers = [] := List.map_eq_nil_iff.1 hl
    rw [lengthFields, setHeader_this h (by decide) hv, hl']
    rfl
  · simp only [hb, if_false]
    exact ⟨h, trivial, trivial, hl⟩

theorem hasLength_iff (r : Res) : hasHeader r (str "Content-Length") = true ↔ lengthFields r ≠ [] := by
  rw [hasHeader_iff, lengthFields, ne_eq, ne_eq, List.map_eq_nil_iff]

theorem writeResponse_length (close : Bool) (m : Method) (rg : Bool) {r : Res} (h : Sorted r.headers)
    (hl : lengthFields r = []) (hrg : rg = true ∨ 400 ≤ r.status) :
    lengthFields (writeResponse close m rg r) =
      [BoolTime.natDec (if 400 ≤ r.status ∧ r.body = [] then str "Router error" else r.body).length] := by
  unfold writeResponse
  have h1 : Sorted (if 400 ≤ r.status then errorHandler r else r).headers ∧
      (if 400 ≤ r.status then errorHandler r else r).body =
        (if 400 ≤ r.status ∧ r.body = [] then str "Router error" else r.body) ∧
      lengthFields (if 400 ≤ r.status then errorHandler r else r) = [] := by
    by_cases hs : 400 ≤ r.status
    · obtain ⟨e1, e2, e3, -⟩ := errorHandler_spec h
      simp only [hs, if_true, true_and]
      refine ⟨e1, e3, ?_⟩
      have hq : ∀ q : Res, q.headers = r.headers →
          lengthFields (setHeader q (str "Content-Type") (str "text/plain")) = [] := by
        intro q hq
        rw [lengthFields, setHeader_other (hq ▸ h) (by decide), hq]
        exact hl
      unfold errorHandler
      split
      · exact hq _ rfl
      · exact hq _ rfl
    · simp only [hs, if_false, false_and]
      exact ⟨h, trivial, hl⟩
  generalize (if 400 ≤ r.status then errorHandler r else r) = r1 at h1 ⊢
  obtain ⟨a1, a2, a3⟩ := h1
  have h2 := length_step a1 a3 ((rg = true ∨ 400 ≤ r.status) ∧ r1.body ≠ []) (natDec_no_crlf r1.body.length)
  simp only [hrg, true_and] at h2 ⊢
  generalize (if r1.body ≠ [] then
    setHeader r1 (str "Content-Length") (BoolTime.natDec r1.body.length) else r1) = r2 at h2 ⊢
  obtain ⟨b1, -, b3, b4⟩ := h2
  have h3 := other_step b1 True (k := (keepField close).1) (v := (keepField close).2) (by cases close <;> decide)
  simp only [if_true] at h3
  generalize setHeader r2 (keepField close).1 (keepField close).2 = r3 at h3 ⊢
  obtain ⟨c1, -, c3, c4⟩ := h3
  have h4 := other_step c1 ((!hasHeader r3 (str "Content-Type") && decide (r3.body ≠ [])) = true)
    (k := str "Content-Type") (v := str "text/plain") (by decide)
  simp only at h4
  generalize (if (!hasHeader r3 (str "Content-Type") && decide (r3.body ≠ [])) = true then
        setHeader r3 (str "Content-Type") (str "text/plain") else r3) = r4 at h4 ⊢
  obtain ⟨d1, -, d3, d4⟩ := h4
  have hl4 : lengthFields r4 = if r1.body ≠ [] then [BoolTime.natDec r1.body.length] else [] := by
    rw [d4, c4, b4]
  have hb4 : r4.body = r1.body := by rw [d3, c3, b3]
  have h5 : Sorted (if (!hasHeader r4 (str "Content-Length") && decide (r4.body = [])) = true then
        setHeader r4 (str "Content-Length") (str "0") else r4).headers ∧
      lengthFields (if (!hasHeader r4 (str "Content-Length") && decide (r4.body = [])) = true then
        setHeader r4 (str "Content-Length") (str "0") else r4) = [BoolTime.natDec r1.body.length] := by
    by_cases hb : r1.body = []
    · rw [if_neg (by simp [hb])] at hl4
      have hh : hasHeader r4 (str "Content-Length") = false := by
        refine Classical.byContradiction fun hx => ?_
        exact (hasLength_iff r4).1 (by simpa using hx) hl4
      obtain ⟨s1, -, -, s4⟩ := length_step d1 hl4 True (v := str "0") (by decide)
      simp only [if_true] at s1 s4
      simp only [hh, hb4, hb, Bool.not_false, decide_true, Bool.and_self, if_true]
      refine ⟨s1, s4.trans ?_⟩
      decide +kernel
    · rw [if_pos hb] at hl4
      have hh : hasHeader r4 (str "Content-Length") = true := (hasLength_iff r4).2 (by simp [hl4])
      simp only [hh, Bool.not_true, Bool.false_and, Bool.false_eq_true, if_false]
      exact ⟨d1, hl4⟩
  generalize (if (!hasHeader r4 (str "Content-Length") && decide (r4.body = [])) = true then
        setHeader r4 (str "Content-Length") (str "0") else r4) = r5 at h5 ⊢
  obtain ⟨e1, e2⟩ := h5
  have h6 := other_step e1 ((!hasHeader r5 (str "Accept-Ranges") && decide (m = .head)) = true)
    (k := str "Accept-Ranges") (v := str "bytes") (by decide)
  simp only at h6
  generalize (if (!hasHeader r5 (str "Accept-Ranges") && decide (m = .head)) = true then
        setHeader r5 (str "Accept-Ranges") (str "bytes") else r5) = r6 at h6 ⊢
  obtain ⟨-, -, -, f4⟩ := h6
  show lengthFields r6 = _
  rw [f4, e2, a2]

/-- The request line asks for the headers only. -/
def IsHead (line : Bytes) : Prop := line.length ≤ 8192 ∧ firstWord line = some (str "HEAD")

/-- **C64**: every reply announces its length exactly once; the announced length is that of the body, and for a HEAD
request that of the body of the same reply to another method. -/
theorem C64_length (rs : List Route) (dyn : Endpoint → Reply) (close : Bool) (line : Bytes) :
    ∃ v full, lengthFields (process rs dyn close line) = [v] ∧ Denotes v full.length ∧
      (process rs dyn close line).body = unlessHead line full ∧
      (¬ IsHead line → (process rs dyn close line).body = full) := by
  suffices h : ∃ full, lengthFields (process rs dyn close line) = [BoolTime.natDec full.length] ∧
      (process rs dyn close line).body = unlessHead line full by
    obtain ⟨full, h1, h2⟩ := h
    refine ⟨_, full, h1, natDec_denotes _, h2, fun hn => ?_⟩
    rw [h2, unlessHead]
    exact if_neg hn
  have hnil : Sorted ([] : List Field) := List.Pairwise.nil
  have herr : ∀ (m : Method) (st : Nat), 400 ≤ st →
      lengthFields (writeResponse close m false ⟨st, [], []⟩) = [BoolTime.natDec (str "Router error").length] ∧
      (writeResponse close m false ⟨st, [], []⟩).body = if m = .head then [] else str "Router error" := by
    intro m st hst
    have h1 := writeResponse_length close m false (r := ⟨st, [], []⟩) hnil rfl (.inr hst)
    obtain ⟨-, h2, -⟩ := writeResponse_spec close m false (r := ⟨st, [], []⟩) hnil
    simp only [hst, and_self, if_true] at h1 h2
    exact ⟨h1, h2⟩
  unfold process unlessHead
  by_cases hl : 8192 < line.length
  · rw [if_pos hl]
    refine ⟨_, (herr .get 414 (by decide)).1, ?_⟩
    rw [(herr .get 414 (by decide)).2, if_neg (by decide), if_neg (by omega)]
  · have hl' : line.length ≤ 8192 := by omega
    rw [if_neg hl]
    simp only [hl', true_and]
    cases hp : parseRequestLine line with
    | none =>
      refine ⟨_, (herr _ 400 (by decide)).1, ?_⟩
      rw [(herr _ 400 (by decide)).2, refusedMethod]
      by_cases hw : firstWord line = some (str "HEAD")
      · rw [if_pos hw, if_pos hw, if_pos rfl]
      · rw [if_neg hw, if_neg hw, if_neg (by simp)]
    | some l =>
      simp only [firstWord_method hp]
      cases hr : routing rs l with
      | none => exact ⟨_, (herr l.method 400 (by decide)).1, (herr l.method 400 (by decide)).2⟩
      | some o =>
        cases o with
        | none => exact ⟨_, (herr l.method 404 (by decide)).1, (herr l.method 404 (by decide)).2⟩
        | some e =>
          simp only
          rw [setResponse_spec]
          have hs : Sorted [(str "Content-Type", e.contentType)] := List.pairwise_singleton _ _
          have h1 := writeResponse_length close l.method true
            (r := ⟨(e.stub.getD (dyn e)).status, [(str "Content-Type", e.contentType)], (e.stub.getD (dyn e)).body⟩)
            hs rfl (.inl rfl)
          obtain ⟨-, h2, -⟩ := writeResponse_spec close l.method true
            (r := ⟨(e.stub.getD (dyn e)).status, [(str "Content-Type", e.contentType)], (e.stub.getD (dyn e)).body⟩) hs
          exact ⟨_, h1, h2⟩

/-- Non-vacuity: a stub, the same path by HEAD, and an unknown path. -/
example :
    lengthFields (process masaRoutes (fun _ => ⟨200, []⟩) true (str "GET /.well-known/est/cacerts HTTP/1.1" ++ [13, 10])) = [str "15"] ∧
    lengthFields (process masaRoutes (fun _ => ⟨200, []⟩) true (str "HEAD /.well-known/est/cacerts HTTP/1.1" ++ [13, 10])) = [str "15"] ∧
    (process masaRoutes (fun _ => ⟨200, []⟩) true (str "HEAD /.well-known/est/cacerts HTTP/1.1" ++ [13, 10])).body = [] ∧
    lengthFields (process registrarRoutes (fun _ => ⟨200, []⟩) false demoLine) = [str "0"] ∧
    lengthFields (process masaRoutes (fun _ => ⟨200, []⟩) true (str "GET / HTTP/1.1" ++ [13, 10])) = [str "12"] := by
  decide +kernel

end Brski.Props
