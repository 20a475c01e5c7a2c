import Verif.LogStub
import Verif.PropsLog

/-!
# C145: what clients can write to the log
-/

namespace Brski.Props
open BoolTime Clock Log Outcome Routes LogStub

/-! ## Specification -/

/-- What is written for messages one after the other. -/
def logText (zone : Zone) (L : Settings) (ms : List Msg) : Bytes := ms.flatMap (textOf zone L)

/-- A place in the program and a time that can be logged: a file name without newline and a year from 1000 to 9999
(specification). -/
def Placed (zone : Zone) (p : At) : Prop := (10 : UInt8) ∉ p.file ∧ InYears (p.time + zone p.time) ∧ p.usec < 1000000

/-- A request to a handler, with the place and the time it is logged with (specification). -/
structure StubCall where
  handler : Endpoint
  place : At
  body : Bytes

/-- What the handlers log for requests served one after the other. -/
def served (rs : List StubCall) : List Msg := rs.flatMap fun r => messages r.handler r.place r.body

/-- **C145** as stated: each line of the log is a message of the program: however many requests with whatever content
are sent to the handlers, there are as many lines as messages. -/
def C145_statement : Prop :=
  ∀ (zone : Zone) (L : Settings) (rs : List StubCall), L.quiet = false → L.level = 0 → (∀ r ∈ rs, Placed zone r.place) →
    (logText zone L (served rs)).count 10 = (served rs).length

/-! ## Lemmas -/

/-- What stands before the text of a message on its line. -/
theorem line_of (zone : Zone) (L : Settings) (p : At) (text : Bytes) (hq : L.quiet = false) (hl : L.level = 0)
    (hp : Placed zone p) : ∃ pre, (∀ t, textOf zone L (trace p t) = pre ++ t ++ [10]) ∧ (10 : UInt8) ∉ pre := by
  obtain ⟨acts, ha⟩ := C55_defined zone L (trace p []) (by simp [trace]) hp.2.1 hp.2.2
  have hs : ∀ t, Shown L (trace p t) := fun t => ⟨hq, .inr (by rw [hl]; exact UInt8.le_refl 0)⟩
  obtain ⟨pre, h1, h2⟩ := C55_line zone L (trace p []) acts ha (hs []) (by simp [trace]) hp.1 (by simp [trace])
  refine ⟨pre, fun t => ?_, h2⟩
  rcases logMsg_cases ha with ⟨hn, -⟩ | ⟨-, -, -, stamp, hst, hpr⟩
  · exact absurd (hs []) hn
  · obtain ⟨acts', ha'⟩ := C55_defined zone L (trace p t) (by simp [trace]) hp.2.1 hp.2.2
    rcases logMsg_cases ha' with ⟨hn, -⟩ | ⟨-, -, -, stamp', hst', hpr'⟩
    · exact absurd (hs t) hn
    · have hstm : stamp' = stamp := by
        have : Outcome.ok stamp' = Outcome.ok stamp := hst'.symm.trans hst
        injection this
      subst hstm
      obtain ⟨q, hm, ho⟩ := printTo_ok hpr
      obtain ⟨q', hm', ho'⟩ := printTo_ok hpr'
      have hqq : q' = q := by
        have : Outcome.ok q' = Outcome.ok q := hm'.symm.trans hm
        injection this
      subst hqq
      rw [ho] at h1
      have e : pre = q' := by
        have h1' : q' ++ [] ++ [] ++ [10] = pre ++ [] ++ [10] := h1
        simpa using h1'.symm
      rw [ho', e]
      show q' ++ [] ++ t ++ [10] = _
      rw [List.append_nil]

theorem line_count {zone : Zone} {L : Settings} {p : At} (text : Bytes) (hq : L.quiet = false) (hl : L.level = 0)
    (hp : Placed zone p) : (textOf zone L (trace p text)).count 10 = text.count 10 + 1 := by
  obtain ⟨pre, h1, h2⟩ := line_of zone L p text hq hl hp
  rw [h1, List.count_append, List.count_append, List.count_eq_zero.2 h2]
  simp

theorem name_plain : ∀ (e : Endpoint) (r : Reply), e.stub = some r → (r.body ++ str ":").count 10 = 0 := by
  intro e r h
  cases e <;> simp only [Endpoint.stub, reduceCtorEq, Option.some.injEq] at h <;> subst h <;> decide

/-! ## C145 -/

/-- **C145**, exactly: there is a line for each message and one more for each newline in the content of a request to a
handler that is not implemented, up to its first NUL. -/
theorem C145_exact (zone : Zone) (L : Settings) (rs : List StubCall) (hq : L.quiet = false) (hl : L.level = 0)
    (hp : ∀ r ∈ rs, Placed zone r.place) : (logText zone L (served rs)).count 10 = (served rs).length +
      (rs.map fun r => if r.handler.stub = none then 0 else (cstr r.body).count 10).sum := by
  induction rs with
  | nil => rfl
  | cons r rs ih =>
    have h1 := hp r List.mem_cons_self
    have h2 : Placed zone { r.place with line := r.place.line + 1 } := h1
    have := ih fun x hx => hp x (List.mem_cons_of_mem _ hx)
    have e : served (r :: rs) = messages r.handler r.place r.body ++ served rs := rfl
    have e2 : logText zone L (messages r.handler r.place r.body ++ served rs) =
        logText zone L (messages r.handler r.place r.body) ++ logText zone L (served rs) := List.flatMap_append
    rw [e, e2, List.count_append, List.length_append, List.map_cons, List.sum_cons, this]
    unfold messages
    cases hs : r.handler.stub with
    | none =>
      simp only [logText, List.flatMap_nil, List.count_nil, List.length_nil, if_true]
      omega
    | some rep =>
      simp only [logText, List.flatMap_cons, List.flatMap_nil, List.append_nil, List.count_append, reduceCtorEq, if_false,
        List.length_cons, List.length_nil]
      rw [line_count _ hq hl h1, line_count _ hq hl h2, name_plain _ _ hs]
      omega

/-- **C145**, the part that holds: requests whose content has no newline leave one line for each message.  Missing: content
with newlines. -/
theorem C145_partial (zone : Zone) (L : Settings) (rs : List StubCall) (hq : L.quiet = false) (hl : L.level = 0)
    (hp : ∀ r ∈ rs, Placed zone r.place) (hn : ∀ r ∈ rs, (10 : UInt8) ∉ cstr r.body) :
    (logText zone L (served rs)).count 10 = (served rs).length := by
  rw [C145_exact zone L rs hq hl hp]
  have : (rs.map fun r => if r.handler.stub = none then 0 else (cstr r.body).count 10).sum = 0 := by
    clear hp
    induction rs with
    | nil => rfl
    | cons r rs ih =>
      rw [List.map_cons, List.sum_cons, ih fun x hx => hn x (List.mem_cons_of_mem _ hx),
        List.count_eq_zero.2 (hn r List.mem_cons_self)]
      simp
  rw [this]
  rfl

/-- **C145** (without `-d`): when the log is quiet, as it is unless the program is started with `-d`
(/repo/src/brski/brski.cpp:277-281), requests leave nothing in it. -/
theorem C145_quiet (zone : Zone) (L : Settings) (rs : List StubCall) (hq : L.quiet = true) :
    logText zone L (served rs) = [] := by
  have key : ∀ m ∈ served rs, m.ignoreLevel = false := by
    intro m hm
    obtain ⟨r, -, hr⟩ := List.mem_flatMap.1 hm
    unfold messages at hr
    cases hs : r.handler.stub with
    | none => rw [hs] at hr; cases hr
    | some rep =>
      rw [hs] at hr
      simp only [List.mem_cons, List.not_mem_nil, or_false] at hr
      rcases hr with rfl | rfl <;> rfl
  unfold logText
  rw [List.flatMap_eq_nil_iff]
  intro m hm
  have h := key m hm
  have hc : checkLevel L m.level m.ignoreLevel = true := by
    unfold checkLevel
    rw [h, hq]
    split <;> simp
  unfold textOf logMsg
  rw [hc]
  rfl

theorem cstr_whole {s : Bytes} (h : (0 : UInt8) ∉ s) : cstr s = s := by
  induction s with
  | nil => rfl
  | cons c s ih =>
    have hc : c ≠ 0 := fun e => h (by rw [e]; exact List.mem_cons_self)
    have hs := ih fun m => h (List.mem_cons_of_mem _ m)
    unfold cstr at hs ⊢
    rw [List.takeWhile_cons, if_pos (by simpa using hc), hs]

/-- **C145** (any line can be forged): for every line without NUL, such as that of any message of the program, there is a
request, which needs no certificate, after which the log is as if the program had written that line itself after what it
logs for another request. -/
theorem C145_forged (zone : Zone) (L : Settings) (e : Endpoint) (p : At) (body line : Bytes) (hq : L.quiet = false)
    (hl : L.level = 0) (hp : Placed zone p) (hs : e.stub ≠ none) (hb : (0 : UInt8) ∉ body) (h0 : (0 : UInt8) ∉ line) :
    logText zone L (messages e p (body ++ [10] ++ line)) = logText zone L (messages e p body) ++ (line ++ [10]) := by
  have h2 : Placed zone { p with line := p.line + 1 } := hp
  unfold messages
  cases hr : e.stub with
  | none => exact absurd hr hs
  | some rep =>
    obtain ⟨pre, h1, -⟩ := line_of zone L { p with line := p.line + 1 } [] hq hl h2
    have hno : (0 : UInt8) ∉ body ++ [10] ++ line := by
      simp only [List.mem_append, List.mem_singleton, not_or]
      exact ⟨⟨hb, by decide⟩, h0⟩
    simp only [logText, List.flatMap_cons, List.flatMap_nil, List.append_nil, h1]
    rw [cstr_whole hb, cstr_whole hno]
    simp only [List.append_assoc]

/-- **C145** (a message of the program is such a line): what is written for a message, without its newline, can be written by a
client, if the message has no NUL in it. -/
theorem C145_forged_message (zone : Zone) (L : Settings) (e : Endpoint) (p q : At) (text : Bytes) (hq : L.quiet = false)
    (hl : L.level = 0) (hp : Placed zone p) (hp' : Placed zone q) (hs : e.stub ≠ none)
    (h0 : (0 : UInt8) ∉ textOf zone L (trace q text)) :
    ∃ body, logText zone L (messages e p body) = logText zone L (messages e p [] ++ [trace q text]) := by
  obtain ⟨pre, h1, -⟩ := line_of zone L q text hq hl hp'
  refine ⟨[] ++ [10] ++ (pre ++ text), ?_⟩
  rw [C145_forged zone L e p [] (pre ++ text) hq hl hp hs (by simp)]
  · simp only [logText, List.flatMap_append, List.flatMap_cons, List.flatMap_nil, List.append_nil, h1]
  · intro hc
    rw [h1] at h0
    exact h0 (List.mem_append_left _ hc)

/-- Where the status of a voucher is logged, in November 2023. -/
def loggedAt (line : Nat) : At := ⟨str "registrar_api.cpp", line, 1700000000, 123456⟩

theorem loggedAt_placed (n : Nat) : Placed (fun _ => 0) (loggedAt n) := by
  refine ⟨by show (10 : UInt8) ∉ str "registrar_api.cpp"; decide, ?_, by show 123456 < 1000000; decide⟩
  show InYears (1700000000 + 0)
  unfold InYears
  decide

/-- The settings with `-d`, without colours. -/
def verbose : Settings := ⟨true, 0, false, true, false⟩

/-- Non-vacuity of `C145_exact` and `C145_partial`: a request and its two lines. -/
example : logText (fun _ => 0) verbose (served [⟨.registrarVoucherStatus, loggedAt 314, str "{}"⟩]) =
    str "2023-11-14 22:13:20.123  TRACE registrar_api.cpp:314: registrar_voucher_status:\n2023-11-14 22:13:20.123  TRACE registrar_api.cpp:315: {}\n" ∧
    (∀ r ∈ [(⟨.registrarVoucherStatus, loggedAt 314, str "{}"⟩ : StubCall)], Placed (fun _ => 0) r.place) := by
  constructor
  · decide +kernel
  · intro r hr
    cases List.mem_singleton.1 hr
    exact loggedAt_placed 314

/-- The code violates C145: a request with a newline leaves three lines for two messages. -/
theorem C145_violated : ¬ C145_statement := by
  intro h
  have := h (fun _ => 0) verbose [⟨.registrarVoucherStatus, loggedAt 314, [10]⟩] rfl rfl (by
    intro r hr
    cases List.mem_singleton.1 hr
    exact loggedAt_placed 314)
  exact absurd this (by decide +kernel)

/-- Non-vacuity of `C145_forged` and `C145_forged_message`: a line that says that a device has been looked at. -/
example : logText (fun _ => 0) verbose (messages .registrarVoucherStatus (loggedAt 314)
      (str "{}\n2023-11-14 22:13:20.123  INFO  registrar_api.cpp:178: Pledge cert serial number: 42")) =
    str "2023-11-14 22:13:20.123  TRACE registrar_api.cpp:314: registrar_voucher_status:\n2023-11-14 22:13:20.123  TRACE registrar_api.cpp:315: {}\n2023-11-14 22:13:20.123  INFO  registrar_api.cpp:178: Pledge cert serial number: 42\n" := by
  decide +kernel
example : (0 : UInt8) ∉ textOf (fun _ => 0) verbose (trace (loggedAt 314) (str "x")) := by decide +kernel

end Brski.Props
