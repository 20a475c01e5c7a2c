import Verif.PropsSession
import Verif.PropsResend

/-!
# C116 and C129, additions: when a request has been written, and when a server stops serving a connection
-/

namespace Brski.Props
open Client

/-- **C116** (when a request has been written): everything is written exactly when the results of `Stream::write` add up to
it before the first negative one; a result of nothing is no error (/repo/src/brski/http/httplib.h:4304-4315). -/
theorem C116_written : ∀ (ws : List Int) (d : Bytes), (Client.writeData ws d).1 = true ↔
    ∃ us rest, ws = us ++ rest ∧ (∀ u ∈ us, 0 ≤ u) ∧ d.length ≤ (us.map Int.toNat).sum := by
  intro ws
  induction ws with
  | nil =>
    intro d
    cases d with
    | nil => simp [Client.writeData]
    | cons c d =>
      simp only [Client.writeData, Bool.false_eq_true, false_iff, not_exists]
      rintro us rest ⟨h1, -, h3⟩
      obtain ⟨rfl, -⟩ := List.append_eq_nil_iff.1 h1.symm
      simp at h3
  | cons w ws ih =>
    intro d
    cases d with
    | nil =>
      simp only [Client.writeData, true_iff]
      exact ⟨[], _, rfl, by simp, by simp⟩
    | cons c d =>
      simp only [Client.writeData]
      split
      · rename_i hw
        simp only [Bool.false_eq_true, false_iff, not_exists]
        rintro us rest ⟨h1, h2, h3⟩
        cases us with
        | nil => simp at h3
        | cons u us =>
          have := h2 u List.mem_cons_self
          rw [List.cons_append, List.cons.injEq] at h1
          omega
      · rename_i hw
        rw [ih]
        constructor
        · rintro ⟨us, rest, rfl, h2, h3⟩
          refine ⟨w :: us, rest, rfl, ?_, ?_⟩
          · intro u hu
            rcases List.mem_cons.1 hu with rfl | hu
            · omega
            · exact h2 u hu
          · rw [List.length_drop] at h3
            rw [List.map_cons, List.sum_cons]
            omega
        · rintro ⟨us, rest, h1, h2, h3⟩
          cases us with
          | nil => simp at h3
          | cons u us =>
            rw [List.cons_append, List.cons.injEq] at h1
            obtain ⟨rfl, rfl⟩ := h1
            refine ⟨us, rest, rfl, fun x hx => h2 x (List.mem_cons_of_mem _ hx), ?_⟩
            rw [List.map_cons, List.sum_cons] at h3
            rw [List.length_drop]
            omega

/-- Non-vacuity: written in two parts with a result of nothing between them; an error before the end; too little. -/
example : (Client.writeData [3, 0, 2, -1] [1, 2, 3, 4, 5]).1 = true ∧ (Client.writeData [3, -1, 2] [1, 2, 3, 4, 5]).1 = false ∧
    (Client.writeData [3, 0, 1] [1, 2, 3, 4, 5]).1 = false := by decide +kernel

/-- **C129** (when a server stops serving a connection): the requests handled on a connection are at most those before the
first that fails or asks to close, that one, and at most as many as the limit. -/
theorem C129_stops : ∀ (count : Nat) (ret : Bool) (ts : List Session.Turn),
    (Session.serve count ret ts).2.1.count .request ≤ (ts.takeWhile fun t => t.ret && !t.closed).length + 1 ∧
    (Session.serve count ret ts).2.1.count .request ≤ count := by
  intro count
  induction count with
  | zero => intro ret ts; simp [Session.serve]
  | succ n ih =>
    intro ret ts
    cases ts with
    | nil => simp [Session.serve]
    | cons t ts =>
      simp only [Session.serve]
      repeat' split
      · simp
      · rename_i h
        obtain ⟨h1, h2⟩ := ih t.ret ts
        have e : (t.ret && !t.closed) = true := by
          cases hr : t.ret <;> cases hc : t.closed <;> simp_all
        rw [List.takeWhile_cons, if_pos e]
        simp only [List.count_cons_self, List.length_cons]
        omega
      · simp
      · simp

/-- Non-vacuity: three requests are waiting, the second fails, and the third is not handled. -/
example : (Session.serve 5 false [⟨true, [(1, 0)], true, false, 7⟩, ⟨true, [(1, 0)], false, false, 7⟩, ⟨true, [(1, 0)], true, false, 7⟩]).2.1 =
    [.request, .request] := by decide

end Brski.Props
