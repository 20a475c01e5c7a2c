import Verif.PropsSocket
import Verif.PropsCutConn
import Verif.PropsPause
import Verif.FormSim

/-!
# C109 and C115, additions: what a refused content leaves unread, and which handshakes succeed
-/

namespace Brski.Props
open Outcome Routes Wire Ranges Conn Cut

/-! ## C115 -/

theorem wait_small {sock : Nat} (h : sock < 1024) (r : Option Nat) :
    (Socket.wait sock r).1 = true ↔ ∃ d, r = some d ∧ d ≤ 5000 := by
  unfold Socket.wait
  rw [if_neg (by simp only [Socket.setSize]; omega)]
  cases r with
  | none => simp
  | some d =>
    by_cases hd : d ≤ 5000
    · simp [hd]
    · simp [hd]

theorem handshake_accepts {sock : Nat} (h : sock < 1024) (P : Socket.Peer) : ∀ (n i t : Nat),
    (∃ t', Socket.handshake sock P n i t = some (true, t')) ↔
      ∃ j, j < n ∧ P.res (i + j) = .done ∧ ∀ k, k < j → (P.res (i + k) = .wantRead ∨ P.res (i + k) = .wantWrite) ∧
        ∃ d, P.ready (i + k) = some d ∧ d ≤ 5000
  | 0, i, t => by simp [Socket.handshake]
  | n + 1, i, t => by
    have step : (P.res i = .wantRead ∨ P.res i = .wantWrite) → ((∃ t', Socket.handshake sock P (n + 1) i t = some (true, t')) ↔
        ∃ j, j < n + 1 ∧ P.res (i + j) = .done ∧ ∀ k, k < j → (P.res (i + k) = .wantRead ∨ P.res (i + k) = .wantWrite) ∧
          ∃ d, P.ready (i + k) = some d ∧ d ≤ 5000) := by
      intro hr
      have e : Socket.handshake sock P (n + 1) i t = if (Socket.wait sock (P.ready i)).1 then
          Socket.handshake sock P n (i + 1) (t + (Socket.wait sock (P.ready i)).2)
          else some (false, t + (Socket.wait sock (P.ready i)).2) := by
        rw [Socket.handshake]
        rcases hr with hr | hr <;> rw [hr]
      rw [e]
      by_cases hw : (Socket.wait sock (P.ready i)).1 = true
      · rw [if_pos hw, handshake_accepts h P n (i + 1)]
        constructor
        · rintro ⟨j, h1, h2, h3⟩
          refine ⟨j + 1, by omega, by rw [show i + (j + 1) = i + 1 + j by omega]; exact h2, ?_⟩
          intro k hk
          cases k with
          | zero => exact ⟨hr, (wait_small h _).1 hw⟩
          | succ k =>
            have := h3 k (by omega)
            rwa [show i + 1 + k = i + (k + 1) by omega] at this
        · rintro ⟨j, h1, h2, h3⟩
          cases j with
          | zero =>
            rw [Nat.add_zero] at h2
            rcases hr with hr | hr <;> rw [hr] at h2 <;> cases h2
          | succ j =>
            refine ⟨j, by omega, by rw [show i + 1 + j = i + (j + 1) by omega]; exact h2, ?_⟩
            intro k hk
            have := h3 (k + 1) (by omega)
            rwa [show i + (k + 1) = i + 1 + k by omega] at this
      · rw [if_neg hw]
        constructor
        · rintro ⟨t', h1⟩
          cases h1
        · rintro ⟨j, h1, h2, h3⟩
          cases j with
          | zero =>
            rw [Nat.add_zero] at h2
            rcases hr with hr | hr <;> rw [hr] at h2 <;> cases h2
          | succ j => exact absurd ((wait_small h _).2 (h3 0 (by omega)).2) hw
    cases hr : P.res i with
    | done =>
      refine ⟨fun _ => ⟨0, by omega, hr, fun k hk => absurd hk (by omega)⟩, fun _ => ⟨t, ?_⟩⟩
      rw [Socket.handshake, hr]
    | wantRead => exact step (.inl hr)
    | wantWrite => exact step (.inr hr)
    | failed =>
      constructor
      · rintro ⟨t', h1⟩
        rw [Socket.handshake, hr] at h1
        cases h1
      · rintro ⟨j, h1, h2, h3⟩
        cases j with
        | zero =>
          rw [Nat.add_zero, hr] at h2
          cases h2
        | succ j =>
          have := (h3 0 (by omega)).1
          rw [Nat.add_zero, hr] at this
          rcases this with this | this <;> cases this

/-- **C115** (which handshakes succeed): with a descriptor below 1024 a handshake succeeds exactly if one of the calls of
`SSL_accept` completes and each call before it asked to wait for something that came within five seconds. -/
theorem C115_accepted {sock : Nat} (h : sock < 1024) (P : Socket.Peer) :
    (∃ n t, Socket.handshake sock P n 0 0 = some (true, t)) ↔
      ∃ j, P.res j = .done ∧ ∀ k, k < j → (P.res k = .wantRead ∨ P.res k = .wantWrite) ∧
        ∃ d, P.ready k = some d ∧ d ≤ 5000 := by
  constructor
  · rintro ⟨n, t⟩
    obtain ⟨j, -, h2, h3⟩ := (handshake_accepts h P n 0 0).1 t
    simp only [Nat.zero_add] at h2 h3
    exact ⟨j, h2, h3⟩
  · rintro ⟨j, h2, h3⟩
    refine ⟨j + 1, (handshake_accepts h P (j + 1) 0 0).2 ⟨j, by omega, ?_, ?_⟩⟩
    · rw [Nat.zero_add]; exact h2
    · intro k hk
      rw [Nat.zero_add]
      exact h3 k hk

/-- Non-vacuity: accepted after a wait; a failure; a wait of more than five seconds. -/
example : Socket.handshake 7 ⟨fun i => if i < 1 then .wantRead else .done, fun _ => some 30⟩ 2 0 0 = some (true, 30) ∧
    Socket.handshake 7 ⟨fun i => if i < 1 then .wantRead else .failed, fun _ => some 30⟩ 2 0 0 = some (false, 30) ∧
    Socket.handshake 7 ⟨fun i => if i < 1 then .wantRead else .done, fun _ => some 5001⟩ 2 0 0 = some (false, 5000) := by decide

/-! ## C109 -/

variable {σ : Type}

/-- Pieces handed to a receiver one after the other, until it refuses one (specification). -/
def handed (out : σ → Bytes → Option σ) (x : σ) : List Bytes → Option σ
  | [] => some x
  | b :: bs => (out x b).bind fun y => handed out y bs

/-- **C109** (what content with a length leaves): what is not read any more is what comes after some pieces of the content that
were handed to the receiver: all of the content, or as much as was there, if it took them all, and else up to the piece it
refused, that one included. -/
theorem C109_rest_length (out : σ → Bytes → Option σ) (len : Nat) (x : σ) (s : Strm) :
    ∃ ps : List Bytes, s.bytes = ps.flatten ++ (CutConn.lengthRest out len x s).bytes ∧ ps.flatten <+: s.bytes.take len ∧
      (handed out x ps ≠ none → ps.flatten = s.bytes.take len) ∧
      (handed out x ps = none → ps ≠ [] ∧ handed out x ps.dropLast ≠ none) := by
  rw [CutConn.lengthRest]
  split
  · rename_i hl
    subst hl
    exact ⟨[], rfl, List.nil_prefix, fun _ => by simp, fun h => by cases h⟩
  · rename_i hl
    split
    · rename_i b s' hr
      have hlt := read_lt (by omega) hr
      obtain ⟨k, hk, hbk, hb, hs'⟩ : ∃ k, k ≤ len ∧ k ≤ s.bytes.length ∧ b = s.bytes.take k ∧ s'.bytes = s.bytes.drop k := by
        unfold Strm.read at hr
        split at hr
        · split at hr <;> cases hr
        · cases hr
          refine ⟨min (min (min len 4096) (max 1 (s.cuts.headD (min len 4096)))) s.bytes.length, by omega, by omega, ?_, ?_⟩
          · rw [List.take_eq_take_iff]; omega
          · rw [List.drop_eq_drop_iff]; omega
      have hlen : b.length = k := by rw [hb, List.length_take]; omega
      have happ : s.bytes = b ++ s'.bytes := by rw [hb, hs', List.take_append_drop]
      have htake : s.bytes.take len = b ++ s'.bytes.take (len - b.length) := by
        rw [happ, List.take_append, List.take_of_length_le (by omega)]
      cases ho : out x b with
      | none =>
        refine ⟨[b], by simpa using happ, ?_, ?_, ?_⟩
        · rw [htake]; simp
        · intro h; exact absurd (by simp [handed, ho]) h
        · intro _; exact ⟨by simp, by simp [handed]⟩
      | some y =>
        obtain ⟨ps, h1, h2, h3, h4⟩ := C109_rest_length out (len - b.length) y s'
        have hh : handed out x (b :: ps) = handed out y ps := by simp [handed, ho]
        refine ⟨b :: ps, ?_, ?_, ?_, ?_⟩
        · rw [List.flatten_cons, List.append_assoc, ← h1]; exact happ
        · rw [htake, List.flatten_cons]
          exact (List.prefix_append_right_inj b).2 h2
        · intro h
          rw [hh] at h
          rw [htake, List.flatten_cons, h3 h]
        · intro h
          rw [hh] at h
          obtain ⟨g1, g2⟩ := h4 h
          refine ⟨by simp, ?_⟩
          rw [List.dropLast_cons_of_ne_nil g1]
          simpa [handed, ho] using g2
    · rename_i hr
      refine ⟨[], rfl, List.nil_prefix, fun _ => ?_, fun h => by cases h⟩
      unfold Strm.read at hr
      split at hr
      · rename_i he; simp [he]
      · exact absurd rfl (hr _ _)
termination_by s.bytes.length

/-- **C109** (what content without a length leaves): likewise, where the content is all there is. -/
theorem C109_rest_end (out : σ → Bytes → Option σ) (x : σ) (s : Strm) :
    ∃ ps : List Bytes, s.bytes = ps.flatten ++ (CutConn.endRest out x s).bytes ∧
      (handed out x ps ≠ none → ps.flatten = s.bytes) ∧
      (handed out x ps = none → ps ≠ [] ∧ handed out x ps.dropLast ≠ none) := by
  rw [CutConn.endRest]
  split
  · rename_i b s' hr
    have hlt := read_lt (by decide) hr
    have happ : s.bytes = b ++ s'.bytes := by
      unfold Strm.read at hr
      split at hr
      · split at hr <;> cases hr
      · cases hr
        rw [List.take_append_drop]
    cases ho : out x b with
    | none =>
      refine ⟨[b], by simpa using happ, ?_, ?_⟩
      · intro h; exact absurd (by simp [handed, ho]) h
      · intro _; exact ⟨by simp, by simp [handed]⟩
    | some y =>
      obtain ⟨ps, h1, h3, h4⟩ := C109_rest_end out y s'
      have hh : handed out x (b :: ps) = handed out y ps := by simp [handed, ho]
      refine ⟨b :: ps, ?_, ?_, ?_⟩
      · rw [List.flatten_cons, List.append_assoc, ← h1]; exact happ
      · intro h
        rw [hh] at h
        rw [happ, List.flatten_cons, h3 h]
      · intro h
        rw [hh] at h
        obtain ⟨g1, g2⟩ := h4 h
        refine ⟨by simp, ?_⟩
        rw [List.dropLast_cons_of_ne_nil g1]
        simpa [handed, ho] using g2
  · rename_i hr
    refine ⟨[], rfl, fun _ => ?_, fun h => by cases h⟩
    unfold Strm.read at hr
    split at hr
    · rename_i he; simp [he]
    · exact absurd rfl (hr _ _)
termination_by s.bytes.length

/-- Non-vacuity: the second piece is refused, and the rest is left; everything is taken. -/
example : (CutConn.lengthRest (fun (x : Nat) b => if x = 0 then some 1 else if b.length = 2 then none else some 2) 6 0
      ⟨str "abcdefgh", [3, 2], true⟩).bytes = str "fgh" ∧
    (CutConn.lengthRest append 6 [] ⟨str "abcdefgh", [3, 2], true⟩).bytes = str "gh" ∧
    (CutConn.endRest (fun (x : Nat) b => if x = 0 then some 1 else if b.length = 2 then none else some 2) 0
      ⟨str "abcdefgh", [3, 2], true⟩).bytes = str "fgh" := by decide +kernel

/-- A form without boundary with a request as its content. -/
def noBoundary : Bytes := str "POST / HTTP/1.1\r\nContent-Type: multipart/form-data\r\nContent-Length: 73\r\n\r\n"

/-- The head of a form whose first part has a line that is no field. -/
def malformed : Bytes := str "POST / HTTP/1.1\r\nContent-Type: multipart/form-data; boundary=b\r\nContent-Length: 81\r\n\r\n"

/-- **C109** (a form without boundary): its content is read as the next request, whatever the pieces. -/
theorem C109_violated_unbounded : ∀ cuts ∈ [[], List.replicate 200 1, [5, 70, 30]],
    seen (CutConn.connection registrarRoutes (fun _ => true) echoEnv (arriving (noBoundary ++ hidden) cuts)) =
      [(400, none), (200, some (str "abc"))] := by decide +kernel

/-- **C109** (a form that is refused): how much of it is read as the next request depends on the pieces it arrives in: with all of
it in one piece nothing, and with its first eight bytes in one piece all the rest. -/
theorem C109_violated_refused :
    seen (CutConn.connection registrarRoutes Form.lineOk echoEnv (arriving (malformed ++ (str "--b\r\nX\r\n" ++ hidden)) [])) =
      [(400, none)] ∧
    seen (CutConn.connection registrarRoutes Form.lineOk echoEnv (arriving (malformed ++ (str "--b\r\nX\r\n" ++ hidden))
        (List.replicate malformed.length 1 ++ [8]))) = [(400, none), (200, some (str "abc"))] := by
  constructor <;> decide +kernel

end Brski.Props
