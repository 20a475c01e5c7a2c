import Verif.Base

/-!
# Reading from a TLS connection (model)

`SSLSocketStream::read` (/repo/src/brski/http/httplib.h:8792-8824) with `is_readable` (8783-8785), and `stream_line_reader::getline`
(2724-2750) on it: what `select` finds, what `SSL_read` gives, how often a read is tried again, and how long it takes.  `Cut` and `CutConn`
describe a connection by the bytes that arrive and the sizes of the pieces; `PropsReading` shows that they may do so.

Time is in milliseconds.  The limits are those of this project: five seconds for each call of `select` (33-35) and, since the accepted
sockets have `SO_RCVTIMEO` (6721-6735), for each wait within `SSL_read`.
Simplified: an interrupted `select` is started again (2866-2876), here it just takes longer; the records of TLS are those that OpenSSL
hands over: application data that are not empty, or something else, for which `SSL_read` returns with `SSL_ERROR_WANT_READ`, as
`SSL_MODE_AUTO_RETRY` is cleared (8778).
-/

namespace Brski.Reading

/-- What comes next on a connection, /repo/src/brski/http/httplib.h:8783-8824.  `silence`: `select` finds nothing, or fails.  Otherwise
it finds something after `wait`, and `SSL_read` takes `ms`: a record with data; something else, or only a part of a record within the
time limit of the socket; the end that TLS announces (`close_notify`); an error. -/
inductive Net where
  | silence (wait : Nat)
  | record (c : UInt8) (b : Bytes) (wait ms : Nat)
  | other (wait ms : Nat)
  | goodbye (wait ms : Nat)
  | broken (wait ms : Nat)
deriving Repr, DecidableEq

/-- A session (/repo/src/brski/http/httplib.h:8792-8824): what is left of the record at hand (`SSL_pending`), and what is to come;
after the end of the list the other side is silent. -/
structure Sess where
  held : Bytes
  net : List Net
deriving Repr, DecidableEq

/-- The results of `SSL_read`, /repo/src/brski/http/httplib.h:8794-8798: bytes, 0, `SSL_ERROR_WANT_READ`, another error. -/
inductive Ssl where
  | data (b : Bytes)
  | zero
  | want
  | fail
deriving Repr, DecidableEq

/-- The results of a read: bytes, 0 or a negative number, /repo/src/brski/http/httplib.h:8792-8824. -/
inductive Got where
  | data (b : Bytes)
  | eof
  | err
deriving Repr, DecidableEq

/-- `is_readable`, /repo/src/brski/http/httplib.h:8783-8785: the answer, the time, the session. -/
def isReadable (s : Sess) : Bool × Nat × Sess :=
  match s.net with
  | [] => (false, 5000, s)
  | .silence w :: r => (false, w, ⟨s.held, r⟩)
  | .record _ _ w _ :: _ | .other w _ :: _ | .goodbye w _ :: _ | .broken w _ :: _ => (true, w, s)

/-- `SSL_read` as it is called in /repo/src/brski/http/httplib.h:8794-8812: the result, the time, the session.  After the end, or an
error, every further call has the same result. -/
def sslRead (n : Nat) (s : Sess) : Ssl × Nat × Sess :=
  if s.held ≠ [] then (.data (s.held.take n), 0, ⟨s.held.drop n, s.net⟩)
  else
    match s.net with
    | [] => (.want, 5000, s)
    | .silence w :: r => (.want, w, ⟨[], r⟩)
    | .record c b _ ms :: r => (.data ((c :: b).take n), ms, ⟨(c :: b).drop n, r⟩)
    | .other _ ms :: r => (.want, ms, ⟨[], r⟩)
    | .goodbye _ ms :: _ => (.zero, ms, ⟨[], [.goodbye 0 0]⟩)
    | .broken _ ms :: _ => (.fail, ms, ⟨[], [.broken 0 0]⟩)

/-- The result of a read when `SSL_read` need not be tried again, /repo/src/brski/http/httplib.h:8794,8809,8814,8821. -/
def gotOf : Ssl → Got
  | .data b => .data b
  | .zero => .eof
  | .want => .err
  | .fail => .err

/-- The loop of `SSLSocketStream::read`, /repo/src/brski/http/httplib.h:8799-8819, after `SSL_ERROR_WANT_READ`. -/
def retry (n : Nat) : Nat → Sess → Got × Nat × Sess
  | 0, s => (.err, 0, s)
  | k + 1, s =>
    if s.held ≠ [] then
      let r := sslRead n s
      (gotOf r.1, r.2.1, r.2.2)
    else
      let w := isReadable s
      if w.1 then
        let r := sslRead n w.2.2
        if r.1 = .want then
          let q := retry n k r.2.2
          (q.1, w.2.1 + 1 + r.2.1 + q.2.1, q.2.2)
        else (gotOf r.1, w.2.1 + 1 + r.2.1, r.2.2)
      else (.err, w.2.1, w.2.2)

/-- `SSLSocketStream::read`, /repo/src/brski/http/httplib.h:8792-8824: the result, the time, the session. -/
def read (n : Nat) (s : Sess) : Got × Nat × Sess :=
  if s.held ≠ [] then
    let r := sslRead n s
    (gotOf r.1, r.2.1, r.2.2)
  else
    let w := isReadable s
    if w.1 then
      let r := sslRead n w.2.2
      if r.1 = .want then
        let q := retry n 1000 r.2.2
        (q.1, w.2.1 + r.2.1 + q.2.1, q.2.2)
      else (gotOf r.1, w.2.1 + r.2.1, r.2.2)
    else (.err, w.2.1, w.2.2)

/-- How many bytes an event brings (/repo/src/brski/http/httplib.h:8794). -/
def Net.size : Net → Nat
  | .record _ b _ _ => b.length + 1
  | _ => 0

/-- How many bytes are to come (/repo/src/brski/http/httplib.h:8792-8824). -/
def Sess.size (s : Sess) : Nat := s.held.length + (s.net.map Net.size).sum

theorem isReadable_size (s : Sess) : (isReadable s).2.2.size ≤ s.size ∧ (isReadable s).2.2.held = s.held := by
  unfold isReadable
  split <;> rename_i h <;> simp [Sess.size, h, Net.size]

theorem sslRead_size (n : Nat) (s : Sess) :
    (sslRead n s).2.2.size ≤ s.size ∧ (0 < n → ∀ b, (sslRead n s).1 = .data b → (sslRead n s).2.2.size < s.size) := by
  unfold sslRead
  split
  · rename_i h
    have : 0 < s.held.length := List.length_pos_iff.2 h
    simp only [Sess.size, List.length_drop]
    exact ⟨by omega, fun hn _ _ => by omega⟩
  · rename_i h
    have h : s.held = [] := Classical.not_not.1 h
    split <;> rename_i e <;> simp [Sess.size, e, h, Net.size, List.length_drop] <;> omega

theorem retry_size (n : Nat) (hn : 0 < n) : ∀ (k : Nat) (s : Sess),
    (retry n k s).2.2.size ≤ s.size ∧ (∀ b, (retry n k s).1 = .data b → (retry n k s).2.2.size < s.size) := by
  have hg : ∀ x b, gotOf x = .data b → x = .data b := by
    intro x b h
    cases x <;> simp [gotOf] at h ⊢
    exact h
  intro k
  induction k with
  | zero => intro s; simp [retry]
  | succ k ih =>
    intro s
    have h1 := isReadable_size s
    have h2 := sslRead_size n s
    have h3 := sslRead_size n (isReadable s).2.2
    unfold retry
    split
    · exact ⟨h2.1, fun b h => h2.2 hn b (hg _ _ h)⟩
    · simp only
      split
      · split
        · have h4 := ih (sslRead n (isReadable s).2.2).2.2
          exact ⟨by dsimp only; omega, fun b h => by have := h4.2 b h; dsimp only; omega⟩
        · exact ⟨by dsimp only; omega, fun b h => by have := h3.2 hn b (hg _ _ h); dsimp only; omega⟩
      · exact ⟨h1.1, fun b h => nomatch h⟩

theorem read_size {n : Nat} (hn : 0 < n) {s : Sess} {b : Bytes} (h : (read n s).1 = .data b) : (read n s).2.2.size < s.size := by
  have hg : ∀ x b, gotOf x = .data b → x = .data b := by
    intro x b h
    cases x <;> simp [gotOf] at h ⊢
    exact h
  have h1 := isReadable_size s
  have h2 := sslRead_size n s
  have h3 := sslRead_size n (isReadable s).2.2
  unfold read at h ⊢
  split at h
  · rename_i he
    rw [if_pos he]
    exact h2.2 hn b (hg _ _ h)
  · rename_i he
    rw [if_neg he]
    simp only at h ⊢
    split at h
    · rename_i hw
      rw [if_pos hw]
      split at h
      · rename_i hr
        rw [if_pos hr]
        have := (retry_size n hn 1000 (sslRead n (isReadable s).2.2).2.2).2 b h
        simp only
        omega
      · rename_i hr
        rw [if_neg hr]
        have := h3.2 hn b (hg _ _ h)
        simp only
        omega
    · cases h

/-- `stream_line_reader::getline`, /repo/src/brski/http/httplib.h:2724-2750, with what was read so far: the line, the time, the
session. -/
def getline (acc : Bytes) (s : Sess) : Option Bytes × Nat × Sess :=
  match h : (read 1 s).1 with
  | .err => (none, (read 1 s).2)
  | .eof => (if acc = [] then none else some acc, (read 1 s).2)
  | .data b =>
    have := read_size (by decide) h
    if b = [10] then (some (acc ++ b), (read 1 s).2)
    else
      let q := getline (acc ++ b) (read 1 s).2.2
      (q.1, (read 1 s).2.1 + q.2.1, q.2.2)
termination_by s.size

end Brski.Reading
