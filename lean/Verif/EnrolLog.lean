import Verif.Server

/-!
# The enrolment log written by several threads (model)

`save_to_log` (/repo/src/brski/registrar/registrar_api.cpp:74-82) opens the log with mode `"a"`, prints one
text and closes it, in the thread that serves the enrolment and without a lock.  Every stream has a buffer of
its own, so that the text reaches the file in one or more pieces; a file opened for appending takes each
piece as a whole, after everything written before (`O_APPEND`).  Errors of the file system are left out.
-/

namespace Brski.EnrolLog

/-- How a stream with a buffer of `n` bytes may hand a text to the file between `fopen` and `fclose`
(/repo/src/brski/registrar/registrar_api.cpp:74-79): piece by piece, and as one piece if it fits into the
buffer.  Which pieces are made of a longer text is left to the library. -/
structure Cut (n : Nat) (text : Bytes) (pieces : List Bytes) : Prop where
  all : pieces.flatten = text
  some : [] ∉ pieces
  one : text.length ≤ n → pieces.length ≤ 1

/-- Several threads (/repo/src/brski/registrar/registrar_api.cpp:74-79): `Writes ps out ps'` says that after
the pieces `out` were written, in this order, the pieces `ps'` of each thread are still to come. -/
inductive Writes : List (List Bytes) → List Bytes → List (List Bytes) → Prop where
  | none (ps : List (List Bytes)) : Writes ps [] ps
  | next {ps : List (List Bytes)} {out : List Bytes} {l r : List (List Bytes)} {c : Bytes} {cs : List Bytes}
      (h : Writes ps out (l ++ (c :: cs) :: r)) : Writes ps (out ++ [c]) (l ++ cs :: r)

/-- The file after the pieces were appended (/repo/src/brski/registrar/registrar_api.cpp:74). -/
def file (old : Bytes) (out : List Bytes) : Bytes := old ++ out.flatten

/-- The pieces made by a stream that writes its buffer when another character does not fit, and the rest
when it is closed (/repo/src/brski/registrar/registrar_api.cpp:76-79). -/
def fullBuffers (n : Nat) (text : Bytes) : List Bytes :=
  if h : n = 0 ∨ text.length ≤ n then (if text = [] then [] else [text])
  else text.take n :: fullBuffers n (text.drop n)
termination_by text.length
decreasing_by
  simp only [List.length_drop]
  omega

end Brski.EnrolLog
