import Verif.LogFile
import Verif.PropsLog

/-!
# C102 and C103: log files and messages that end the process
-/

namespace Brski.Props
open Outcome Log Clock LogFile

/-- Specification of C102: what the caller knows of the log: the settings and the file that is open. -/
structure Logger where
  set : Settings
  dest : Option Bytes

/-- Specification of C102: a call changes the setting it names, or opens or closes the file; `fails` says what an open that fails
does. -/
def Logger.after (fails : Logger → Logger) (l : Logger) : Call → Logger
  | .setLock b => { l with set := { l.set with lock := b } }
  | .setLevel v => { l with set := { l.set with level := v } }
  | .setQuiet b => { l with set := { l.set with quiet := b } }
  | .setMeta b => { l with set := { l.set with meta_ := b } }
  | .setColor b => { l with set := { l.set with color := b } }
  | .openFile p true => ⟨{ l.set with color := false }, some p⟩
  | .openFile _ false => fails l
  | .closeFile => { l with dest := none }
  | .message _ => l

/-- Specification of C102: the text a history sends to the destination `d` (`none` is standard error). -/
def sentTo (zone : Zone) (fails : Logger → Logger) (d : Option Bytes) : Logger → List Call → Bytes
  | _, [] => []
  | l, .message m :: cs => (if l.dest = d then textOf zone l.set m else []) ++ sentTo zone fails d l cs
  | l, c :: cs => sentTo zone fails d (l.after fails c) cs

/-- Specification of C102: the logger after a history. -/
def loggerAfter (fails : Logger → Logger) : Logger → List Call → Logger
  | l, [] => l
  | l, c :: cs => loggerAfter fails (l.after fails c) cs

/-- What a file holds; a file that does not exist holds nothing. -/
def held (w : World) (p : Bytes) : Bytes := match w.files p with | some f => f.content | none => []

/-- How many streams are open. -/
def openStreams (w : World) : Nat := (w.streams.filter (·.isOpen)).length

/-- The messages of a history are of the five levels of log.h and sent in the years 1000 to 9999 (`C55_defined`). -/
def LogSane (zone : Zone) (h : List Call) : Prop :=
  ∀ m, Call.message m ∈ h → m.level < 5 ∧ InYears (m.time + zone m.time) ∧ m.usec < 1000000

/-- **C102**, what does not depend on where messages go: the mask is as before, new files are for the owner only, old ones keep
their permissions. -/
def Guarded (w w' : World) : Prop :=
  w'.umask = w.umask ∧ (∀ p f, w.files p = none → w'.files p = some f → f.mode &&& 0o77 = 0) ∧
  (∀ p f, w.files p = some f → ∃ f', w'.files p = some f' ∧ f'.mode = f.mode)

/-- **C102**: every history is defined; each message that is shown goes to the file opened last, or to standard error if no file is
open; opening a file that cannot be opened changes nothing; besides the open file no stream stays open. -/
def C102_statement : Prop :=
  ∀ (zone : Zone) (w : World) (h : List Call), w.logfp = none → w.streams = [] → LogSane zone h →
    ∃ w', run zone w h = .ok w' ∧
      (∀ p, held w' p = held w p ++ sentTo zone id (some p) ⟨w.set, none⟩ h) ∧
      w'.err = w.err ++ sentTo zone id none ⟨w.set, none⟩ h ∧
      Guarded w w' ∧
      openStreams w' = if (loggerAfter id ⟨w.set, none⟩ h).dest = none then 0 else 1

/-- What an open that fails really does: colours are off, and the file that was open is forgotten. -/
def forget (l : Logger) : Logger := ⟨{ l.set with color := false }, none⟩

theorem bytesOf_written (acts : List Action) : bytesOf acts = written acts := by
  induction acts with
  | nil => rfl
  | cons a r ih => cases a <;> simp [bytesOf, written, ih] <;> (unfold written; rfl)

/-- The world fits what the caller knows of the log. -/
def LogFits (w : World) (l : Logger) : Prop :=
  w.set = l.set ∧
  match l.dest with
  | none => w.logfp = none
  | some p => ∃ i, w.logfp = some i ∧ w.streams[i]? = some ⟨p, true⟩ ∧ (w.files p).isSome

theorem guarded_refl (w : World) : Guarded w w := ⟨rfl, fun p f h h' => (by rw [h] at h'; cases h'), fun p f h => ⟨f, h, rfl⟩⟩

theorem guarded_trans {a b c : World} (h1 : Guarded a b) (h2 : Guarded b c) : Guarded a c := by
  refine ⟨h2.1.trans h1.1, fun p f h h' => ?_, fun p f h => ?_⟩
  · cases hb : b.files p with
    | none => exact h2.2.1 p f hb h'
    | some g =>
      obtain ⟨f', e, hm⟩ := h2.2.2 p g hb
      rw [h'] at e
      cases e
      rw [hm]
      exact h1.2.1 p g h hb
  · obtain ⟨g, e, hm⟩ := h1.2.2 p f h
    obtain ⟨f', e', hm'⟩ := h2.2.2 p g e
    exact ⟨f', e', hm'.trans hm⟩

/-- Putting text into the log. -/
theorem put_ok {w : World} {l : Logger} (hf : LogFits w l) (b : Bytes) :
    ∃ w', put w b = .ok w' ∧ LogFits w' l ∧ Guarded w w' ∧ w'.streams = w.streams ∧ w'.logfp = w.logfp ∧
      (∀ p, held w' p = held w p ++ if l.dest = some p then b else []) ∧ w'.err = w.err ++ if l.dest = none then b else [] := by
  obtain ⟨hs, hd⟩ := hf
  cases hdest : l.dest with
  | none =>
    rw [hdest] at hd
    refine ⟨{ w with err := w.err ++ b }, by unfold put; simp only [hd], ⟨hs, by rw [hdest]; exact hd⟩, guarded_refl _, rfl, rfl, fun p => ?_, by rw [if_pos rfl]⟩
    rw [if_neg (by simp), List.append_nil]
    rfl
  | some p =>
    rw [hdest] at hd
    obtain ⟨i, h1, h2, h3⟩ := hd
    obtain ⟨f, hfp⟩ := Option.isSome_iff_exists.1 h3
    refine ⟨{ w with files := fun q => if q = p then (w.files p).map fun f => { f with content := f.content ++ b } else w.files q },
      by unfold put; simp only [h1, h2], ⟨hs, ?_⟩, ⟨rfl, ?_, ?_⟩, rfl, rfl, fun q => ?_, by simp⟩
    · rw [hdest]
      exact ⟨i, h1, h2, by simp [hfp]⟩
    · intro q g hq hq'
      simp only at hq'
      split at hq'
      · rename_i e
        subst e
        rw [hfp] at hq
        cases hq
      · rw [hq] at hq'
        cases hq'
    · intro q g hq
      simp only
      split
      · rename_i e
        subst e
        exact ⟨{ g with content := g.content ++ b }, by rw [hq]; rfl, rfl⟩
      · exact ⟨g, hq, rfl⟩
    · unfold held
      simp only [Option.some.injEq]
      by_cases e : q = p
      · subst e
        rw [if_pos rfl, if_pos rfl, hfp]
        rfl
      · rw [if_neg e, if_neg (fun h => e h.symm), List.append_nil]

/-- One call that is no message writes nothing. -/
theorem call_ok (zone : Zone) {w : World} {l : Logger} (hf : LogFits w l) (c : Call) (hm : ∀ m, c ≠ .message m) :
    ∃ w', call zone w c = .ok w' ∧ LogFits w' (l.after forget c) ∧ Guarded w w' ∧ (∀ p, held w' p = held w p) ∧ w'.err = w.err := by
  obtain ⟨hs, hd⟩ := hf
  cases c with
  | message m => exact absurd rfl (hm m)
  | setLock b => exact ⟨_, rfl, ⟨by rw [hs]; rfl, hd⟩, guarded_refl _, fun _ => rfl, rfl⟩
  | setLevel b => exact ⟨_, rfl, ⟨by rw [hs]; rfl, hd⟩, guarded_refl _, fun _ => rfl, rfl⟩
  | setQuiet b => exact ⟨_, rfl, ⟨by rw [hs]; rfl, hd⟩, guarded_refl _, fun _ => rfl, rfl⟩
  | setMeta b => exact ⟨_, rfl, ⟨by rw [hs]; rfl, hd⟩, guarded_refl _, fun _ => rfl, rfl⟩
  | setColor b => exact ⟨_, rfl, ⟨by rw [hs]; rfl, hd⟩, guarded_refl _, fun _ => rfl, rfl⟩
  | openFile p works =>
    cases works with
    | false =>
      exact ⟨(openFile w p false).1, rfl, ⟨(congrArg (fun s : Settings => { s with color := false }) hs : _), rfl⟩, guarded_refl _,
        fun _ => rfl, rfl⟩
    | true =>
      refine ⟨(openFile w p true).1, rfl, ⟨(congrArg (fun s : Settings => { s with color := false }) hs : _), ?_⟩, ⟨rfl, ?_, ?_⟩, ?_, rfl⟩
      · refine ⟨w.streams.length, rfl, ?_, ?_⟩
        · show (w.streams ++ [_])[_]? = _
          simp
        · show (if p = p then _ else _ : Option File).isSome = true
          rw [if_pos rfl]
          rfl
      · intro q g hq hq'
        replace hq' : (if q = p then some ((w.files p).getD ⟨[], 0o666 &&& (0o777 ^^^ 0o77)⟩) else w.files q) = some g := hq'
        split at hq'
        · rename_i e
          subst e
          rw [hq] at hq'
          cases hq'
          decide
        · rw [hq] at hq'
          cases hq'
      · intro q g hq
        refine ⟨g, ?_, rfl⟩
        show (if q = p then some ((w.files p).getD ⟨[], 0o666 &&& (0o777 ^^^ 0o77)⟩) else w.files q) = some g
        split
        · rename_i e
          subst e
          rw [hq]
          rfl
        · exact hq
      · intro q
        show (match (if q = p then some ((w.files p).getD ⟨[], 0o666 &&& (0o777 ^^^ 0o77)⟩) else w.files q) with
          | some f => f.content | none => []) = match w.files q with | some f => f.content | none => []
        by_cases e : q = p
        · subst e
          rw [if_pos rfl]
          cases w.files q <;> rfl
        · rw [if_neg e]
  | closeFile =>
    cases hdest : l.dest with
    | none =>
      rw [hdest] at hd
      exact ⟨w, by unfold call closeFile; rw [hd], ⟨hs, hd⟩, guarded_refl _, fun _ => rfl, rfl⟩
    | some p =>
      rw [hdest] at hd
      obtain ⟨i, h1, h2, h3⟩ := hd
      exact ⟨{ w with logfp := none, streams := w.streams.set i ⟨p, false⟩ }, by unfold call closeFile; simp only [h1, h2], ⟨hs, rfl⟩, guarded_refl _, fun _ => rfl, rfl⟩

theorem sane_tail {zone : Zone} {c : Call} {cs : List Call} (h : LogSane zone (c :: cs)) : LogSane zone cs :=
  fun m hm => h m (List.mem_cons_of_mem _ hm)

/-- A message that is defined goes to the destination. -/
theorem say_ok (zone : Zone) {w : World} {l : Logger} (hf : LogFits w l) {m : Msg} (h : m.level < 5 ∧ InYears (m.time + zone m.time) ∧
    m.usec < 1000000) :
    ∃ w', say zone w m = .ok w' ∧ LogFits w' l ∧ Guarded w w' ∧ w'.streams = w.streams ∧ w'.logfp = w.logfp ∧
      (∀ p, held w' p = held w p ++ if l.dest = some p then textOf zone l.set m else []) ∧
      w'.err = w.err ++ if l.dest = none then textOf zone l.set m else [] := by
  obtain ⟨acts, ha⟩ := C55_defined zone w.set m h.1 h.2.1 h.2.2
  obtain ⟨w', h1, h2⟩ := put_ok hf (bytesOf acts)
  refine ⟨w', by unfold say; rw [ha, bind'_ok, h1], ?_⟩
  rw [← hf.1, textOf_ok ha, ← bytesOf_written]
  exact h2

/-- **C102**, what really happens: every history is defined, and each message goes to the file opened last, where an open that
fails counts as closing the file that was open and turns the colours off. -/
theorem C102_exact (zone : Zone) : ∀ (h : List Call) (w : World) (l : Logger), LogFits w l → LogSane zone h →
    ∃ w', run zone w h = .ok w' ∧ LogFits w' (loggerAfter forget l h) ∧
      (∀ p, held w' p = held w p ++ sentTo zone forget (some p) l h) ∧ w'.err = w.err ++ sentTo zone forget none l h ∧
      Guarded w w' := by
  intro h
  induction h with
  | nil => exact fun w l hf _ => ⟨w, rfl, hf, fun p => by simp [sentTo], by simp [sentTo], guarded_refl w⟩
  | cons c cs ih =>
    intro w l hf hs
    by_cases hm : ∃ m, c = .message m
    · obtain ⟨m, rfl⟩ := hm
      obtain ⟨w1, e1, f1, g1, -, -, p1, r1⟩ := say_ok zone hf (hs m (.head _))
      obtain ⟨w2, e2, f2, p2, r2, g2⟩ := ih w1 l f1 (sane_tail hs)
      refine ⟨w2, by unfold run; rw [show call zone w (.message m) = say zone w m from rfl, e1, bind'_ok, e2], f2, fun p => ?_, ?_,
        guarded_trans g1 g2⟩
      · rw [p2, p1, sentTo, List.append_assoc]
      · rw [r2, r1, sentTo, List.append_assoc]
    · obtain ⟨w1, e1, f1, g1, p1, r1⟩ := call_ok zone hf c (fun m e => hm ⟨m, e⟩)
      obtain ⟨w2, e2, f2, p2, r2, g2⟩ := ih w1 (l.after forget c) f1 (sane_tail hs)
      refine ⟨w2, by unfold run; rw [e1, bind'_ok, e2], f2, fun p => ?_, ?_, guarded_trans g1 g2⟩
      · rw [p2, p1]
        cases c <;> first | rfl | exact absurd ⟨_, rfl⟩ hm
      · rw [r2, r1]
        cases c <;> first | rfl | exact absurd ⟨_, rfl⟩ hm

/-- The calls that open a file work, and no file is open then. -/
def Orderly : Logger → List Call → Prop
  | _, [] => True
  | l, c :: cs => (∀ p works, c = .openFile p works → works = true ∧ l.dest = none) ∧ Orderly (l.after id c) cs

theorem after_orderly {l : Logger} {c : Call} (h : ∀ p works, c = .openFile p works → works = true ∧ l.dest = none) :
    l.after forget c = l.after id c := by
  cases c with
  | openFile p works => rw [(h p works rfl).1]; rfl
  | _ => rfl

theorem sentTo_orderly (zone : Zone) (d : Option Bytes) : ∀ {h : List Call} {l : Logger}, Orderly l h →
    sentTo zone forget d l h = sentTo zone id d l h ∧ loggerAfter forget l h = loggerAfter id l h := by
  intro h
  induction h with
  | nil => exact fun _ => ⟨rfl, rfl⟩
  | cons c cs ih =>
    intro l ho
    have ha := after_orderly ho.1
    have := ih ho.2
    refine ⟨?_, by rw [loggerAfter, loggerAfter, ha, this.2]⟩
    cases c with
    | message m => rw [sentTo, sentTo]; rw [show l.after id (.message m) = l from rfl] at this; rw [this.1]
    | _ => rw [sentTo, sentTo, ha, this.1] <;> intro _ e <;> cases e

theorem filter_set_open : ∀ (l : List Stream) (i : Nat) (p : Bytes), l[i]? = some ⟨p, true⟩ →
    ((l.set i ⟨p, false⟩).filter (·.isOpen)).length + 1 = (l.filter (·.isOpen)).length := by
  intro l
  induction l with
  | nil => intro i p h; simp at h
  | cons a l ih =>
    intro i p h
    cases i with
    | zero =>
      simp only [List.getElem?_cons_zero, Option.some.injEq] at h
      subst h
      simp
    | succ i =>
      simp only [List.getElem?_cons_succ] at h
      have := ih i p h
      simp only [List.set_cons_succ, List.filter_cons]
      split
      · simp only [List.length_cons]; omega
      · exact this

/-- The number of open streams is that of open files. -/
def Tidy (w : World) (l : Logger) : Prop := openStreams w = if l.dest = none then 0 else 1

theorem call_tidy (zone : Zone) {w w' : World} {l : Logger} {c : Call} (hf : LogFits w l) (ht : Tidy w l)
    (ho : ∀ p works, c = .openFile p works → works = true ∧ l.dest = none)
    (h : call zone w c = .ok w') (hm : ∀ m, c ≠ .message m) : Tidy w' (l.after id c) := by
  cases c with
  | message m => exact absurd rfl (hm m)
  | setLock b => cases h; exact ht
  | setLevel b => cases h; exact ht
  | setQuiet b => cases h; exact ht
  | setMeta b => cases h; exact ht
  | setColor b => cases h; exact ht
  | openFile p works =>
    obtain ⟨rfl, hd⟩ := ho p works rfl
    cases h
    unfold Tidy at ht ⊢
    rw [hd, if_pos rfl] at ht
    show ((w.streams ++ [_]).filter _).length = 1
    rw [List.filter_append, List.length_append]
    rw [openStreams] at ht
    rw [ht]
    rfl
  | closeFile =>
    unfold Tidy at ht ⊢
    show _ = 0
    unfold call closeFile at h
    cases hd : l.dest with
    | none =>
      have := hf.2
      rw [hd] at this
      simp only [this] at h
      cases h
      rw [ht, hd, if_pos rfl]
    | some p =>
      have := hf.2
      rw [hd] at this
      obtain ⟨i, h1, h2, -⟩ := this
      simp only [h1, h2] at h
      cases h
      rw [hd, if_neg (by simp)] at ht
      have := filter_set_open w.streams i p h2
      unfold openStreams at ht ⊢
      simp only
      omega

/-- **C102** for histories in which files that are opened can be opened and are opened only when no file is open. -/
theorem C102_partial (zone : Zone) : ∀ (h : List Call) (w : World) (l : Logger), LogFits w l → Tidy w l → LogSane zone h → Orderly l h →
    ∃ w', run zone w h = .ok w' ∧
      (∀ p, held w' p = held w p ++ sentTo zone id (some p) l h) ∧ w'.err = w.err ++ sentTo zone id none l h ∧
      Guarded w w' ∧ openStreams w' = if (loggerAfter id l h).dest = none then 0 else 1 := by
  intro h w l hf ht hs ho
  obtain ⟨w', e, -, p, r, g⟩ := C102_exact zone h w l hf hs
  refine ⟨w', e, fun q => by rw [p q, (sentTo_orderly zone (some q) ho).1], by rw [r, (sentTo_orderly zone none ho).1], g, ?_⟩
  clear p r g
  induction h generalizing w l with
  | nil => cases e; exact ht
  | cons c cs ih =>
    by_cases hm : ∃ m, c = .message m
    · obtain ⟨m, rfl⟩ := hm
      obtain ⟨w1, e1, f1, -, s1, -⟩ := say_ok zone hf (hs m (.head _))
      unfold run at e
      rw [show call zone w (.message m) = say zone w m from rfl, e1, bind'_ok] at e
      refine ih w1 l f1 ?_ (sane_tail hs) ho.2 e
      unfold Tidy openStreams at ht ⊢
      rw [s1]
      exact ht
    · obtain ⟨w1, e1, f1, -⟩ := call_ok zone hf c (fun m e => hm ⟨m, e⟩)
      have t1 := call_tidy zone hf ht ho.1 e1 (fun m e => hm ⟨m, e⟩)
      rw [after_orderly ho.1] at f1
      unfold run at e
      rw [e1, bind'_ok] at e
      exact ih w1 (l.after id c) f1 t1 (sane_tail hs) ho.2 e

/-- The world when the program starts: the settings of /repo/src/utils/log.c:59-64, a file that exists. -/
def someWorld : World := ⟨Log.defaults, none, [], fun p => if p = str "old" then some ⟨str "x", 0o644⟩ else none, [], 0o22⟩

/-- A message without meta data. -/
def plainCalls : List Call := [.setMeta false, .openFile (str "log") true, .message (sampleMsg 4 (str "a")), .closeFile,
  .message (sampleMsg 4 (str "b")), .openFile (str "old") true, .message (sampleMsg 4 (str "c")), .closeFile]

theorem fits_start {w : World} (h : w.logfp = none) : LogFits w ⟨w.set, none⟩ := ⟨rfl, h⟩

theorem tidy_start {w : World} (h : w.streams = []) : Tidy w ⟨w.set, none⟩ := by
  unfold Tidy openStreams
  rw [h]
  rfl

/-- The conditions of `C102_exact` and `C102_partial` can be met: two files and standard error, one file is new. -/
example : LogFits someWorld ⟨someWorld.set, none⟩ ∧ Tidy someWorld ⟨someWorld.set, none⟩ ∧ LogSane (fun _ => 0) plainCalls ∧
    Orderly ⟨someWorld.set, none⟩ plainCalls ∧
    (match run (fun _ => 0) someWorld plainCalls with
     | .ok w => decide (held w (str "log") = str "a\n" ∧ held w (str "old") = str "xc\n" ∧ w.err = str "b\n" ∧
        w.files (str "log") = some ⟨str "a\n", 0o600⟩ ∧ openStreams w = 0)
     | .ub => false) = true := by
  refine ⟨⟨rfl, rfl⟩, tidy_start rfl, ?_, ?_, by decide +kernel⟩
  · intro m hm
    simp only [plainCalls, List.mem_cons, List.not_mem_nil, or_false, reduceCtorEq, false_or, Call.message.injEq] at hm
    rcases hm with rfl | rfl | rfl <;> (unfold InYears; decide)
  · simp [plainCalls, Orderly, Logger.after, someWorld]

/-- **C102** is violated: a file that cannot be opened makes the log forget the file that was open (and turns the colours off):
the next message goes to standard error, and the stream stays open for ever. -/
theorem C102_violated : ¬ C102_statement := by
  intro h
  obtain ⟨w', e, hp, -⟩ := h (fun _ => 0) someWorld
    [.setMeta false, .openFile (str "log") true, .openFile (str "no/log") false, .message (sampleMsg 4 (str "a"))] rfl rfl (by
      intro m hm
      simp only [List.mem_cons, List.not_mem_nil, or_false, reduceCtorEq, false_or, Call.message.injEq] at hm
      subst hm
      unfold InYears
      decide)
  have h1 := hp (str "log")
  have h2 : (match run (fun _ => 0) someWorld
      [.setMeta false, .openFile (str "log") true, .openFile (str "no/log") false, .message (sampleMsg 4 (str "a"))] with
    | .ok w => decide (held w (str "log") = []) | .ub => false) = true := by decide +kernel
  rw [e] at h2
  replace h2 := of_decide_eq_true h2
  rw [h2] at h1
  revert h1
  decide +kernel

/-- **C102** is violated by opening a second file also: the first stream is never closed. -/
theorem C102_violated_twice : ∃ w', run (fun _ => 0) someWorld [.openFile (str "log") true, .openFile (str "new") true, .closeFile] = .ok w' ∧
    w'.logfp = none ∧ openStreams w' = 1 :=
  ⟨_, rfl, rfl, by decide⟩

/-- The result of `log_open_file` says whether the file was opened. -/
theorem C102_result (w : World) (p : Bytes) (works : Bool) :
    ((openFile w p works).2 = 0 ↔ works = true) ∧ ((openFile w p works).2 = -1 ↔ works = false) := by
  cases works <;> simp [openFile, fopenA]

/-! ## C103 -/

/-- How a process ends must be seen as a failure by its parent: a signal or a status other than 0. -/
def Failed : End → Prop
  | .abort => True
  | .exit s => s ≠ 0
  | .exitNow s => s ≠ 0

/-- **C103**: the functions that end the process with a message write the message, whatever is set, and the end is seen as a
failure. -/
def C103_statement : Prop :=
  ∀ (zone : Zone) (dump : Option Bytes) (w : World) (m : Msg), w.logfp = none → LogSane zone [.message m] →
    (∃ w' e, errorExit zone dump w m = .ok (w', e) ∧ Failed e ∧ w'.err ≠ w.err) ∧
    (∃ w' e, errorExitProc zone dump w m = .ok (w', e) ∧ Failed e ∧ w'.err ≠ w.err)

theorem terminate_failed (dump : Option Bytes) (b : Bool) : Failed (terminate dump b) := by
  unfold terminate
  split
  · trivial
  · cases b <;> (intro h; cases h)

/-- Text is written iff the message is shown. -/
theorem textOf_nil_iff (zone : Zone) (L : Settings) (m : Msg) (h : m.level < 5 ∧ InYears (m.time + zone m.time) ∧ m.usec < 1000000) :
    textOf zone L m ≠ [] ↔ L.quiet = false ∧ (m.ignoreLevel = true ∨ L.level ≤ m.level) := by
  obtain ⟨acts, ha⟩ := C55_defined zone L m h.1 h.2.1 h.2.2
  exact (shown_iff_text ha).symm

/-- **C103**, exactly: the process always ends as a failure, by a signal iff `EF_DUMPCORE` is set and not empty, otherwise by
`exit`, and in a child (`log_error_exit_proc`) by `_exit`; the message is written iff the log is not quiet and, for `log_error_exit`, its level is shown. -/
theorem C103_exact (zone : Zone) (dump : Option Bytes) (w : World) (l : Logger) (hf : LogFits w l) (m : Msg) (hs : LogSane zone [.message m]) :
    (∃ w' e, errorExit zone dump w m = .ok (w', e) ∧ Failed e ∧ (e = .abort ↔ ∃ c r, dump = some (c :: r)) ∧ e ≠ .exitNow 1 ∧
      (∀ p, held w' p = held w p ++ if l.dest = some p then textOf zone l.set { m with ignoreLevel := false } else []) ∧
      (w'.err = w.err ++ if l.dest = none then textOf zone l.set { m with ignoreLevel := false } else []) ∧
      (textOf zone l.set { m with ignoreLevel := false } ≠ [] ↔ l.set.quiet = false ∧ l.set.level ≤ m.level)) ∧
    (∃ w' e, errorExitProc zone dump w m = .ok (w', e) ∧ Failed e ∧ (e = .abort ↔ ∃ c r, dump = some (c :: r)) ∧ e ≠ .exit 1 ∧
      (∀ p, held w' p = held w p ++ if l.dest = some p then textOf zone l.set { m with ignoreLevel := true } else []) ∧
      (w'.err = w.err ++ if l.dest = none then textOf zone l.set { m with ignoreLevel := true } else []) ∧
      (textOf zone l.set { m with ignoreLevel := true } ≠ [] ↔ l.set.quiet = false)) := by
  have hm := hs m (.head _)
  have ht : ∀ b, terminate dump b = .abort ↔ ∃ c r, dump = some (c :: r) := by
    intro b
    unfold terminate
    split
    · simp
    · rename_i h
      constructor
      · intro e
        cases b <;> cases e
      · rintro ⟨c, r, rfl⟩
        exact absurd rfl (h c r)
  constructor
  · obtain ⟨w', e1, -, -, -, -, p1, r1⟩ := say_ok zone hf (m := { m with ignoreLevel := false }) hm
    refine ⟨w', _, by unfold errorExit; rw [e1, bind'_ok], terminate_failed _ _, ht _, (by unfold terminate; split <;> nofun), p1, r1, ?_⟩
    rw [textOf_nil_iff zone _ { m with ignoreLevel := false } hm]
    simp
  · obtain ⟨w', e1, -, -, -, -, p1, r1⟩ := say_ok zone hf (m := { m with ignoreLevel := true }) hm
    refine ⟨w', _, by unfold errorExitProc; rw [e1, bind'_ok], terminate_failed _ _, ht _, (by unfold terminate; split <;> nofun), p1, r1, ?_⟩
    rw [textOf_nil_iff zone _ { m with ignoreLevel := true } hm]
    simp

/-- **C103** when the log is not quiet and the level is shown. -/
theorem C103_partial (zone : Zone) (dump : Option Bytes) (w : World) (m : Msg) (hl : w.logfp = none) (hs : LogSane zone [.message m])
    (hq : w.set.quiet = false) :
    (w.set.level ≤ m.level → ∃ w' e, errorExit zone dump w m = .ok (w', e) ∧ Failed e ∧ w'.err ≠ w.err) ∧
    (∃ w' e, errorExitProc zone dump w m = .ok (w', e) ∧ Failed e ∧ w'.err ≠ w.err) := by
  obtain ⟨⟨a, b, h1, h2, -, -, -, h3, h4⟩, ⟨a', b', g1, g2, -, -, -, g3, g4⟩⟩ := C103_exact zone dump w _ (fits_start hl) m hs
  refine ⟨fun hv => ⟨a, b, h1, h2, ?_⟩, ⟨a', b', g1, g2, ?_⟩⟩
  · rw [h3, if_pos rfl]
    intro e
    exact h4.2 ⟨hq, hv⟩ (by simpa using e)
  · rw [g3, if_pos rfl]
    intro e
    exact g4.2 hq (by simpa using e)

/-- The conditions of `C103_partial` can be met. -/
example : someWorld.logfp = none ∧ LogSane (fun _ => 0) [.message (sampleMsg 4 (str "bad"))] ∧ someWorld.set.quiet = false ∧
    someWorld.set.level ≤ (sampleMsg 4 (str "bad")).level := by
  refine ⟨rfl, ?_, rfl, by decide⟩
  intro m hm
  simp only [List.mem_cons, List.not_mem_nil, or_false, Call.message.injEq] at hm
  subst hm
  unfold InYears
  decide

/-- **C103** is violated: with the settings of `main` without `-d` (/repo/src/brski/brski.cpp:278-279) nothing is written, also by the
function that ignores the level. -/
theorem C103_violated : ¬ C103_statement := by
  intro h
  have hs : LogSane (fun _ => 0) [.message (sampleMsg 4 (str "bad"))] := by
    intro m hm
    simp only [List.mem_cons, List.not_mem_nil, or_false, Call.message.injEq] at hm
    subst hm
    unfold InYears
    decide
  obtain ⟨-, w', e, h1, -, h2⟩ := h (fun _ => 0) none { someWorld with set := { Log.defaults with quiet := true, lock := true } }
    (sampleMsg 4 (str "bad")) rfl hs
  obtain ⟨-, w'', e', g1, -, -, -, -, g2, g3⟩ := C103_exact (fun _ => 0) none
    { someWorld with set := { Log.defaults with quiet := true, lock := true } } _ (fits_start rfl) (sampleMsg 4 (str "bad")) hs
  rw [h1] at g1
  cases g1
  rw [if_pos rfl] at g2
  by_cases ht : textOf (fun _ => 0) { Log.defaults with quiet := true, lock := true } { sampleMsg 4 (str "bad") with ignoreLevel := true } = []
  · rw [show (World.set _ : Settings) = { Log.defaults with quiet := true, lock := true } from rfl] at g2
    rw [ht, List.append_nil] at g2
    exact h2 g2
  · exact absurd (g3.1 ht) (by decide)

end Brski.Props
