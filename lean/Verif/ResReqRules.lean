import Verif.ResReq
import Verif.ResRules5

/-!
# Ownership in requests and in the servers' handlers: rules
-/

namespace Brski.Res
open Outcome

/-- The references of an optional `struct BinaryArray` (/repo/src/voucher/array.h:155-158). -/
def binR : Option Bin → List Ref
  | none => []
  | some b => (one .mem b.arr).flatten ++ [(.mem, b.hd)]

/-- The references of an optional list of arrays (/repo/src/voucher/array.h:113-118). -/
def arrR (l : Option ArrList) : List Ref := (arrO l).flatten

/-- The reference of an optional block (/repo/src/voucher/array.c:144-152). -/
def memR (o : Option Id) : List Ref := (one .mem o).flatten

theorem binRefs_flat (b : Option Bin) : (binRefs b).flatten = binR b := by
  rcases b with _ | ⟨hd, _ | a⟩ <;> rfl

theorem Con.memO {o : Option Id} : Con (Res.dropO .mem o) (memR o) := by
  cases o
  · exact Con.nil
  · exact Con.drop

theorem Con.freeBin {b : Bin} : Con (Res.freeBin b) (binR (some b)) := Con.seq Con.memO Con.drop

theorem Con.freeBinO {b : Option Bin} : Con (Res.freeBinO b) (binR b) := by
  cases b
  · exact Con.nil
  · exact Con.freeBin

theorem Con.freeArrO {l : Option ArrList} : Con (Res.freeArrO l) (arrR l) := by
  cases l
  · exact Con.nil
  · rename_i l
    rw [show arrR (some l) = arrRefs l by simp [arrR, arrO]]
    exact Con.freeArr

/-- Permutations of blocks, with the blocks of this file (/repo/src/voucher/request.c:20-581). -/
macro "rperm" : tactic => `(tactic| (
  refine List.perm_iff_count.2 fun a => ?_
  simp only [List.flatten_cons, List.flatten_nil, List.flatten_append, List.count_append, List.count_nil, List.nil_append,
    List.append_nil, List.cons_append, List.count_cons, List.append_assoc, binRefs_flat, binR, arrR, memR, one, arrO] <;> omega))

theorem Tri.conP {α β : Type} {B : List Ref} {L M : List (List Ref)} {X : List Ref} {p : Prog α} {f : α → Prog β}
    {Q : β → List (List Ref)} (h : Con p X) (e : L.flatten.Perm (X ++ M.flatten)) (hf : ∀ a, Tri B M (f a) Q) :
    Tri B L (p >>= f) Q := Tri.bind (Tri.con h e) hf

theorem tri_setAttr {B : List Ref} {L : List (List Ref)} {v : Id} (h : (Kind.mem, v) ∈ B ∨ (Kind.mem, v) ∈ L.flatten) :
    Tri B L (setAttr v) fun _ => L := Tri.bind (Tri.use h) fun _ => Tri.yes

theorem tri_setAttrs {B : List Ref} {L : List (List Ref)} {v : Id} (h : (Kind.mem, v) ∈ B ∨ (Kind.mem, v) ∈ L.flatten) :
    ∀ n, Tri B L (setAttrs v n) fun _ => L := by
  intro n
  induction n with
  | zero => exact Tri.ret rfl
  | succ n ih =>
    refine Tri.bind (tri_setAttr h) fun b => ?_
    cases b
    · exact Tri.ret rfl
    · exact ih

macro_rules | `(tactic| tstep) => `(tactic|
  (with_reducible refine Tri.bind (tri_setAttrs (by simp) _) fun b => ?_; cases b <;> dsimp only))
macro_rules | `(tactic| tstep) => `(tactic|
  (with_reducible refine Tri.bind (tri_setAttr (by simp)) fun b => ?_))

theorem tri_signVoucher (lib : Lib) (h : lib.Good) (v : Id) (certs : Option Nat) :
    Tri [(.mem, v)] [] (signVoucher lib v certs) fun b => [binR b] := by
  unfold signVoucher
  tstep; tstep
  · exact Tri.pure (by simp [binR])
  tstep
  · tstep; exact Tri.pure (by simp [binR])
  rename_i text hd
  tstep
  refine Tri.bind (Tri.call (tri_signCms lib h certs) (by simp)) fun o => ?_
  rcases o with _ | d
  · dsimp only [ptrRefs, List.nil_append]
    tstep; tstep
    exact Tri.pure (by simp [binR])
  · rw [ptr_one]
    refine Tri.conP (M := one .mem d ++ [[(.mem, hd)]]) Con.drop ?_ fun _ => Tri.pure ?_
    · cases d <;> rperm
    · simp [binR]

/-- Calls whose result is an optional array (/repo/src/voucher/request.c:88,230,427). -/
macro "tbin " t:term : tactic => `(tactic|
  (with_reducible refine Tri.bind (Tri.call $t (by simp)) fun o => ?_; cases o <;> dsimp only [List.nil_append, List.cons_append]))

theorem tri_signPledge (lib : Lib) (h : lib.Good) (nonce : Bool) (certs : Option Nat) :
    Tri [] [] (signPledge lib nonce certs) fun b => [binR b] := by
  unfold signPledge
  tstep
  · exact Tri.pure (by simp [binR])
  tstep
  · tstep; exact Tri.pure (by simp [binR])
  tbin tri_signVoucher lib h _ certs
  · exact Tri.conP (M := []) Con.drop (by rperm) fun _ => Tri.pure (by simp [binR])
  · tstep; tsteps

theorem verifyVoucher_certs (lib : Lib) (certs : Option Nat) (store : Option (List Int)) : ∀ s r s',
    verifyVoucher lib certs store false s = .ok (r, s') → r.2 = none := by
  intro s r s' h
  unfold verifyVoucher at h
  obtain ⟨v, s1, h1, h⟩ := bind_inv h
  have hv := (verifyCms_data lib certs store _ _ _ h1).1
  obtain ⟨ok, d, l⟩ := v
  cases hv
  cases ok <;> dsimp only at h
  · cases h; rfl
  · obtain ⟨o, s2, _, h⟩ := bind_inv h
    cases o <;> dsimp only at h <;> obtain ⟨_, s3, _, h⟩ := bind_inv h <;> cases h <;> rfl

theorem tri_verifyV (lib : Lib) (h : lib.Good) (certs : Option Nat) (store : Option (List Int)) :
    Tri [] [] (verifyVoucher lib certs store false) fun r => one .mem r.1 :=
  Tri.postF (tri_verifyVoucher lib h certs store) (verifyVoucher_certs lib certs store) fun r hr => by
    rw [hr]; simp [arrO]

theorem tri_signRequest (lib : Lib) (h : lib.Good) (pc : Option Nat) (ps : Option (List Int)) (certs : Option Nat) :
    Tri [] [] (signRequest lib pc ps certs) fun b => [binR b] := by
  unfold signRequest
  refine Tri.bind (tri_verifyV lib h pc ps) fun r => ?_
  obtain ⟨_ | p, l⟩ := r <;> dsimp only [one]
  · exact Tri.pure (by simp [binR])
  tstep
  · tstep; exact Tri.pure (by simp [binR])
  tstep
  · tstep; exact Tri.pure (by simp [binR])
  tstep
  tstep
  · tstep; tstep; exact Tri.pure (by simp [binR])
  tbin tri_signVoucher lib h _ certs
  · tstep; tstep; exact Tri.pure (by simp [binR])
  · tstep; tstep; tsteps

/-! ## Programs that may lose something -/

/-- `Tri` with some more references left, as allowed by `E` (/repo/src/voucher/request.c:270-273). -/
def TriX {α : Type} (B : List Ref) (L : List (List Ref)) (p : Prog α) (R : α → List (List Ref))
    (E : α → List Ref → Prop) : Prop :=
  ∀ s0 s, Live s0 B → Owns s0 s L.flatten →
    ∃ a s' X, p s = .ok (a, s') ∧ E a X ∧ Owns s0 s' ((R a).flatten ++ X)

theorem Tri.toX {α : Type} {B : List Ref} {L : List (List Ref)} {p : Prog α} {R : α → List (List Ref)}
    {E : α → List Ref → Prop} (h : Tri B L p R) (he : ∀ a, E a []) : TriX B L p R E := by
  intro s0 s hb ho
  obtain ⟨a, s', e, o⟩ := h s0 s hb ho
  exact ⟨a, s', [], e, he a, by simpa using o⟩

theorem Tri.bindX {α β : Type} {B : List Ref} {L : List (List Ref)} {p : Prog α} {f : α → Prog β}
    {R : α → List (List Ref)} {Q : β → List (List Ref)} {E : β → List Ref → Prop} (hp : Tri B L p R)
    (hf : ∀ a, TriX B (R a) (f a) Q E) : TriX B L (p >>= f) Q E := by
  intro s0 s hb ho
  obtain ⟨a, s1, e1, o1⟩ := hp s0 s hb ho
  obtain ⟨b, s2, X, e2, he, o2⟩ := hf a s0 s1 hb o1
  refine ⟨b, s2, X, ?_, he, o2⟩
  rw [bind_run, e1]; exact e2

/-- A loss can also be stated as part of what is left. -/
theorem TriX.bind {α β : Type} {B : List Ref} {L : List (List Ref)} {p : Prog α} {f : α → Prog β}
    {R : α → List (List Ref)} {Q : β → List (List Ref)} {E : α → List Ref → Prop} {F : β → List Ref → Prop}
    (hp : TriX B L p R E) (hf : ∀ a X, E a X → TriX B (R a ++ [X]) (f a) Q F) : TriX B L (p >>= f) Q F := by
  intro s0 s hb ho
  obtain ⟨a, s1, X, e1, he, o1⟩ := hp s0 s hb ho
  obtain ⟨b, s2, Y, e2, hf', o2⟩ := hf a X he s0 s1 hb (by simpa using o1)
  refine ⟨b, s2, Y, ?_, hf', o2⟩
  rw [bind_run, e1]; exact e2

theorem TriX.pure {α : Type} {B : List Ref} {L : List (List Ref)} {a : α} {R : α → List (List Ref)}
    {E : α → List Ref → Prop} (X : List Ref) (he : E a X) (h : L.flatten.Perm ((R a).flatten ++ X)) :
    TriX B L (Pure.pure a) R E := fun _ s _ ho => ⟨a, s, X, rfl, he, ho.perm h⟩

theorem TriX.perm {α : Type} {B : List Ref} {L M : List (List Ref)} {p : Prog α} {R : α → List (List Ref)}
    {E : α → List Ref → Prop} (h : L.flatten.Perm M.flatten) (hp : TriX B M p R E) : TriX B L p R E :=
  fun s0 s hb ho => hp s0 s hb (ho.perm h)

theorem TriX.frame {α : Type} {B B' : List Ref} {F : List (List Ref)} {p : Prog α} {R : α → List (List Ref)}
    {E : α → List Ref → Prop} (hp : TriX B' [] p R E) (hb : ∀ r ∈ B', r ∈ B ∨ r ∈ F.flatten) :
    TriX B F p (fun a => R a ++ F) E := by
  intro s0 s hl ho
  let t0 : St := ⟨s0.tape, s0.pos, s0.next, s.kind, fun i => s0.cnt i + times F.flatten i, s0.gap⟩
  have ho' : Owns t0 s ([] : List (List Ref)).flatten :=
    ⟨fun i => by rw [ho.cnt]; show _ = s0.cnt i + times F.flatten i + _; simp, fun r hr => by simp at hr,
      fun _ _ => rfl, ho.unused, ho.mono, fun r hr => by simp at hr⟩
  have hl' : Live t0 B' := by
    intro r hr
    rcases hb r hr with h | h
    · have ⟨h1, h2⟩ := hl r h
      exact ⟨by show 0 < s0.cnt r.2 + _; omega, by show s.kind r.2 = _; rw [ho.old _ h1]; exact h2⟩
    · have := times_pos h
      exact ⟨by show 0 < s0.cnt r.2 + _; omega, ho.kinds r h⟩
  obtain ⟨a, s', X, e, he, o⟩ := hp t0 s hl' ho'
  refine ⟨a, s', X, e, he, ?_⟩
  rw [List.flatten_append]
  refine ⟨fun i => ?_, fun r hr => ?_, fun i hi => ?_, o.unused, o.mono, fun r hr => ?_⟩
  · rw [o.cnt]; simp only [times_append]; show s0.cnt i + times F.flatten i + _ = _; omega
  · simp only [List.mem_append] at hr
    rcases hr with (h | h) | h
    · exact o.kinds r (by simp [h])
    · have := times_pos h
      rw [o.old r.2 (by show 0 < s0.cnt r.2 + _; omega)]
      exact ho.kinds r h
    · exact o.kinds r (by simp [h])
  · rw [o.old i (by show 0 < s0.cnt i + _; omega)]; exact ho.old i hi
  · simp only [List.mem_append] at hr
    rcases hr with (h | h) | h
    · exact o.new r (by simp [h])
    · exact ho.new r h
    · exact o.new r (by simp [h])

theorem Con.issueEnd {l : Option ArrList} {v p m : Option Id} :
    Con (Res.issueEnd l v p m) (arrR l ++ (memR v ++ (memR p ++ memR m))) :=
  Con.seq Con.freeArrO (Con.seq Con.memO (Con.seq Con.memO Con.memO))

/-- What `verify_cms_voucher` may lose: the data of a message whose signers' certificates cannot be
extracted (/repo/src/voucher/voucher.c:1027-1032). -/
def lostData (r : Option Id × Option ArrList) (X : List Ref) : Prop :=
  X = [] ∨ r.1 = none ∧ ∃ d, X = memR d

theorem trix_verifyVoucher (lib : Lib) (h : lib.Good) (ho : lib.signersOwned = true) (hcp : ∀ k, lib.copy k = true)
    (certs : Option Nat) (store : Option (List Int)) (out : Bool) :
    TriX [] [] (verifyVoucher lib certs store out) (fun r => [memR r.1, arrR r.2]) lostData := by
  unfold verifyVoucher
  refine Tri.bindX (tri_verifyCms lib h certs store out fun _ => ⟨ho, hcp⟩) fun r => ?_
  obtain ⟨ok, d, l⟩ := r
  rcases ok with _ | _ <;> dsimp only
  · exact TriX.pure (memR d) (.inr ⟨rfl, d, rfl⟩) (by cases l <;> cases d <;> simp only [verR] <;> rperm)
  · refine Tri.toX ?_ fun _ => .inl rfl
    refine Tri.bind Tri.mk fun o => ?_
    cases o <;> dsimp only
    all_goals
      refine Tri.conP (M := [memR _, arrR l]) Con.memO ?_ fun _ => Tri.ret rfl
      cases l <;> cases d <;> simp only [verR] <;> rperm

/-- What `sign_masa_pledge_voucher` may lose when it returns NULL
(/repo/src/voucher/request.c:270-273). -/
def lostIssue (r : Option Bin) (X : List Ref) : Prop := X = [] ∨ r = none ∧ ∃ d l, X = memR d ++ arrR l

theorem memR_some (v : Id) : memR (some v) = [(.mem, v)] := rfl
theorem memR_none : memR none = [] := rfl

theorem trix_issue (lib : Lib) (h : lib.Good) (ho : lib.signersOwned = true) (hcp : ∀ k, lib.copy k = true)
    (rc : Option Nat) (rs : Option (List Int)) (pc : Option Nat) (ps : Option (List Int)) (add : Option Nat) :
    TriX [] [] (issue lib rc rs pc ps add) (fun b => [binR b]) lostIssue := by
  unfold issue
  refine TriX.bind (trix_verifyVoucher lib h ho hcp rc rs true) fun r X hX => ?_
  obtain ⟨_ | v, l⟩ := r <;> dsimp only
  · rcases hX with rfl | ⟨_, d, rfl⟩
    · exact TriX.pure (arrR l) (.inr ⟨rfl, none, l, rfl⟩) (by simp [memR, one, binR])
    · refine TriX.pure (memR d ++ arrR l) (.inr ⟨rfl, d, l, rfl⟩) ?_
      simpa [memR_none, binR] using List.perm_append_comm
  obtain rfl : X = [] := by
    rcases hX with h | ⟨hv, _⟩
    · exact h
    · cases hv
  refine Tri.toX ?_ fun _ => .inl rfl
  refine Tri.perm (M := [[(.mem, v)], arrR l]) (by simp [memR, one]) ?_
  tstep
  · exact Tri.conP (M := []) Con.issueEnd (by rperm) fun _ => Tri.pure (by simp [binR])
  refine Tri.bind (Tri.call (tri_verifyV lib h pc ps) (by simp)) fun q => ?_
  obtain ⟨_ | p, l'⟩ := q <;> dsimp only [one, List.cons_append, List.nil_append]
  · exact Tri.conP (M := []) Con.issueEnd (by rperm) fun _ => Tri.pure (by simp [binR])
  tstep
  · exact Tri.conP (M := []) Con.issueEnd (by rperm) fun _ => Tri.pure (by simp [binR])
  tstep
  · exact Tri.conP (M := []) Con.issueEnd (by rperm) fun _ => Tri.pure (by simp [binR])
  tstep
  tstep
  · exact Tri.conP (M := []) Con.issueEnd (by rperm) fun _ => Tri.pure (by simp [binR])
  tstep
  · exact Tri.conP (M := []) Con.issueEnd (by rperm) fun _ => Tri.pure (by simp [binR])
  tstep
  rename_i b
  cases b <;> dsimp only
  · tstep
    exact Tri.conP (M := []) Con.issueEnd (by rperm) fun _ => Tri.pure (by simp [binR])
  tstep
  tstep
  · exact Tri.conP (M := []) Con.issueEnd (by rperm) fun _ => Tri.pure (by simp [binR])
  tbin tri_signVoucher lib h _ add
  · exact Tri.conP (M := []) Con.issueEnd (by rperm) fun _ => Tri.pure (by simp [binR])
  · rename_i cms
    exact Tri.conP (M := [binR (some cms)]) Con.issueEnd (by rperm) fun _ => Tri.ret rfl

/-- What a list holds after a push that may fail (/repo/src/voucher/array.c:57-88). -/
def pushed (l : Option ArrList) : Option ArrList → List Ref
  | none => arrR l
  | some l' => arrRefs l'

theorem tri_pushArrO (lib : Lib) (hcp : ∀ k, lib.copy k = true) {B : List Ref} {L : List (List Ref)} (l : Option ArrList)
    (cp : Id) (h : (Kind.mem, cp) ∈ L.flatten) : Tri B (arrR l :: L) (pushArrO lib l cp) fun o => pushed l o :: L := by
  unfold pushArrO
  rcases l with _ | l <;> dsimp only
  · exact Tri.ret rfl
  unfold pushArr
  tstep
  · exact Tri.ret rfl
  refine Tri.bind (Tri.use (.inr (by simp [h]))) fun _ => ?_
  rw [hcp]; dsimp only
  refine Tri.bind Tri.fresh fun c => Tri.pure ?_
  rename_i el _
  have := (arrRefs_push l el c).append_right L.flatten
  simp only [pushed, arrR, arrO, List.flatten_cons, List.flatten_nil, List.append_nil, List.cons_append, List.nil_append]
    at this ⊢
  exact this

/-- What `verify_masa_pledge_voucher` may lose when it fails: the data of the message or the copy of the
pinned certificate (/repo/src/voucher/request.c:547-553). -/
def lostAccept (r : Accepted) (X : List Ref) : Prop := X = [] ∨ r.ok = false ∧ ∃ d, X = memR d

theorem trix_accept (lib : Lib) (h : lib.Good) (ho : lib.signersOwned = true) (hcp : ∀ k, lib.copy k = true)
    (certs : Option Nat) (store dom : Option (List Int)) (out : Bool) :
    TriX [] [] (accept lib certs store dom out) (fun r => [arrR r.certs, memR r.pin]) lostAccept := by
  unfold accept
  refine TriX.bind (trix_verifyVoucher lib h ho hcp certs store out) fun r X hX => ?_
  obtain ⟨_ | v, l⟩ := r <;> dsimp only
  · rcases hX with rfl | ⟨_, d, rfl⟩
    · exact TriX.pure [] (.inl rfl) (by simp [memR, one])
    · exact TriX.pure (memR d) (.inr ⟨rfl, d, rfl⟩) (by simp [memR_none])
  obtain rfl : X = [] := by
    rcases hX with h | ⟨hv, _⟩
    · exact h
    · cases hv
  refine TriX.perm (M := [[(.mem, v)], arrR l]) (by simp [memR, one]) ?_
  refine Tri.bindX (tri_setAttrs (by simp) _) fun b => ?_
  cases b <;> dsimp only
  · refine Tri.toX ?_ fun _ => .inl rfl
    tstep; exact Tri.pure (by simp [memR, one])
  refine Tri.bindX Tri.mk fun o => ?_
  rcases o with _ | cp <;> dsimp only [one, List.nil_append, List.cons_append]
  · refine Tri.toX ?_ fun _ => .inl rfl
    tstep; exact Tri.pure (by simp [memR, one])
  refine Tri.bindX (R := fun o => arrR o :: [[(.mem, cp)], [(.mem, v)], arrR l]) (Tri.bind Tri.mk fun o => ?_) fun o => ?_
  · cases o
    · exact Tri.pure (by simp [one, arrR, arrO])
    · exact Tri.pure (by simp [one, arrR, arrO, arrRefs, arrEls])
  refine Tri.bindX (tri_pushArrO lib hcp o cp (by simp)) fun o' => ?_
  rcases o' with _ | li <;> dsimp only [pushed]
  · refine Tri.bindX (Tri.con0 Con.freeArrO) fun _ => ?_
    refine Tri.bindX (Tri.con1 Con.drop) fun _ => ?_
    exact TriX.pure (memR (some cp)) (.inr ⟨rfl, some cp, rfl⟩) (by simpa [memR, one] using List.perm_append_comm (l₁ := [_]))
  refine Tri.toX ?_ fun _ => .inl rfl
  tstep
  refine Tri.bind (Tri.call (tri_verifyCert lib h _ dom) (by simp)) fun b => ?_
  cases b <;> dsimp only [List.nil_append]
  · tstep; tstep; exact Tri.pure (by simp [memR, one])
  tstep; tstep
  · tstep; exact Tri.pure (by simp [memR, one])
  · rename_i pin
    tstep; exact Tri.pure (by simpa [memR, one] using List.perm_append_comm (l₁ := [_]))

/-! ## Files -/

theorem Tri.binX {B : List Ref} {L : List (List Ref)} {p : Prog (Option Bin)} (hp : Tri [] [] p binRefs) :
    Tri B L p fun b => binR b :: L := Tri.post (Tri.call hp (by simp)) fun b => by simp [binRefs_flat]

/-- What the caller of `load_cert_files` has to release (/repo/src/brski/config.c:673-710): nothing after a
failure. -/
def loadR (r : Bool × Option ArrList) : List Ref := if r.1 then arrR r.2 else []

theorem tri_loadLoop (lib : Lib) (hcp : ∀ k, lib.copy k = true) {B : List Ref} {L : List (List Ref)} : ∀ es l,
    Tri B (arrRefs l :: L) (loadLoop lib l es) fun r => loadR r :: L := by
  intro es
  induction es with
  | nil => intro l; exact Tri.pure (by simp [loadR, arrR, arrO])
  | cons e es ih =>
    intro l
    cases e <;> unfold loadLoop
    · refine Tri.bind Tri.fresh fun hd => Tri.bind Tri.fresh fun a => Tri.bind Tri.fresh fun el => ?_
      refine Tri.bind (Tri.use (by simp)) fun _ => ?_
      rw [hcp]; dsimp only
      refine Tri.bind Tri.fresh fun cp => ?_
      refine Tri.conP (M := arrRefs ⟨l.hd, l.els ++ [(el, cp)]⟩ :: L) Con.freeBin ?_ fun _ => ih _
      have := (arrRefs_push l el cp).append_right L.flatten
      refine List.Perm.trans ?_ (List.Perm.append_left _ this)
      rperm
    · tstep; exact Tri.pure (by simp [loadR])
    · refine Tri.bind Tri.fresh fun hd => Tri.bind Tri.fresh fun a => ?_
      refine Tri.conP (M := arrRefs l :: L) Con.freeBin (by rperm) fun _ => ?_
      tstep; exact Tri.pure (by simp [loadR])

theorem tri_loadCerts (lib : Lib) (hcp : ∀ k, lib.copy k = true) {B : List Ref} {L : List (List Ref)}
    (o : Option (List Entry)) : Tri B L (loadCerts lib o) fun r => loadR r :: L := by
  rcases o with _ | _ | ⟨e, es⟩
  · exact Tri.pure (by simp [loadR, arrR, arrO])
  · exact Tri.pure (by simp [loadR, arrR, arrO])
  · unfold loadCerts
    tstep
    · exact Tri.pure (by simp [loadR])
    · rename_i hd
      refine Tri.perm (M := arrRefs ⟨hd, []⟩ :: L) (by simp [arrRefs, arrEls]) ?_
      exact tri_loadLoop lib hcp _ _

end Brski.Res
