import Verif.PropsEnroll
import Verif.PropsConcurrent

/-!
# C108: answers do not depend on what was served before

The handlers of a server share the heap, and those of the MASA the pointer `context->ldevid_ca_cert`, which is left stale by
every request (/repo/src/brski/masa/masa_api.cpp:94,159,172).  Two runs of a handler on different heaps are compared step by
step: the pointers they make differ, but by the same distance.
-/

namespace Brski.Props
open Outcome Brski.Voucher VoucherJson Crypto BoolTime Request Base64 Brski.Spec Server

/-! ## Specification -/

/-- What a client and the log file see of a request (/repo/src/brski/registrar/registrar_api.cpp:135-432). -/
structure Answered where
  status : Nat
  body : Bytes
  log : Bytes
deriving Repr, DecidableEq

/-- A request to the registrar with everything it meets: the files may change, the clock runs on, the MASA answers as it
likes (/repo/src/brski/registrar/registrar_server.cpp:26-46). -/
inductive RegistrarReq (O : Ossl) where
  | voucher (e : RegEnv) (body : Bytes)
  | enrol (e : EnrollEnv O) (client : Option O.Cert) (body : Bytes)

/-- The registrar answers one request on a heap (/repo/src/brski/registrar/registrar_server.cpp:26-46). -/
def RegistrarReq.serve {O : Ossl} : RegistrarReq O → Heap → Outcome (Heap × Answered)
  | .voucher e body, h => (registrarRequestVoucher O e body h).bind fun r => .ok (r.heap, ⟨r.status, r.body, []⟩)
  | .enrol e client body, h => (simpleEnroll O e client body h).bind fun r => .ok (r.heap, ⟨r.status, r.body, r.log⟩)

/-- The registrar answers one request after the other (/repo/src/brski/registrar/registrar_server.cpp:26-46). -/
def serveRegistrar {O : Ossl} : List (RegistrarReq O) → Heap → Outcome (List Answered)
  | [], _ => .ok []
  | q :: qs, h => (q.serve h).bind fun r => (serveRegistrar qs r.1).bind fun as => .ok (r.2 :: as)

/-- Every request is answered by a registrar that has just been started
(/repo/src/brski/registrar/registrar_server.cpp:26-46). -/
def freshRegistrar {O : Ossl} : List (RegistrarReq O) → Outcome (List Answered)
  | [] => .ok []
  | q :: qs => (q.serve Heap.empty).bind fun r => (freshRegistrar qs).bind fun as => .ok (r.2 :: as)

/-- The MASA answers one request after the other (/repo/src/brski/masa/masa_server.cpp:73-90). -/
def serveMasa (O : Ossl) : List (MasaEnv × Bytes) → Heap → Option Nat → Outcome (List (Nat × Bytes))
  | [], _, _ => .ok []
  | q :: qs, h, ctx =>
    (masaRequestVoucher O q.1 q.2 h ctx).bind fun r => (serveMasa O qs r.heap r.ctx).bind fun as => .ok ((r.status, r.body) :: as)

/-- Every request is answered by a MASA that has just been started (/repo/src/brski/masa/masa_server.cpp:73-90). -/
def freshMasa (O : Ossl) : List (MasaEnv × Bytes) → Outcome (List (Nat × Bytes))
  | [] => .ok []
  | q :: qs =>
    (masaRequestVoucher O q.1 q.2 Heap.empty none).bind fun r => (freshMasa O qs).bind fun as => .ok ((r.status, r.body) :: as)

/-! ## Two heaps in step -/

/-- Two outcomes that agree in being defined, with related results. -/
inductive Both {α β : Type} (R : α → β → Prop) : Outcome α → Outcome β → Prop where
  | ub : Both R .ub .ub
  | ok {x y} : R x y → Both R (.ok x) (.ok y)

theorem Both.bind {α β γ δ : Type} {R : α → β → Prop} {S : γ → δ → Prop} {x : Outcome α} {y : Outcome β} {f : α → Outcome γ}
    {g : β → Outcome δ} (h : Both R x y) (hf : ∀ u v, R u v → Both S (f u) (g v)) : Both S (x.bind f) (y.bind g) := by
  cases h with
  | ub => exact .ub
  | ok h => exact hf _ _ h

theorem Both.refl {α : Type} (x : Outcome α) : Both Eq x x := by
  cases x with
  | ub => exact .ub
  | ok a => exact .ok rfl

/-- `h` came from `a` as `k` came from `b`. -/
structure Tied (a b h k : Heap) : Prop where
  wfh : h.Wf
  wfk : k.Wf
  len : ∃ n, h.next = a.next + n ∧ k.next = b.next + n
  blk : ∀ i, h.blk (a.next + i) = k.blk (b.next + i)

/-- Pointers made by the same step. -/
inductive TiedP (a b : Heap) : Option Nat → Option Nat → Prop where
  | null : TiedP a b none none
  | ptr (i : Nat) : TiedP a b (some (a.next + i)) (some (b.next + i))

/-- Lists of such pointers. -/
inductive TiedL (a b : Heap) : List (Option Nat) → List (Option Nat) → Prop where
  | nil : TiedL a b [] []
  | cons {p q ps qs} : TiedP a b p q → TiedL a b ps qs → TiedL a b (p :: ps) (q :: qs)

theorem TiedL.append {a b : Heap} {ps qs rs ss : List (Option Nat)} (h : TiedL a b ps qs) (h' : TiedL a b rs ss) :
    TiedL a b (ps ++ rs) (qs ++ ss) := by
  induction h with
  | nil => exact h'
  | cons hp _ ih => exact .cons hp ih

theorem wf_none {h : Heap} (hw : h.Wf) {p : Nat} (hp : h.next ≤ p) : h.blk p = none := by
  cases e : h.blk p with
  | none => rfl
  | some b => exact absurd (hw p (by simp [Heap.Live, e])) (by omega)

theorem tied_start {a b : Heap} (ha : a.Wf) (hb : b.Wf) : Tied a b a b :=
  ⟨ha, hb, ⟨0, rfl, rfl⟩, fun i => by rw [wf_none ha (by omega), wf_none hb (by omega)]⟩

theorem tied_alloc {a b h k : Heap} (t : Tied a b h k) (x : Bytes) :
    Tied a b (h.alloc x).1 (k.alloc x).1 ∧ TiedP a b (some (h.alloc x).2) (some (k.alloc x).2) := by
  obtain ⟨n, h1, h2⟩ := t.len
  refine ⟨⟨Heap.alloc_wf t.wfh x, Heap.alloc_wf t.wfk x, ⟨n + 1, ?_, ?_⟩, fun i => ?_⟩, ?_⟩
  · show h.next + 1 = _; omega
  · show k.next + 1 = _; omega
  · rw [Heap.alloc_blk, Heap.alloc_blk, h1, h2]
    by_cases hi : i = n
    · rw [if_pos (by omega), if_pos (by omega)]
    · rw [if_neg (by omega), if_neg (by omega)]; exact t.blk i
  · show TiedP a b (some h.next) (some k.next)
    rw [h1, h2]; exact .ptr n

theorem tied_burn {a b h k : Heap} (t : Tied a b h k) :
    Tied a b (burn h).1 (burn k).1 ∧ TiedP a b (some (burn h).2) (some (burn k).2) := by
  obtain ⟨n, h1, h2⟩ := t.len
  refine ⟨⟨fun p hp => ?_, fun p hp => ?_, ⟨n + 1, ?_, ?_⟩, t.blk⟩, ?_⟩
  · have := t.wfh p hp; show p < h.next + 1; omega
  · have := t.wfk p hp; show p < k.next + 1; omega
  · show h.next + 1 = _; omega
  · show k.next + 1 = _; omega
  · show TiedP a b (some h.next) (some k.next)
    rw [h1, h2]; exact .ptr n

theorem free_wf {h : Heap} (hw : h.Wf) (p : Nat) : Heap.Wf ⟨h.next, fun q => if q = p then none else h.blk q⟩ := by
  intro q hq
  simp only [Heap.Live] at hq
  split at hq
  · exact absurd rfl hq
  · exact hw q hq

theorem tied_free {a b h k : Heap} (t : Tied a b h k) {p q : Option Nat} (hp : TiedP a b p q) :
    Both (Tied a b) (h.freePtr p) (k.freePtr q) := by
  cases hp with
  | null => exact .ok t
  | ptr i =>
    have hb := t.blk i
    simp only [Heap.freePtr, Heap.free]
    cases e : h.blk (a.next + i) with
    | none => rw [← hb, e]; exact .ub
    | some x =>
      rw [← hb, e]
      refine .ok ⟨free_wf t.wfh _, free_wf t.wfk _, t.len, fun j => ?_⟩
      by_cases hj : j = i
      · simp only [hj, if_true]
      · simp only; rw [if_neg (by omega), if_neg (by omega)]; exact t.blk j

theorem tied_freeAll {a b : Heap} {ps qs : List (Option Nat)} (hl : TiedL a b ps qs) :
    ∀ {h k : Heap}, Tied a b h k → Both (Tied a b) (freeAll h ps) (freeAll k qs) := by
  induction hl with
  | nil => intro h k t; exact .ok t
  | cons hp _ ih => intro h k t; exact (tied_free t hp).bind fun _ _ t' => ih t'

theorem tied_read {a b h k : Heap} (t : Tied a b h k) (i : Nat) : h.read (a.next + i) = k.read (b.next + i) := by
  simp only [Heap.read, t.blk i]

/-- Heaps in step with a pointer made last. -/
def TiedR (a b : Heap) (r s : Heap × Option Nat) : Prop := Tied a b r.1 s.1 ∧ TiedP a b r.2 s.2

theorem tied_readFile {a b h k : Heap} (t : Tied a b h k) (f : FileRes) :
    Both (TiedR a b) (readFile h f) (readFile k f) := by
  cases f with
  | unset => exact .ub
  | bad => exact .ok ⟨t, .null⟩
  | der x => exact .ok (tied_alloc t x)

theorem tied_loadList {a b h k : Heap} (t : Tied a b h k) (l : Loaded) :
    Tied a b (loadList h l).1 (loadList k l).1 ∧ TiedP a b (loadList h l).2.1 (loadList k l).2.1 ∧
      (loadList h l).2.2 = (loadList k l).2.2 := by
  cases l with
  | absent => exact ⟨t, .null, rfl⟩
  | list c => exact ⟨(tied_alloc t []).1, (tied_alloc t []).2, rfl⟩
  | noMem => exact ⟨t, .null, rfl⟩
  | freed => exact ⟨(tied_burn t).1, (tied_burn t).2, rfl⟩

theorem tied_loadLists {a b : Heap} (ls : List Loaded) : ∀ {h k : Heap}, Tied a b h k →
    Tied a b (loadLists h ls).1 (loadLists k ls).1 ∧ TiedL a b (loadLists h ls).2.1 (loadLists k ls).2.1 ∧
      (loadLists h ls).2.2 = (loadLists k ls).2.2 := by
  induction ls with
  | nil => intro h k t; exact ⟨t, .nil, rfl⟩
  | cons l ls ih =>
    intro h k t
    obtain ⟨t1, t2, t3⟩ := tied_loadList t l
    simp only [loadLists, ← t3]
    split
    · obtain ⟨i1, i2, i3⟩ := ih t1
      exact ⟨i1, .cons t2 i2, i3⟩
    · exact ⟨t1, .cons t2 .nil, rfl⟩

theorem tied_regLists {a b : Heap} (ls : List Loaded) : ∀ {h k : Heap} {ps qs : List (Option Nat)}, Tied a b h k → TiedL a b ps qs →
    Tied a b (regLists h ps ls).1 (regLists k qs ls).1 ∧ TiedL a b (regLists h ps ls).2.1 (regLists k qs ls).2.1 ∧
      (regLists h ps ls).2.2 = (regLists k qs ls).2.2 := by
  induction ls with
  | nil => intro h k ps qs t hl; exact ⟨t, hl, rfl⟩
  | cons l ls ih =>
    intro h k ps qs t hl
    obtain ⟨t1, t2, t3⟩ := tied_loadList t l
    simp only [regLists, ← t3]
    split
    · exact ih t1 (.cons t2 hl)
    · exact ⟨t1, hl, rfl⟩

/-- Decoded bodies in step. -/
structure TiedB (a b : Heap) (r s : Body) : Prop where
  heap : Tied a b r.heap s.heap
  ret : r.ret = s.ret
  ptr : TiedP a b r.ptr s.ptr
  bytes : r.bytes = s.bytes

theorem tied_decode {a b h k : Heap} (t : Tied a b h k) (al : Allocator) (blk body : Bytes) :
    Both (TiedB a b) (decodeBody al blk h body) (decodeBody al blk k body) := by
  unfold decodeBody
  refine (Both.refl _).bind fun u v e => ?_
  cases e
  split
  · exact .ok ⟨(tied_alloc t _).1, rfl, (tied_alloc t _).2, rfl⟩
  · exact .ok ⟨t, rfl, .null, rfl⟩
  · exact .ok ⟨(tied_burn t).1, rfl, (tied_burn t).2, rfl⟩
  · exact .ub

theorem TiedB.arr {a b : Heap} {r s : Body} (t : TiedB a b r s) : r.arr = s.arr := by
  unfold Body.arr
  rw [t.ret, t.bytes]

/-! ## The handlers on two heaps -/

/-- The same answer, on heaps that can be used on. -/
structure SameReply (r s : Reply) : Prop where
  wfh : r.heap.Wf
  wfk : s.heap.Wf
  status : r.status = s.status
  body : r.body = s.body

theorem tied_regReturn {a b h k : Heap} (t : Tied a b h k) {ps qs : List (Option Nat)} (hl : TiedL a b ps qs) (s : Nat) (x : Bytes) :
    Both SameReply (regReturn h ps s x) (regReturn k qs s x) :=
  (tied_freeAll hl t).bind fun _ _ t' => .ok ⟨t'.wfh, t'.wfk, rfl, rfl⟩

theorem tied_regForward {a b h k : Heap} (t : Tied a b h k) {ps qs : List (Option Nat)} (hl : TiedL a b ps qs) (O : Ossl) (e : RegEnv)
    (tm : Tm) (serial issuer : Bytes) (req : BinArr) :
    Both SameReply (regForward O e tm serial issuer req h ps) (regForward O e tm serial issuer req k qs) := by
  unfold regForward
  refine (Both.refl _).bind fun u v hu => ?_
  cases hu
  cases u with
  | none => exact tied_regReturn t hl _ _
  | some v =>
    simp only
    refine (Both.refl _).bind fun u v hu => ?_
    cases hu
    have ta := tied_alloc t v
    cases u with
    | none => exact tied_regReturn ta.1 (.cons ta.2 hl) _ _
    | some r => exact tied_regReturn ta.1 (.cons ta.2 hl) _ _

/-- The registrar's answer to a voucher request does not depend on the heap, nor does whether it is defined. -/
theorem registrar_anyHeap (O : Ossl) (e : RegEnv) (body : Bytes) {a b : Heap} (ha : a.Wf) (hb : b.Wf) :
    Both SameReply (registrarRequestVoucher O e body a) (registrarRequestVoucher O e body b) := by
  unfold registrarRequestVoucher
  have t := tied_start ha hb
  split
  · split
    · exact .ok ⟨ha, hb, rfl, rfl⟩
    · split
      · exact .ok ⟨ha, hb, rfl, rfl⟩
      · rename_i serial _ _ issuer _
        simp only
        split
        · have t1 := tied_alloc t issuer
          have t2 := tied_alloc t1.1 []
          refine (tied_decode t2.1 e.al e.blk body).bind fun u v tb => ?_
          have l0 : TiedL a b [u.ptr, some ((a.alloc issuer).1.alloc []).2, some (a.alloc issuer).2]
              [v.ptr, some ((b.alloc issuer).1.alloc []).2, some (b.alloc issuer).2] :=
            .cons tb.ptr (.cons t2.2 (.cons t1.2 .nil))
          split
          · exact tied_regReturn tb.heap l0 _ _
          · rename_i tm _
            refine (tied_readFile tb.heap e.tlsCert).bind fun f g tf => ?_
            obtain ⟨fh, fp⟩ := f
            obtain ⟨gh, gp⟩ := g
            obtain ⟨tf, tp⟩ := tf
            cases tp with
            | null => exact tied_regReturn tf l0 _ _
            | ptr i =>
              simp only at tf ⊢
              refine (tied_readFile tf e.signCert).bind fun f g tc => ?_
              obtain ⟨fh, fp⟩ := f
              obtain ⟨gh, gp⟩ := g
              obtain ⟨tc, tp⟩ := tc
              cases tp with
              | null => exact tied_regReturn tc (.cons (.ptr i) l0) _ _
              | ptr j =>
                simp only at tc ⊢
                refine (tied_readFile tc e.signKey).bind fun f g tk => ?_
                obtain ⟨fh, fp⟩ := f
                obtain ⟨gh, gp⟩ := g
                obtain ⟨tk, tp⟩ := tk
                cases tp with
                | null => exact tied_regReturn tk (.cons (.ptr j) (.cons (.ptr i) l0)) _ _
                | ptr m =>
                  simp only at tk ⊢
                  obtain ⟨r1, r2, r3⟩ := tied_regLists [e.pledgeCerts, e.pledgeStore, e.additional] tk
                    (.cons (.ptr m) (.cons (.ptr j) (.cons (.ptr i) l0)))
                  rw [r3, tb.arr]
                  split
                  · exact tied_regForward r1 r2 O e tm serial issuer _
                  · exact tied_regReturn r1 r2 _ _
        · exact .ub
  · exact .ok ⟨ha, hb, rfl, rfl⟩

/-- The same answer to an enrolment and the same text for the log. -/
structure SameEnrol (r s : EnrollReply) : Prop where
  wfh : r.heap.Wf
  wfk : s.heap.Wf
  status : r.status = s.status
  body : r.body = s.body
  log : r.log = s.log

theorem tied_enrollFail {a b h k : Heap} (t : Tied a b h k) {ps qs : List (Option Nat)} (hl : TiedL a b ps qs) :
    Both SameEnrol (enrollFail h ps) (enrollFail k qs) :=
  (tied_freeAll hl t).bind fun _ _ t' => .ok ⟨t'.wfh, t'.wfk, rfl, rfl, rfl⟩

/-- The registrar's answer to an enrolment does not depend on the heap, nor does whether it is defined. -/
theorem enrol_anyHeap (O : Ossl) (e : EnrollEnv O) (client : Option O.Cert) (body : Bytes) {a b : Heap} (ha : a.Wf) (hb : b.Wf) :
    Both SameEnrol (simpleEnroll O e client body a) (simpleEnroll O e client body b) := by
  unfold simpleEnroll
  refine (tied_decode (tied_start ha hb) e.al e.blk body).bind fun u v tb => ?_
  rw [← tb.ret]
  split
  · exact tied_enrollFail tb.heap (.cons tb.ptr .nil)
  · refine (tied_readFile tb.heap e.caCert).bind fun f g tf => ?_
    obtain ⟨fh, fp⟩ := f
    obtain ⟨gh, gp⟩ := g
    obtain ⟨tf, tp⟩ := tf
    cases tp with
    | null => exact tied_enrollFail tf (.cons tb.ptr .nil)
    | ptr i =>
      simp only at tf ⊢
      refine (tied_readFile tf e.caKey).bind fun f g tk => ?_
      obtain ⟨fh, fp⟩ := f
      obtain ⟨gh, gp⟩ := g
      obtain ⟨tk, tp⟩ := tk
      cases tp with
      | null => exact tied_enrollFail tk (.cons tb.ptr (.cons (.ptr i) .nil))
      | ptr j =>
        simp only at tk ⊢
        rw [tb.bytes]
        refine (Both.refl _).bind fun x y hx => ?_
        cases hx
        unfold enrollSigned
        cases x with
        | none => exact tied_enrollFail tk (.cons tb.ptr (.cons (.ptr i) (.cons (.ptr j) .nil)))
        | some der =>
          simp only
          have tn := tied_alloc tk der
          refine (tied_free tn.1 tb.ptr).bind fun h k th => ?_
          refine (Both.refl _).bind fun x y hx => ?_
          cases hx
          cases x with
          | none => exact tied_enrollFail th (.cons tn.2 (.cons (.ptr i) (.cons (.ptr j) .nil)))
          | some s =>
            simp only
            have ts := tied_alloc th s.1
            exact (tied_freeAll (.cons ts.2 (.cons tn.2 (.cons (.ptr i) (.cons (.ptr j) .nil)))) ts.1).bind fun _ _ t' =>
              .ok ⟨t'.wfh, t'.wfk, rfl, rfl, rfl⟩

theorem tied_masaFail {a b h k : Heap} (t : Tied a b h k) {c d : Option Nat} (hc : TiedP a b c d) {ps qs : List (Option Nat)}
    (hl : TiedL a b ps qs) : Both SameReply (masaFail h c ps) (masaFail k d qs) :=
  (tied_freeAll (.cons hc hl) t).bind fun _ _ t' => .ok ⟨t'.wfh, t'.wfk, rfl, rfl⟩

theorem tied_callback {a b h k : Heap} (t : Tied a b h k) {c d : Option Nat} (hc : TiedP a b c d) (al : Allocator) :
    voucherReqCb al h c = voucherReqCb al k d := by
  cases hc with
  | null => rfl
  | ptr i => unfold voucherReqCb; simp only [tied_read t i]

theorem tied_masaIssue {a b h k : Heap} (t : Tied a b h k) {c d cp cq kp kq mp mq : Option Nat} (hc : TiedP a b c d)
    (hcert : TiedP a b cp cq) (hkey : TiedP a b kp kq) {ps qs : List (Option Nat)} (hl : TiedL a b ps qs) (hm : TiedP a b mp mq)
    (O : Ossl) (e : MasaEnv) (tm : Tm) (req : BinArr) :
    Both SameReply (masaIssue O e tm req h c cp kp ps mp) (masaIssue O e tm req k d cq kq qs mq) := by
  unfold masaIssue
  rw [tied_callback t hc]
  refine (Both.refl _).bind fun u v hu => ?_
  cases hu
  cases u with
  | none => exact tied_masaFail t hc (.cons hcert (.cons hkey (hl.append (.cons hm .nil))))
  | some v =>
    simp only
    have tv := tied_alloc t v
    refine (Both.refl _).bind fun u w hu => ?_
    cases hu
    cases u with
    | none => exact tied_masaFail tv.1 hc (.cons hcert (.cons hkey (hl.append (.cons hm (.cons tv.2 .nil)))))
    | some s =>
      simp only
      have ts := tied_alloc tv.1 s.1
      exact (tied_freeAll (.cons ts.2 (.cons hc (.cons hkey (.cons hcert (hl.append (.cons hm (.cons tv.2 .nil))))))) ts.1).bind
        fun _ _ t' => .ok ⟨t'.wfh, t'.wfk, rfl, rfl⟩

/-- The MASA's answer does not depend on the heap nor, if the configured date of expiry can be read, on the pointer found in the
context. -/
theorem masa_anyHeap (O : Ossl) (e : MasaEnv) (body : Bytes) {a b : Heap} (ha : a.Wf) (hb : b.Wf) (c d : Option Nat)
    (hcd : e.expiresOn.bind (str2time e.lib) = none → c = none ∧ d = none) :
    Both SameReply (masaRequestVoucher O e body a c) (masaRequestVoucher O e body b d) := by
  unfold masaRequestVoucher
  have t := tied_start ha hb
  split
  · rename_i hx
    obtain ⟨rfl, rfl⟩ := hcd hx
    exact tied_masaFail t .null .nil
  · rename_i tm _
    refine (tied_decode t e.al e.blk body).bind fun u v tb => ?_
    refine (tied_readFile tb.heap e.ldevid).bind fun f g tf => ?_
    obtain ⟨fh, fp⟩ := f
    obtain ⟨gh, gp⟩ := g
    obtain ⟨tf, tp⟩ := tf
    cases tp with
    | null => exact tied_masaFail tf .null (.cons tb.ptr .nil)
    | ptr i =>
      simp only at tf ⊢
      refine (tied_readFile tf e.signCert).bind fun f g tc => ?_
      obtain ⟨fh, fp⟩ := f
      obtain ⟨gh, gp⟩ := g
      obtain ⟨tc, tp⟩ := tc
      cases tp with
      | null => exact tied_masaFail tc (.ptr i) (.cons tb.ptr .nil)
      | ptr j =>
        simp only at tc ⊢
        refine (tied_readFile tc e.signKey).bind fun f g tk => ?_
        obtain ⟨fh, fp⟩ := f
        obtain ⟨gh, gp⟩ := g
        obtain ⟨tk, tp⟩ := tk
        cases tp with
        | null => exact tied_masaFail tk (.ptr i) (.cons (.ptr j) (.cons tb.ptr .nil))
        | ptr m =>
          simp only at tk ⊢
          obtain ⟨r1, r2, r3⟩ := tied_loadLists [e.registrarCerts, e.registrarStore, e.pledgeCerts, e.pledgeStore, e.additional] tk
          rw [r3, tb.arr]
          split
          · exact tied_masaIssue r1 (.ptr i) (.ptr j) (.ptr m) r2 tb.ptr O e tm _
          · exact tied_masaFail r1 (.ptr i) (.cons (.ptr j) (.cons (.ptr m) (r2.append (.cons tb.ptr .nil))))

/-! ## Histories -/

theorem serve_anyHeap {O : Ossl} (q : RegistrarReq O) {a b : Heap} (ha : a.Wf) (hb : b.Wf) :
    Both (fun r s => r.1.Wf ∧ r.2 = s.2) (q.serve a) (q.serve b) := by
  cases q with
  | voucher e body =>
    exact (registrar_anyHeap O e body ha hb).bind fun r s t => .ok ⟨t.wfh, by simp only [t.status, t.body]⟩
  | enrol e client body =>
    exact (enrol_anyHeap O e client body ha hb).bind fun r s t => .ok ⟨t.wfh, by simp only [t.status, t.body, t.log]⟩

/-- **C108** for the registrar: whatever it served before, it answers every voucher request and every enrolment, and appends to its
log, as a registrar that has just been started; and it is undefined what a history of requests does only if that is so for one
of them alone. -/
theorem C108_registrar {O : Ossl} (qs : List (RegistrarReq O)) : ∀ (h : Heap), h.Wf → serveRegistrar qs h = freshRegistrar qs := by
  induction qs with
  | nil => intro h _; rfl
  | cons q qs ih =>
    intro h hw
    have t := serve_anyHeap q hw Heap.wf_empty
    simp only [serveRegistrar, freshRegistrar]
    generalize q.serve h = x at t ⊢
    generalize q.serve Heap.empty = y at t ⊢
    cases t with
    | ub => rfl
    | ok t => simp only [bind'_ok, ih _ t.1, t.2]

theorem masa_ctx (O : Ossl) (e : MasaEnv) (body : Bytes) (h : Heap) (r : Reply) (hx : e.expiresOn.bind (str2time e.lib) = none)
    (hr : masaRequestVoucher O e body h none = .ok r) : r.ctx = none := by
  unfold masaRequestVoucher at hr
  rw [hx] at hr
  exact (congrArg Reply.ctx (Outcome.ok.inj hr)).symm

/-- **C108** for the MASA, whose configured date of expiry does not change while it runs: whatever it served before, it answers every
request as a MASA that has just been started, although each request leaves a stale pointer behind. -/
theorem C108_masa (O : Ossl) (lib : TimeLib) (expiresOn : Option Bytes) (qs : List (MasaEnv × Bytes))
    (hq : ∀ q ∈ qs, q.1.lib = lib ∧ q.1.expiresOn = expiresOn) :
    ∀ (h : Heap) (ctx : Option Nat), h.Wf → (expiresOn.bind (str2time lib) = none → ctx = none) →
      serveMasa O qs h ctx = freshMasa O qs := by
  induction qs with
  | nil => intro h ctx _ _; rfl
  | cons q qs ih =>
    intro h ctx hw hc
    obtain ⟨h1, h2⟩ := hq q List.mem_cons_self
    have hc' : q.1.expiresOn.bind (str2time q.1.lib) = none → ctx = none := by rw [h1, h2]; exact hc
    have t := masa_anyHeap O q.1 q.2 hw Heap.wf_empty ctx none fun hx => ⟨hc' hx, rfl⟩
    simp only [serveMasa, freshMasa]
    cases hr : masaRequestVoucher O q.1 q.2 h ctx with
    | ub =>
      rw [hr] at t
      generalize masaRequestVoucher O q.1 q.2 Heap.empty none = y at t ⊢
      cases t
      rfl
    | ok r =>
      have hctx : expiresOn.bind (str2time lib) = none → r.ctx = none := by
        intro hx
        rw [hc hx] at hr
        exact masa_ctx O q.1 q.2 h r (by rw [h1, h2]; exact hx) hr
      rw [hr] at t
      generalize masaRequestVoucher O q.1 q.2 Heap.empty none = y at t ⊢
      cases t with
      | ok t =>
        simp only [bind'_ok, ih (fun q hm => hq q (List.mem_cons_of_mem _ hm)) _ _ t.wfh hctx, t.status, t.body]

/-! ## Concrete histories -/

theorem serve_enrol {O : Ossl} {e : EnrollEnv O} {client : Option O.Cert} {body : Bytes} {h : Heap} {r : EnrollReply}
    (hr : simpleEnroll O e client body h = .ok r) :
    RegistrarReq.serve (.enrol e client body) h = .ok (r.heap, ⟨r.status, r.body, r.log⟩) := by
  simp only [RegistrarReq.serve, hr, bind'_ok]

/-- Non-vacuity of `C108_registrar`: a client without serial number is refused, a voucher is passed on, a certificate is issued and
recorded; the same on every heap. -/
example (h : Heap) (hw : h.Wf) : serveRegistrar (O := toy)
    [.voucher { demoReg (fun _ => none) with serial := none } (rfc4648 demoPledgeCms),
      .voucher (demoReg fun _ => some (200, str "voucher")) (rfc4648 demoPledgeCms),
      .enrol (demoEnroll fun _ => some ⟨255, some (str "S1")⟩) (some (3 : UInt8)) (rfc4648 [5])] h =
    .ok [⟨400, [], []⟩, ⟨200, str "voucher", []⟩, ⟨200, rfc4648 [8], str "1000 0xff \"S1\" 0xff \"S1\"\n"⟩] := by
  obtain ⟨r, h1, h2, h3⟩ := demoReg_runs 200 (str "voucher")
  obtain ⟨s, g1, g2, g3, g4⟩ := demo_enrolled (fun _ => some ⟨255, some (str "S1")⟩) (some 3)
  have hl : s.log = str "1000 0xff \"S1\" 0xff \"S1\"\n" := by
    refine g4.trans ?_
    show logLine 1000 ⟨255, some (str "S1")⟩ ⟨255, some (str "S1")⟩ = _
    decide +kernel
  have h0 : registrarRequestVoucher toy { demoReg (fun _ => none) with serial := none } (rfc4648 demoPledgeCms) Heap.empty =
      .ok ⟨Heap.empty, none, 400, []⟩ := rfl
  have g : RegistrarReq.serve (O := toy) (.enrol (demoEnroll fun _ => some ⟨255, some (str "S1")⟩) (some (3 : UInt8)) (rfc4648 [5]))
      Heap.empty = .ok (s.heap, ⟨s.status, s.body, s.log⟩) :=
    serve_enrol g1
  rw [C108_registrar _ h hw]
  simp only [freshRegistrar, g]
  simp only [RegistrarReq.serve, h0, h1, h2, h3, g2, g3, hl, bind'_ok]
  rfl

/-- Non-vacuity of `C108_registrar`: a history is undefined because of the badly padded body in it. -/
example (h : Heap) (hw : h.Wf) : serveRegistrar (O := toy)
    [.enrol (demoEnroll fun _ => none) none (rfc4648 [5]), .enrol (demoEnroll fun _ => none) none (str "A")] h = .ub := by
  obtain ⟨s, g1, g2, g3, g4⟩ := demo_enrolled (fun _ => none) none
  have g : RegistrarReq.serve (O := toy) (.enrol (demoEnroll fun _ => none) none (rfc4648 [5])) Heap.empty =
      .ok (s.heap, ⟨s.status, s.body, s.log⟩) :=
    serve_enrol g1
  rw [C108_registrar _ h hw]
  simp only [freshRegistrar, g]
  simp only [RegistrarReq.serve, C41_violated_each.2, bind'_ok]
  rfl

/-- Non-vacuity of `C108_masa`: two requests are granted on any heap and with any pointer left in the context. -/
example (h : Heap) (hw : h.Wf) (ctx : Option Nat) :
    serveMasa toy [(demoMasa, rfc4648 demoRequest), (demoMasa, rfc4648 demoRequest)] h ctx =
      .ok [(200, rfc4648 (1 :: demoIssuedText)), (200, rfc4648 (1 :: demoIssuedText))] := by
  obtain ⟨r, h1, h2, h3⟩ := demoMasa_runs none
  rw [C108_masa toy demoMasa.lib demoMasa.expiresOn _ (by simp) h ctx hw (fun hx => absurd hx (by decide +kernel))]
  simp only [freshMasa, h1, h2, h3, bind'_ok]

/-- The condition of `C108_masa` is needed: if the date of expiry were lost between two requests, the second would release the
certificate of the first again, while a MASA just started answers 400. -/
theorem C108_masa_changed :
    serveMasa toy [(demoMasa, str "QQ=="), ({ demoMasa with expiresOn := none }, [])] Heap.empty none = .ub ∧
      freshMasa toy [(demoMasa, str "QQ=="), ({ demoMasa with expiresOn := none }, [])] = .ok [(400, []), (400, [])] := by
  have key : (match masaRequestVoucher toy demoMasa (str "QQ==") Heap.empty none with
      | .ok r => decide (r.status = 400 ∧ r.body = [] ∧ r.ctx = some 1 ∧ r.heap.blk 1 = none)
      | .ub => false) = true := by decide +kernel
  cases hr : masaRequestVoucher toy demoMasa (str "QQ==") Heap.empty none with
  | ub => rw [hr] at key; cases key
  | ok r =>
    rw [hr] at key
    obtain ⟨k1, k2, k3, k4⟩ := of_decide_eq_true key
    have hs : masaRequestVoucher toy { demoMasa with expiresOn := none } [] r.heap r.ctx = .ub := by
      show masaFail r.heap r.ctx [] = .ub
      rw [k3]
      simp only [masaFail, freeAll, Heap.freePtr, Heap.free, k4]
      rfl
    have hf : masaRequestVoucher toy { demoMasa with expiresOn := none } [] Heap.empty none = .ok ⟨Heap.empty, none, 400, []⟩ := rfl
    constructor
    · simp only [serveMasa, hr, hs, bind'_ok]; rfl
    · simp only [freshMasa, hr, hf, k1, k2, bind'_ok]

end Brski.Props
