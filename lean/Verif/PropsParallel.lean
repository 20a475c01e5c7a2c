import Verif.PropsResReq
import Verif.ParallelLemmas

/-!
# C105: requests served at the same time do not disturb one another's memory

The registrar serves its requests in several threads (/repo/src/brski/http/httplib.h:668-741).  What a
function does when nothing disturbs it (`Clean`, `CleanBut`: C80, C82) it does under every interleaving of
its steps with those of any number of other such functions.
-/

namespace Brski.Props
open Brski.Res Outcome

/-- Ownership as in `Clean`, up to losses allowed by `E` (/repo/src/voucher/crypto_ossl.c:60-1694). -/
def CleanBy {α : Type} (B G : List Ref) (p : Prog α) (held : α → List Ref) (E : α → List Ref → Prop) : Prop :=
  ∀ s, SoundSt s → (∀ r ∈ B ++ G, s.kind r.2 = r.1) → (∀ r ∈ B, refCount G r.2 < s.cnt r.2) →
    (∀ i, refCount G i ≤ s.cnt i) →
    ∃ a s' X, p s = .ok (a, s') ∧ SoundSt s' ∧ (∀ r ∈ held a, s'.kind r.2 = r.1) ∧ E a X ∧
      ∀ i, s'.cnt i + refCount G i = s.cnt i + refCount (held a) i + refCount X i

/-- The references of `n` threads to an object (/repo/src/brski/http/httplib.h:668-741). -/
def totalRefs (n : Nat) (L : Nat → List Ref) (i : Id) : Nat := ((List.range n).map fun j => refCount (L j) i).sum

/-- The specification for `n` threads (/repo/src/brski/http/httplib.h:668-741), thread `j` being lent `B j`
and given `G j`: at no time is the next step of any thread undefined, and when all have ended there are as
many references to each object as before, less those given away, plus those in the results and those
lost. -/
def InParallel {α : Type} (n : Nat) (ps : Nat → Prog α) (B G : Nat → List Ref) (held : Nat → α → List Ref)
    (E : Nat → α → List Ref → Prop) : Prop :=
  ∀ g : Shared, (∀ i, g.next ≤ i → g.cnt i = 0) → (∀ j < n, ∀ r ∈ B j ++ G j, g.kind r.2 = r.1) →
    (∀ j < n, ∀ r ∈ B j, totalRefs n G r.2 < g.cnt r.2) → (∀ i, totalRefs n G i ≤ g.cnt i) →
    ∀ g' ts, Reach n (g, ps) (g', ts) →
      (∀ j < n, ¬ Faults g' (ts j)) ∧
      ∀ as : Nat → α, (∀ j < n, ts j = .ret (as j)) → ∃ X : Nat → List Ref, (∀ j < n, E j (as j) (X j)) ∧
        (∀ j < n, ∀ r ∈ held j (as j), g'.kind r.2 = r.1) ∧
        ∀ i, g'.cnt i + totalRefs n G i = g.cnt i + totalRefs n (fun j => held j (as j)) i + totalRefs n X i

/-! ## Proof -/

theorem clean_by {α : Type} {B G : List Ref} {p : Prog α} {held : α → List Ref} (h : Clean B G p held) :
    CleanBy B G p held fun _ X => X = [] := by
  intro s hs hk hb hg
  obtain ⟨a, s', e, h1, h2, h3⟩ := h s hs hk hb hg
  exact ⟨a, s', [], e, h1, h2, rfl, fun i => h3 i⟩

theorem cleanBut_by {α : Type} {p : Prog α} {held : α → List Ref} {E : α → List Ref → Prop} (h : CleanBut p held E) :
    CleanBy [] [] p held E := by
  intro s hs _ _ _
  obtain ⟨a, s', X, e, h1, h2, hX, h3⟩ := h s hs
  exact ⟨a, s', X, e, h1, h2, hX, fun i => h3 i⟩

theorem total_sum (n : Nat) (L : Nat → List Ref) (i : Id) : totalRefs n L i = sumTo n fun j => refCount (L j) i := by
  unfold totalRefs
  induction n with
  | zero => rfl
  | succ n ih => rw [List.range_succ, List.map_append, List.sum_append, ih]; simp [sumTo]

/-- One reference for each object that is lent (/repo/src/brski/http/httplib.h:668-741). -/
def lentOne (B : List Ref) (i : Id) : Nat := if i ∈ B.map Prod.snd then 1 else 0

theorem lentOne_le (B : List Ref) (i : Id) : lentOne B i ≤ 1 := by
  unfold lentOne; split <;> omega

theorem lentOne_mem {B : List Ref} {r : Ref} (h : r ∈ B) : lentOne B r.2 = 1 := if_pos (List.mem_map_of_mem h)

theorem lentOne_pos {B : List Ref} {i : Id} (h : 0 < lentOne B i) : ∃ r ∈ B, r.2 = i := by
  unfold lentOne at h
  split at h
  · rename_i hm
    obtain ⟨r, hr, e⟩ := List.mem_map.1 hm
    exact ⟨r, hr, e⟩
  · omega

/-- The memory of one thread at the start: what it is lent and given (/repo/src/brski/http/httplib.h:668-741). -/
def ownStart (g : Shared) (B G : List Ref) : Shared := ⟨g.next, g.kind, fun i => lentOne B i + refCount G i⟩

/-- The end of one thread in its own memory (/repo/src/brski/http/httplib.h:668-741). -/
def endsWith {α : Type} (B : List Ref) (held : α → List Ref) (E : α → List Ref → Prop) (a : α) (o : Shared) : Prop :=
  (∀ r ∈ held a, o.kind r.2 = r.1) ∧ ∃ X, E a X ∧ ∀ i, o.cnt i = lentOne B i + refCount (held a) i + refCount X i

theorem wp_start {α : Type} {B G : List Ref} {p : Prog α} {held : α → List Ref} {E : α → List Ref → Prop}
    (h : CleanBy B G p held E) (g : Shared) (hs : ∀ i, g.next ≤ i → lentOne B i + refCount G i = 0)
    (hk : ∀ r ∈ B ++ G, g.kind r.2 = r.1) : wp (endsWith B held E) p (ownStart g B G) := by
  refine wp_of_run _ _ fun tape gap => ?_
  obtain ⟨a, s', X, e, _, h2, hX, h3⟩ := h ((ownStart g B G).withTape tape gap) hs hk
    (fun r hr => by
      show refCount G r.2 < lentOne B r.2 + refCount G r.2
      rw [lentOne_mem hr]; omega)
    (fun i => Nat.le_add_left _ _)
  refine ⟨a, s', e, h2, X, hX, fun i => ?_⟩
  have h3 : s'.cnt i + refCount G i = lentOne B i + refCount G i + refCount (held a) i + refCount X i := h3 i
  show s'.cnt i = _
  omega

theorem parallel_start {α : Type} {n : Nat} {ps : Nat → Prog α} {B G : Nat → List Ref} {held : Nat → α → List Ref}
    {E : Nat → α → List Ref → Prop} (h : ∀ j < n, CleanBy (B j) (G j) (ps j) (held j) (E j)) (g : Shared)
    (hs : ∀ i, g.next ≤ i → g.cnt i = 0) (hk : ∀ j < n, ∀ r ∈ B j ++ G j, g.kind r.2 = r.1)
    (hb : ∀ j < n, ∀ r ∈ B j, totalRefs n G r.2 < g.cnt r.2) (hg : ∀ i, totalRefs n G i ≤ g.cnt i) :
    (∀ j < n, ∀ i, lentOne (B j) i ≤ g.cnt i - totalRefs n G i) ∧
    Inv n (fun j => endsWith (B j) (held j) (E j)) (fun j => lentOne (B j)) (fun i => g.cnt i - totalRefs n G i) g ps
      fun j => ownStart g (B j) (G j) := by
  have hl : ∀ j < n, ∀ i, lentOne (B j) i ≤ g.cnt i - totalRefs n G i := by
    intro j hj i
    rcases Nat.eq_zero_or_pos (lentOne (B j) i) with e | e
    · omega
    · obtain ⟨r, hr, rfl⟩ := lentOne_pos e
      have := hb j hj r hr
      have := lentOne_le (B j) r.2
      omega
  have hz : ∀ j < n, ∀ i, g.next ≤ i → lentOne (B j) i + refCount (G j) i = 0 := by
    intro j hj i hi
    have h1 := hs i hi
    have h2 := hl j hj i
    have h3 := hg i
    have h4 : refCount (G j) i ≤ totalRefs n G i := by
      rw [total_sum]; exact sumTo_le hj fun j => refCount (G j) i
    omega
  refine ⟨hl, fun j hj => wp_start (h j hj) g (hz j hj) (hk j hj), fun j hj i => Nat.le_add_right _ _, fun i => ?_,
    fun _ _ _ _ => rfl, fun _ _ => Nat.le_refl _, fun j hj i hi => hz j hj i hi, fun i hi => ?_⟩
  · have h1 := hg i
    rw [sumTo_congr (f' := fun j => refCount (G j) i) fun m hm => by
      show lentOne (B m) i + refCount (G m) i - lentOne (B m) i = _
      omega, ← total_sum]
    omega
  · show g.cnt i - totalRefs n G i = 0
    rw [hs i hi]; omega

/-- What is clean alone is clean in parallel. -/
theorem C105_any {α : Type} (n : Nat) (ps : Nat → Prog α) (B G : Nat → List Ref) (held : Nat → α → List Ref)
    (E : Nat → α → List Ref → Prop) (h : ∀ j < n, CleanBy (B j) (G j) (ps j) (held j) (E j)) :
    InParallel n ps B G held E := by
  intro g hs hk hb hg g' ts hr
  obtain ⟨hl, hi⟩ := parallel_start h g hs hk hb hg
  have hP : ∀ j < n, ∀ (a : α) o, endsWith (B j) (held j) (E j) a o → ∀ i, lentOne (B j) i ≤ o.cnt i := by
    intro j _ a o ⟨_, X, _, hc⟩ i
    rw [hc i]; omega
  obtain ⟨own, hv⟩ := inv_reach hl (fun j _ i => lentOne_le (B j) i) hP hr ⟨_, hi⟩
  refine ⟨fun j hj => inv_no_fault hv hl hj, fun as ha => ?_⟩
  have hend : ∀ j < n, endsWith (B j) (held j) (E j) (as j) (own j) := by
    intro j hj
    have this : wp _ (ts j) (own j) := hv.pre j hj
    rw [show ts j = .ret (as j) from ha j hj] at this
    exact this
  have hX : ∀ j, ∃ X, j < n → E j (as j) X ∧
      ∀ i, (own j).cnt i = lentOne (B j) i + refCount (held j (as j)) i + refCount X i := by
    intro j
    by_cases hj : j < n
    · obtain ⟨_, X, h1, h2⟩ := hend j hj
      exact ⟨X, fun _ => ⟨h1, h2⟩⟩
    · exact ⟨[], fun h => absurd h hj⟩
  let X : Nat → List Ref := fun j => Classical.choose (hX j)
  have hX : ∀ j < n, E j (as j) (X j) ∧
      ∀ i, (own j).cnt i = lentOne (B j) i + refCount (held j (as j)) i + refCount (X j) i :=
    fun j hj => Classical.choose_spec (hX j) hj
  refine ⟨X, fun j hj => (hX j hj).1, fun j hj r hm => ?_, fun i => ?_⟩
  · have h1 := (hX j hj).2 r.2
    have h2 : 0 < refCount (held j (as j)) r.2 := List.count_pos_iff.2 (List.mem_map_of_mem hm)
    rw [← hv.kinds j hj r.2 (by omega)]
    exact (hend j hj).1 r hm
  · have h1 := hv.sum i
    have h2 := hg i
    have h1 : g'.cnt i = g.cnt i - totalRefs n G i + sumTo n fun j => (own j).cnt i - lentOne (B j) i := h1
    rw [sumTo_congr (f' := fun j => refCount (held j (as j)) i + refCount (X j) i) fun m hm => by
      have := (hX m hm).2 i
      show (own m).cnt i - lentOne (B m) i = _
      omega, sumTo_add, ← total_sum n (fun j => held j (as j)), ← total_sum] at h1
    omega

/-- Every schedule of such threads ends, and wherever it stands it can be brought to its end. -/
theorem C105_ends {α : Type} (n : Nat) (ps : Nat → Prog α) (B G : Nat → List Ref) (held : Nat → α → List Ref)
    (E : Nat → α → List Ref → Prop) (h : ∀ j < n, CleanBy (B j) (G j) (ps j) (held j) (E j)) :
    (∀ c : Nat → Shared × Threads α, ¬ ∀ k, PStep n (c k) (c (k + 1))) ∧
    ∀ g : Shared, (∀ i, g.next ≤ i → g.cnt i = 0) → (∀ j < n, ∀ r ∈ B j ++ G j, g.kind r.2 = r.1) →
      (∀ j < n, ∀ r ∈ B j, totalRefs n G r.2 < g.cnt r.2) → (∀ i, totalRefs n G i ≤ g.cnt i) →
      ∀ c, Reach n (g, ps) c → ∃ c', Reach n c c' ∧ ∀ j < n, ∃ a, c'.2 j = .ret a := by
  refine ⟨no_infinite n, fun g hs hk hb hg c hc => ?_⟩
  have key : ∀ ts : Threads α, Acc (PNext n) ts → ∀ c, c.2 = ts → Reach n (g, ps) c →
      ∃ c', Reach n c c' ∧ ∀ j < n, ∃ a, c'.2 j = .ret a := by
    intro ts ha
    induction ha with
    | intro ts _ ih =>
      intro c e hc
      by_cases hd : ∀ j < n, ∃ a, c.2 j = .ret a
      · exact ⟨c, .refl _, hd⟩
      · have ⟨j, hd⟩ := Classical.not_forall.1 hd
        have ⟨hj, hd⟩ := Classical.not_imp.1 hd
        rcases progress c.1 (c.2 j) with hr | hf | ⟨g', p', hst⟩
        · exact absurd hr hd
        · exact absurd hf ((C105_any n ps B G held E h g hs hk hb hg c.1 c.2 hc).1 j hj)
        · have hp : PStep n c (g', Threads.set c.2 j p') := PStep.one j hj hst
          obtain ⟨c', h1, h2⟩ := ih _ (e ▸ hp.next) _ rfl (hc.step hp)
          exact ⟨c', ((Reach.refl c).step hp).trans h1, h2⟩
  exact key _ (pnext_acc n c.2) c rfl hc

/-! ## The registrar -/

/-- A request to the registrar, with the certificate lists that are configured
(/repo/src/brski/registrar/registrar_api.cpp:182-432): a voucher request or an enrolment. -/
inductive RegReq where
  | voucher (pc ps add : Option (List Entry)) (body : Body)
  | enrol (body : Body)

/-- The body of the request (/repo/src/brski/registrar/registrar_api.cpp:190,348). -/
def RegReq.body : RegReq → Body
  | .voucher _ _ _ b => b
  | .enrol b => b

/-- Its handler; `x` is the client's certificate (/repo/src/brski/registrar/registrar_api.cpp:182-432). -/
def serveReg (lib : Lib) (mem : Mem) (x : Id) : RegReq → Prog Int
  | .voucher pc ps add body => registrarRequest lib mem x pc ps add body
  | .enrol body => enroll lib mem x body

/-- Any number of requests to the registrar, served at the same time: whatever fails, in whatever order the
threads go on, nothing is undefined, and in the end every object has as many references as before
(conditions as for one request, C82). -/
theorem C105_registrar (lib : Lib) (h : lib.Good) (hcp : ∀ k, lib.copy k = true) (mem : Mem) (hm : mem.Good)
    (n : Nat) (x : Nat → Id) (reqs : Nat → RegReq) (hr : ∀ j < n, (reqs j).body ≠ .padding) (g : Shared)
    (hs : ∀ i, g.next ≤ i → g.cnt i = 0) (hx : ∀ j < n, 0 < g.cnt (x j) ∧ g.kind (x j) = .x509) (g' : Shared)
    (ts : Threads Int) (hre : Reach n (g, fun j => serveReg lib mem (x j) (reqs j)) (g', ts)) :
    (∀ j < n, ¬ Faults g' (ts j)) ∧ ((∀ j < n, ∃ a, ts j = .ret a) → ∀ i, g'.cnt i = g.cnt i) := by
  have hz : ∀ i, totalRefs n (fun _ => []) i = 0 := fun i => by
    rw [total_sum]; exact sumTo_zero fun _ _ => rfl
  have hc : ∀ j < n, CleanBy [(.x509, x j)] [] (serveReg lib mem (x j) (reqs j)) (fun _ => []) fun _ X => X = [] := by
    intro j hj
    have hb := hr j hj
    obtain ⟨_, hv, he⟩ := C82_partial_registrar lib h hcp mem hm
    cases hq : reqs j with
    | voucher pc ps add body => rw [hq] at hb; exact clean_by (hv (x j) pc ps add body hb)
    | enrol body => rw [hq] at hb; exact clean_by (he (x j) body hb)
  have hp := C105_any n _ (fun j => [(.x509, x j)]) (fun _ => []) (fun _ _ => []) (fun _ _ X => X = []) hc g hs
    (fun j hj r hr => by simp at hr; rw [hr]; exact (hx j hj).2)
    (fun j hj r hr => by
      obtain rfl : r = (.x509, x j) := by simpa using hr
      rw [hz]; exact (hx j hj).1)
    (fun i => by rw [hz]; exact Nat.zero_le _) g' ts hre
  refine ⟨hp.1, fun hd i => ?_⟩
  obtain ⟨X, hX, _, hcnt⟩ := hp.2 (fun j => match ts j with | .ret a => a | _ => 0) fun j hj => by
    obtain ⟨a, e⟩ := hd j hj
    rw [e]
  have := hcnt i
  rw [hz, total_sum, sumTo_zero (f := fun j => refCount (X j) i) fun j hj => by
    show refCount (X j) i = 0
    rw [hX j hj]; rfl] at this
  omega

/-! ## Cases -/

/-- Two threads make an object, use it and give it back (/repo/src/voucher/crypto_ossl.c:60-1694). -/
def twice : Nat → Prog Unit := fun _ => do
  let i ← fresh .bio
  use .bio i
  drop .bio i

/-- Their steps interleave: both objects exist at the same time, and one thread is done before the other. -/
example : ∃ g ts, Reach 2 (⟨0, fun _ => .mem, fun _ => 0⟩, twice) (g, ts) ∧ g.cnt 0 = 1 ∧ g.cnt 5 = 0 ∧ g.next = 6 ∧
    ts 1 = .ret () ∧ ∃ p, ts 0 = .use .bio 0 p := by
  refine ⟨_, _, Reach.step (Reach.step (Reach.step (Reach.step (.refl _)
      (PStep.one 0 (by decide) (.fresh (k := .bio) (f := fun i => .use .bio i (.drop .bio i (.ret ()))) 0 (by decide))))
      (PStep.one 1 (by decide) (.fresh (k := .bio) (f := fun i => .use .bio i (.drop .bio i (.ret ()))) 5 (by decide))))
      (PStep.one 1 (by decide) (.use (k := .bio) (i := 5) (p := .drop .bio 5 (.ret ())) (by decide))))
      (PStep.one 1 (by decide) (.drop (k := .bio) (i := 5) (p := .ret ()) (by decide))), ?_⟩
  exact ⟨rfl, rfl, rfl, rfl, _, rfl⟩

/-- A function that gives a lent object back does no harm alone when somebody else holds it; two of them in
parallel release it twice.  It is not `CleanBy` (/repo/src/voucher/crypto_ossl.c:60-1694). -/
example : ∃ g ts, Reach 2 (⟨1, fun _ => .bio, fun i => if i = 0 then 1 else 0⟩, fun _ => drop .bio 0) (g, ts) ∧
    Faults g (ts 1) := by
  refine ⟨_, _, Reach.step (.refl _) (PStep.one 0 (by decide) (.drop (k := .bio) (i := 0) (p := .ret ()) (by decide))), ?_⟩
  exact fun h => absurd h.1 (by decide)

/-- The memory of the registrar with the certificates of two clients
(/repo/src/brski/registrar/registrar_api.cpp:137). -/
def twoClients : Shared := twoCerts.sh

/-- A voucher request and an enrolment (/repo/src/brski/registrar/registrar_api.cpp:182-432). -/
def twoRequests : Nat → RegReq := fun j => if j = 0 then .voucher (some [.good]) none (some [.good]) .data else .enrol .data

/-- `C105_registrar` applies to them ... -/
example (g' : Shared) (ts : Threads Int)
    (h : Reach 2 (twoClients, fun j => serveReg goodLib goodMem (if j = 0 then 0 else 1) (twoRequests j)) (g', ts)) :
    (∀ j < 2, ¬ Faults g' (ts j)) ∧ ((∀ j < 2, ∃ a, ts j = .ret a) → ∀ i, g'.cnt i = twoClients.cnt i) :=
  C105_registrar goodLib goodLib_good (fun _ => rfl) goodMem goodMem_good 2 (fun j => if j = 0 then 0 else 1) twoRequests
    (by decide +kernel) twoClients (fun i hi => twoCerts_sound i hi) (by decide +kernel) g' ts h

/-- ... and one of their schedules answers both with 200. -/
example : ∃ g' ts, Reach 2 (twoClients, fun j => serveReg goodLib goodMem (if j = 0 then 0 else 1) (twoRequests j)) (g', ts) ∧
    ts 0 = .ret 200 ∧ ts 1 = .ret 200 := by
  have h1 : ((serveReg goodLib goodMem 0 (twoRequests 0) twoCerts) matches .ok (200, _)) = true := by decide +kernel
  generalize he : serveReg goodLib goodMem 0 (twoRequests 0) twoCerts = o at h1
  match o, h1 with
  | .ok (200, s), _ =>
    have h2 : ((serveReg goodLib goodMem 0 (twoRequests 0) twoCerts).bind fun r =>
      serveReg goodLib goodMem 1 (twoRequests 1) r.2) matches .ok (200, _) := by decide +kernel
    rw [he] at h2
    have h2 : (serveReg goodLib goodMem 1 (twoRequests 1) s) matches .ok (200, _) := h2
    generalize he2 : serveReg goodLib goodMem 1 (twoRequests 1) s = o2 at h2
    match o2, h2 with
    | .ok (200, s2), _ =>
      have r1 := run_reach (n := 2) (j := 0) (by decide) _
        (fun j => serveReg goodLib goodMem (if j = 0 then 0 else 1) (twoRequests j)) _ _ _ he
      have r2 := run_reach (n := 2) (j := 1) (by decide) _
        (Threads.set (fun j => serveReg goodLib goodMem (if j = 0 then 0 else 1) (twoRequests j)) 0 (.ret 200)) _ _ _ he2
      rw [show Threads.set (fun j => serveReg goodLib goodMem (if j = 0 then 0 else 1) (twoRequests j)) 0
        (serveReg goodLib goodMem 0 (twoRequests 0)) = _ from Threads.set_self _ 0] at r1
      rw [show Threads.set (Threads.set (fun j => serveReg goodLib goodMem (if j = 0 then 0 else 1) (twoRequests j)) 0
        (.ret 200)) 1 (serveReg goodLib goodMem 1 (twoRequests 1)) = _ from Threads.set_self _ 1] at r2
      exact ⟨_, _, r1.trans r2, rfl, rfl⟩

end Brski.Props
