import Verif.Routes

/-!
# Properties C46, C47, C62, C63: dispatch, headers and error replies of the HTTPS server
-/

namespace Brski.Props
open Routes

/-! ## C46: dispatch -/

/-- The endpoints of the registrar (specification: RFC 8995 section 5, RFC 7030 section 3.2.2; documented in
/repo/docs). -/
def registrarEndpoints : List (String × String × Endpoint) :=
  [("POST", "brski/requestvoucher", .registrarRequestVoucher), ("POST", "brski/voucher_status", .registrarVoucherStatus),
    ("POST", "brski/requestauditlog", .registrarRequestAuditLog), ("POST", "brski/enrollstatus", .registrarEnrollStatus),
    ("POST", "est/simpleenroll", .registrarSimpleEnroll)]

/-- The endpoints of the MASA (specification: RFC 8995 section 5, RFC 7030 section 3.2.2). -/
def masaEndpoints : List (String × String × Endpoint) :=
  [("POST", "brski/requestvoucher", .masaRequestVoucher), ("POST", "brski/voucher_status", .masaVoucherStatus),
    ("POST", "brski/requestauditlog", .masaRequestAuditLog), ("POST", "brski/enrollstatus", .masaEnrollStatus),
    ("GET", "est/cacerts", .masaCaCerts), ("POST", "est/simpleenroll", .masaSimpleEnroll),
    ("POST", "est/simplereenroll", .masaSimpleReenroll), ("POST", "est/fullcmc", .masaFullCmc),
    ("POST", "est/serverkeygen", .masaServerKeygen), ("GET", "est/csrattrs", .masaCsrAttrs)]

/-- `e` is the endpoint for this method and path (specification). -/
def Listed (eps : List (String × String × Endpoint)) (method path : Bytes) (e : Endpoint) : Prop :=
  ∃ m p, (m, p, e) ∈ eps ∧ method = str m ∧ path = str "/.well-known/" ++ str p

/-- The text of a method (specification). -/
def methodText : Method → Bytes
  | .get => str "GET" | .head => str "HEAD" | .post => str "POST" | .put => str "PUT" | .delete => str "DELETE"
  | .connect => str "CONNECT" | .options => str "OPTIONS" | .trace => str "TRACE" | .patch => str "PATCH"
  | .pri => str "PRI"

/-- The method names are read as they are written. -/
theorem methodText_parse (m : Method) : parseMethod (methodText m) = some m := by cases m <;> decide

/-- **C46** as stated: a request reaches exactly the handler listed for its method and path. -/
def C46_statement : Prop :=
  ∀ (m : Method) (path : Bytes) (e : Endpoint),
    (routing registrarRoutes ⟨m, path⟩ = some (some e) ↔ Listed registrarEndpoints (methodText m) path e) ∧
    (routing masaRoutes ⟨m, path⟩ = some (some e) ↔ Listed masaEndpoints (methodText m) path e)

/-- The paths are regular expressions without operators, except for one dot in second place
(/repo/src/brski/masa/masa_api.hpp:18-30). -/
theorem patterns_plain : ∀ r ∈ registrarRoutes ++ masaRoutes, r.path.take 2 = [47, 46] ∧
    ∀ c ∈ r.path.drop 2, c ∉ [94, 36, 92, 46, 42, 43, 63, 40, 41, 91, 93, 123, 125, 124] := by decide +kernel

theorem regexMatch_plain : ∀ (ps cs : Bytes), (46 : UInt8) ∉ ps → regexMatch ps cs = decide (ps = cs)
  | [], [], _ => rfl
  | [], _ :: _, _ => by simp [regexMatch]
  | _ :: _, [], _ => by simp [regexMatch]
  | p :: ps, c :: cs, h => by
    have hp : p ≠ 46 := fun e => h (e ▸ List.mem_cons_self)
    have ih := regexMatch_plain ps cs fun hm => h (List.mem_cons_of_mem _ hm)
    simp only [regexMatch, hp, if_false, ih, List.cons.injEq, Bool.decide_and]

theorem regexMatch_dot (t cs : Bytes) (h : (46 : UInt8) ∉ t) :
    regexMatch (47 :: 46 :: t) cs = true ↔ ∃ c, c ≠ 10 ∧ c ≠ 13 ∧ cs = 47 :: c :: t := by
  match cs with
  | [] => simp [regexMatch]
  | [a] => simp [regexMatch]
  | a :: b :: cs =>
    simp only [regexMatch, regexMatch_plain t cs h]
    constructor
    · intro hh
      simp at hh
      exact ⟨b, hh.2.1.1, hh.2.1.2, by simp [← hh.1, ← hh.2.2]⟩
    · rintro ⟨c, h1, h2, h3⟩
      simp only [List.cons.injEq] at h3
      obtain ⟨rfl, rfl, rfl⟩ := h3
      simp [h1, h2]

/-- The methods that reach the handlers registered for `m'`: a HEAD request runs the handlers of GET. -/
def Runs (m m' : Method) : Prop := m = m' ∨ (m = .head ∧ m' = .get)

/-- Properties of the route tables that the dispatch proof needs. -/
structure Table (rs : List Route) : Prop where
  shape : ∀ r ∈ rs, ∃ t, r.path = 47 :: 46 :: t ∧ (46 : UInt8) ∉ t
  methods : ∀ r ∈ rs, r.method = .get ∨ r.method = .post
  unique : (rs.map fun r => (r.method, r.path)).Nodup

theorem find_unique {α : Type} (p : α → Bool) (l : List α) (a : α) (ha : a ∈ l) (hp : p a = true)
    (hu : ∀ b ∈ l, p b = true → b = a) : l.find? p = some a := by
  cases h : l.find? p with
  | none => exact absurd hp (by simpa using List.find?_eq_none.1 h a ha)
  | some b => rw [hu b (List.mem_of_find?_eq_some h) (List.find?_some h)]

theorem nodup_map_inj {α β : Type} (f : α → β) : ∀ (l : List α), (l.map f).Nodup → ∀ a ∈ l, ∀ b ∈ l, f a = f b → a = b
  | [], _, _, ha, _, _, _ => by cases ha
  | x :: l, h, a, ha, b, hb, hf => by
    rw [List.map_cons, List.nodup_cons] at h
    rcases List.mem_cons.1 ha with rfl | ha' <;> rcases List.mem_cons.1 hb with rfl | hb'
    · rfl
    · exact absurd (hf ▸ List.mem_map_of_mem hb') h.1
    · exact absurd (hf ▸ List.mem_map_of_mem ha') h.1
    · exact nodup_map_inj f l h.2 a ha' b hb' hf

theorem dispatch_iff {rs : List Route} (ht : Table rs) (m : Method) (path : Bytes) (e : Endpoint) :
    ((rs.filter (·.method = m)).find? fun r => regexMatch r.path path).map (·.handle) = some e ↔
      ∃ r ∈ rs, r.method = m ∧ r.handle = e ∧ regexMatch r.path path = true := by
  constructor
  · intro h
    cases hf : (rs.filter (·.method = m)).find? fun r => regexMatch r.path path with
    | none => rw [hf] at h; cases h
    | some r =>
      rw [hf] at h
      have := List.mem_filter.1 (List.mem_of_find?_eq_some hf)
      exact ⟨r, this.1, by simpa using this.2, by simpa using h, List.find?_some (p := fun r : Route => regexMatch r.path path) hf⟩
  · rintro ⟨r, hr, hm, he, hp⟩
    rw [find_unique (fun r => regexMatch r.path path) _ r (List.mem_filter.2 ⟨hr, by simpa using hm⟩) hp ?_]
    · simp [he]
    · intro b hb hbp
      obtain ⟨hb1, hb2⟩ := List.mem_filter.1 hb
      refine nodup_map_inj (fun r => (r.method, r.path)) rs ht.unique b hb1 r hr ?_
      obtain ⟨t1, e1, d1⟩ := ht.shape b hb1
      obtain ⟨t2, e2, d2⟩ := ht.shape r hr
      rw [e1, regexMatch_dot t1 path d1] at hbp
      rw [e2, regexMatch_dot t2 path d2] at hp
      obtain ⟨c1, -, -, p1⟩ := hbp
      obtain ⟨c2, -, -, p2⟩ := hp
      rw [p1] at p2
      simp only [List.cons.injEq, true_and] at p2
      rw [Prod.mk.injEq]
      refine ⟨?_, by rw [e1, e2, p2.2]⟩
      rw [hm]
      simpa using hb2

theorem routing_iff {rs : List Route} (ht : Table rs) (m : Method) (path : Bytes) (e : Endpoint) :
    routing rs ⟨m, path⟩ = some (some e) ↔
      ∃ r ∈ rs, r.handle = e ∧ Runs m r.method ∧
        ∃ c t, c ≠ 10 ∧ c ≠ 13 ∧ r.path = 47 :: 46 :: t ∧ path = 47 :: c :: t := by
  have hs : ∀ r ∈ rs, regexMatch r.path path = true ↔
      ∃ c t, c ≠ 10 ∧ c ≠ 13 ∧ r.path = 47 :: 46 :: t ∧ path = 47 :: c :: t := by
    intro r hr
    obtain ⟨t, e1, d1⟩ := ht.shape r hr
    rw [e1, regexMatch_dot t path d1]
    constructor
    · rintro ⟨c, h1, h2, h3⟩; exact ⟨c, t, h1, h2, rfl, h3⟩
    · rintro ⟨c, t', h1, h2, h3, h4⟩
      simp only [List.cons.injEq, true_and] at h3
      exact ⟨c, h1, h2, h3 ▸ h4⟩
  have key : ∀ m', (∀ r ∈ rs, Runs m r.method ↔ r.method = m') →
      (((rs.filter (·.method = m')).find? fun r => regexMatch r.path path).map (·.handle) = some e ↔
      ∃ r ∈ rs, r.handle = e ∧ Runs m r.method ∧
        ∃ c t, c ≠ 10 ∧ c ≠ 13 ∧ r.path = 47 :: 46 :: t ∧ path = 47 :: c :: t) := by
    intro m' hm
    rw [dispatch_iff ht m' path e]
    constructor
    · rintro ⟨r, hr, h1, h2, h3⟩; exact ⟨r, hr, h2, (hm r hr).2 h1, (hs r hr).1 h3⟩
    · rintro ⟨r, hr, h1, h2, h3⟩; exact ⟨r, hr, (hm r hr).1 h2, h1, (hs r hr).2 h3⟩
  have none' : (∀ r ∈ rs, ¬ Runs m r.method) → ¬ ∃ r ∈ rs, r.handle = e ∧ Runs m r.method ∧
        ∃ c t, c ≠ 10 ∧ c ≠ 13 ∧ r.path = 47 :: 46 :: t ∧ path = 47 :: c :: t :=
    fun h ⟨r, hr, _, h2, _⟩ => h r hr h2
  have gp := ht.methods
  cases m with
  | head =>
    simp only [routing, registered, Option.some.injEq]
    refine key .get fun r hr => ?_
    rcases gp r hr with h | h <;> simp [Runs, h]
  | connect | trace | pri =>
    simp only [routing, reduceCtorEq, false_iff]
    exact none' fun r hr => by rcases gp r hr with h | h <;> simp [Runs, h]
  | _ =>
    simp only [routing, registered, Option.some.injEq]
    refine key _ fun r hr => ?_
    rcases gp r hr with h | h <;> simp [Runs, h]

theorem registrar_table : Table registrarRoutes :=
  ⟨fun r hr => by
    obtain ⟨h1, h2⟩ := patterns_plain r (List.mem_append_left _ hr)
    refine ⟨r.path.drop 2, ?_, fun hm => h2 _ hm (by decide)⟩
    rw [← List.take_append_drop 2 r.path, h1]; simp, by decide, by decide +kernel⟩

theorem masa_table : Table masaRoutes :=
  ⟨fun r hr => by
    obtain ⟨h1, h2⟩ := patterns_plain r (List.mem_append_right _ hr)
    refine ⟨r.path.drop 2, ?_, fun hm => h2 _ hm (by decide)⟩
    rw [← List.take_append_drop 2 r.path, h1]; simp, by decide, by decide +kernel⟩

/-- The route of a listed endpoint. -/
def routeOf (x : String × String × Endpoint) : Route :=
  ⟨str "/.well-known/" ++ str x.2.1, if x.1 = "GET" then .get else .post, x.2.2⟩

theorem registrar_routes_listed : registrarRoutes = registrarEndpoints.map routeOf := by decide +kernel
theorem masa_routes_listed : masaRoutes = masaEndpoints.map routeOf := by decide +kernel

/-- What is reached, exactly: the listed endpoints, where HEAD counts as GET and the dot of `/.well-known` stands
for any byte but LF and CR (specification of the actual behaviour). -/
def Reaches (eps : List (String × String × Endpoint)) (m : Method) (path : Bytes) (e : Endpoint) : Prop :=
  ∃ m' p c, (m', p, e) ∈ eps ∧ (methodText m = str m' ∨ (m = .head ∧ m' = "GET")) ∧ c ≠ 10 ∧ c ≠ 13 ∧
    path = [47, c] ++ str "well-known/" ++ str p

theorem runs_iff (m : Method) (m' : String) (h : m' = "GET" ∨ m' = "POST") :
    Runs m (if m' = "GET" then Method.get else .post) ↔ (methodText m = str m' ∨ (m = .head ∧ m' = "GET")) := by
  rcases h with rfl | rfl <;> cases m <;> simp [Runs, methodText] <;> decide

theorem reaches_iff {eps : List (String × String × Endpoint)} (hm : ∀ x ∈ eps, x.1 = "GET" ∨ x.1 = "POST")
    (ht : Table (eps.map routeOf)) (m : Method) (path : Bytes) (e : Endpoint) :
    routing (eps.map routeOf) ⟨m, path⟩ = some (some e) ↔ Reaches eps m path e := by
  have hw : str "/.well-known/" = 47 :: 46 :: str "well-known/" := by decide
  rw [routing_iff ht]
  constructor
  · rintro ⟨r, hr, he, hrun, c, t, c1, c2, hp, hpath⟩
    obtain ⟨⟨m', p, e'⟩, hx, rfl⟩ := List.mem_map.1 hr
    simp only [routeOf] at he hrun hp
    subst he
    refine ⟨m', p, c, hx, (runs_iff m m' (hm _ hx)).1 hrun, c1, c2, ?_⟩
    rw [hw] at hp
    simp only [List.cons_append, List.cons.injEq, true_and] at hp
    rw [hpath, ← hp]
    simp
  · rintro ⟨m', p, c, hx, hrun, c1, c2, hpath⟩
    refine ⟨_, List.mem_map_of_mem hx, rfl, (runs_iff m m' (hm _ hx)).2 hrun, c, str "well-known/" ++ str p, c1, c2,
      ?_, by rw [hpath]; simp⟩
    simp only [routeOf, hw, List.cons_append]

/-- **C46**, exact extent: a handler is reached by exactly the requests whose method and path are listed, where a
HEAD request counts as GET and the dot of `/.well-known` stands for any byte but LF and CR. -/
theorem C46_partial (m : Method) (path : Bytes) (e : Endpoint) :
    (routing registrarRoutes ⟨m, path⟩ = some (some e) ↔ Reaches registrarEndpoints m path e) ∧
    (routing masaRoutes ⟨m, path⟩ = some (some e) ↔ Reaches masaEndpoints m path e) := by
  refine ⟨?_, ?_⟩
  · rw [registrar_routes_listed]
    exact reaches_iff (by decide) (registrar_routes_listed ▸ registrar_table) m path e
  · rw [masa_routes_listed]
    exact reaches_iff (by decide) (masa_routes_listed ▸ masa_table) m path e

theorem reaches_dot (eps : List (String × String × Endpoint)) (m : Method) (hm : m ≠ .head) (t : Bytes) (e : Endpoint) :
    Reaches eps m (47 :: 46 :: t) e ↔ Listed eps (methodText m) (47 :: 46 :: t) e := by
  have hw : str "/.well-known/" = 47 :: 46 :: str "well-known/" := by decide
  constructor
  · rintro ⟨m', p, c, hx, h1, -, -, hp⟩
    rcases h1 with h1 | ⟨h1, -⟩
    · simp only [List.cons_append, List.nil_append, List.cons.injEq, true_and] at hp
      exact ⟨m', p, hx, h1, by rw [hp.2, hw]; rfl⟩
    · exact absurd h1 hm
  · rintro ⟨m', p, hx, h1, hp⟩
    exact ⟨m', p, 46, hx, .inl h1, by decide, by decide, by rw [hp, hw]; rfl⟩

/-- **C46** for paths that begin with `/.` and methods other than HEAD: as stated. -/
theorem C46_partial_dot (m : Method) (hm : m ≠ .head) (t : Bytes) (e : Endpoint) :
    (routing registrarRoutes ⟨m, 47 :: 46 :: t⟩ = some (some e) ↔
      Listed registrarEndpoints (methodText m) (47 :: 46 :: t) e) ∧
    (routing masaRoutes ⟨m, 47 :: 46 :: t⟩ = some (some e) ↔ Listed masaEndpoints (methodText m) (47 :: 46 :: t) e) := by
  obtain ⟨h1, h2⟩ := C46_partial m (47 :: 46 :: t) e
  exact ⟨h1.trans (reaches_dot _ m hm t e), h2.trans (reaches_dot _ m hm t e)⟩

/-- A path that is not listed reaches the voucher handler of the registrar. -/
theorem C46_violated_path :
    routing registrarRoutes ⟨.post, str "/Xwell-known/brski/requestvoucher"⟩ = some (some .registrarRequestVoucher) := by
  decide +kernel

/-- A method that is not listed reaches a handler of the MASA. -/
theorem C46_violated_method : routing masaRoutes ⟨.head, str "/.well-known/est/cacerts"⟩ = some (some .masaCaCerts) := by
  decide +kernel

/-- The code violates C46. -/
theorem C46_violated : ¬ C46_statement := by
  intro h
  obtain ⟨m, p, hx, -, hp⟩ := (h .post _ .registrarRequestVoucher).1.1 C46_violated_path
  have h2 : (str "/Xwell-known/brski/requestvoucher").take 2 = (str "/.well-known/" ++ str p).take 2 := by rw [hp]
  rw [List.take_append_of_le_length (by decide)] at h2
  revert h2
  decide

/-- Non-vacuity: every listed endpoint of both servers is reached under its own name. -/
theorem C46_partial_reachable :
    (∀ x ∈ registrarEndpoints, ∃ m, methodText m = str x.1 ∧
      routing registrarRoutes ⟨m, str "/.well-known/" ++ str x.2.1⟩ = some (some x.2.2)) ∧
    (∀ x ∈ masaEndpoints, ∃ m, methodText m = str x.1 ∧
      routing masaRoutes ⟨m, str "/.well-known/" ++ str x.2.1⟩ = some (some x.2.2)) := by
  have hw : ∀ p : Bytes, str "/.well-known/" ++ p = 47 :: 46 :: (str "well-known/" ++ p) := fun p => by
    rw [show str "/.well-known/" = 47 :: 46 :: str "well-known/" from by decide]; rfl
  have hm : ∀ s : String, s = "GET" ∨ s = "POST" → ∃ m : Method, m ≠ .head ∧ methodText m = str s := by
    rintro s (rfl | rfl)
    · exact ⟨.get, by decide, rfl⟩
    · exact ⟨.post, by decide, rfl⟩
  constructor
  · intro x hx
    obtain ⟨m, h1, h2⟩ := hm x.1 (by revert x; decide)
    refine ⟨m, h2, ?_⟩
    rw [hw, (C46_partial_dot m h1 _ x.2.2).1, ← hw]
    exact ⟨x.1, x.2.1, hx, h2, rfl⟩
  · intro x hx
    obtain ⟨m, h1, h2⟩ := hm x.1 (by revert x; decide)
    refine ⟨m, h2, ?_⟩
    rw [hw, (C46_partial_dot m h1 _ x.2.2).2, ← hw]
    exact ⟨x.1, x.2.1, hx, h2, rfl⟩

end Brski.Props
