import Verif.Rpc.Tables
import Verif.Props.Rpc
/-!
# Properties of the tables in generated code (C58, C59, C60)
-/

namespace Verif.Props
open Verif.Schema hiding Json Method
open Verif.Json Verif.Gen Verif.Rpc Verif.RpcSpec
open Verif.Compile (mapSet mapSet_lookup)

/-! ## C58: routes -/

/-- The methods of service `TestApi` in `/repo/tests/schema/test.ridl`, in order. -/
def schemaMethods : List Str :=
  [S "GetEmpty", S "GetError", S "GetOne", S "SendOne", S "GetMulti", S "SendMulti", S "GetComplex", S "SendComplex",
   S "GetEnumList", S "GetEnumMap", S "GetSchemaError"]

/-- The path of a method of the service, from the schema's base path `/rpc`. -/
def pathOf (m : Str) : Str := S "/rpc" ++ S "/" ++ S "TestApi" ++ S "/" ++ m

theorem lookup_iff {β : Type} {l : List (Str × β)} (h : (l.map (·.1)).Pairwise (· ≠ ·)) (k : Str) (v : β) :
    l.lookup k = some v ↔ (k, v) ∈ l := by
  induction l with
  | nil => simp
  | cons p l ih =>
    obtain ⟨k', v'⟩ := p
    rw [List.map_cons, List.pairwise_cons] at h
    rw [List.lookup_cons]
    by_cases hk : k = k'
    · subst hk
      simp only [BEq.rfl, Option.some.injEq, List.mem_cons, Prod.mk.injEq, true_and]
      constructor
      · exact fun h => Or.inl h.symm
      · rintro (h1 | h1)
        · exact h1.symm
        · exact absurd rfl (h.1 k (List.mem_map.2 ⟨_, h1, rfl⟩))
    · have : (k == k') = false := by simpa using hk
      simp only [this, ih h.2, List.mem_cons, Prod.mk.injEq, hk, false_and, false_or]

theorem switch_keys : (switchTable.map (·.1)).Pairwise (· ≠ ·) := by decide +kernel
theorem methods_keys : (methodsTable.map (·.1)).Pairwise (· ≠ ·) := by decide +kernel
theorem switch_eq : switchTable = schemaMethods.map fun m => (pathOf m, m) := by decide +kernel
theorem methods_eq : methodsTable = schemaMethods.map fun m => (pathOf m, ⟨m, S "TestApi", []⟩) := by decide +kernel

/-- C58. A path is dispatched to method `m` exactly if the published table lists it with the names of that method and
its service, and exactly if it is the path of a method of the schema. -/
theorem C58_tables_agree (path m : Str) :
    (switchTable.lookup path = some m ↔ m ∈ schemaMethods ∧ path = pathOf m) ∧
    (methodCtx path = some ⟨m, S "TestApi", []⟩ ↔ m ∈ schemaMethods ∧ path = pathOf m) := by
  unfold methodCtx
  rw [lookup_iff switch_keys, lookup_iff methods_keys, switch_eq, methods_eq]
  simp only [List.mem_map, Prod.mk.injEq, MethodInfo.mk.injEq]
  constructor
  · constructor
    · rintro ⟨a, h1, h2, rfl⟩; exact ⟨h1, h2.symm⟩
    · rintro ⟨h1, h2⟩; exact ⟨m, h1, h2.symm, rfl⟩
  · constructor
    · rintro ⟨a, h1, h2, rfl, -⟩; exact ⟨h1, h2.symm⟩
    · rintro ⟨h1, h2⟩; exact ⟨m, h1, h2.symm, rfl, trivial, trivial⟩

/-- C58. The published table holds no other entries, and `WebRPCServices` lists the same methods in schema order. -/
theorem C58_published (path : Str) (i : MethodInfo) :
    (methodCtx path = some i → i.service = S "TestApi" ∧ i.name ∈ schemaMethods ∧ path = pathOf i.name) ∧
    webrpcServices = [(S "TestApi", schemaMethods)] := by
  refine ⟨?_, by decide +kernel⟩
  unfold methodCtx
  rw [lookup_iff methods_keys, methods_eq]
  simp only [List.mem_map, Prod.mk.injEq]
  rintro ⟨a, h1, rfl, rfl⟩
  exact ⟨rfl, h1, rfl⟩

theorem testApi_lookup (readArgs : Str → Json → Option Json) (impl : Str → Json → Outcome) (onRequest onError)
    (path : Str) : ((testApi readArgs impl onRequest onError).routes.lookup path).map (·.name) = switchTable.lookup path := by
  unfold testApi
  generalize switchTable = l
  induction l with
  | nil => rfl
  | cons p l ih =>
    obtain ⟨k, v⟩ := p
    simp only [List.map_cons, List.lookup_cons]
    cases path == k
    · exact ih
    · rfl

/-- C58. What the server does: it calls at most the method that is published for the path, and a path that is not
published is answered with 404 without calling anything. -/
theorem C58_served [GoUnicode] (readArgs : Str → Json → Option Json) (impl : Str → Json → Outcome)
    (onRequest : Option (Ends (Option GoError))) (r : Request) :
    (∀ m args, (m, args) ∈ calls (serveHTTP (testApi readArgs impl onRequest none) r).1 →
      methodCtx r.path = some ⟨m, S "TestApi", []⟩) ∧
    (methodCtx r.path = none →
      (Response.of (serveHTTP (testApi readArgs impl onRequest none) r).1).status = some 404 ∧
      calls (serveHTTP (testApi readArgs impl onRequest none) r).1 = []) := by
  have hl := testApi_lookup readArgs impl onRequest none r.path
  generalize hS : testApi readArgs impl onRequest none = s at hl ⊢
  have ho : s.onError = none := by rw [← hS]; rfl
  have key : ∀ m, s.routes.lookup r.path = some m → methodCtx r.path = some ⟨m.name, S "TestApi", []⟩ := by
    intro m hm
    rw [hm] at hl
    exact (C58_tables_agree r.path m.name).2.2 ((C58_tables_agree r.path m.name).1.1 hl.symm)
  constructor
  · intro m args hm
    by_cases hc : ∃ m args, Callable s r m args
    · obtain ⟨m', args', hc⟩ := hc
      rw [(C51_called_iff s r).1 m' args' hc] at hm
      simp only [List.mem_singleton, Prod.mk.injEq] at hm
      rw [hm.1]
      exact key m' hc.1.path
    · rw [(C51_called_iff s r).2 hc] at hm; cases hm
  · intro hn
    have hr : s.routes.lookup r.path = none := by
      cases h : s.routes.lookup r.path with
      | none => rfl
      | some m => rw [key m h] at hn; cases hn
    constructor
    · rcases C51_status s r _ (.path hr) ho with h | ⟨-, h⟩ | h
      · exact h.1
      · have hA := C51_refused s r _ (.path hr) (by
          intro c; unfold reported; rw [ho]; show Sendable 404; unfold Sendable; decide)
        obtain ⟨c, ⟨hA, -⟩, -⟩ := hA
        have := hA.status
        unfold reported at this
        rw [ho] at this
        exact this
      · exact absurd hr h.2.1
    · apply (C51_called_iff s r).2
      rintro ⟨m, args, h, -⟩
      rw [h.path] at hr; cases hr

/-- C58. `WebrpcMethods` returns the whole table, or the entries of the services asked for; a bound method is routed
to the handler given for its service, and nothing is mounted for a service that is not set. -/
theorem C58_queries {H : Type} (services : List Str) (h : H) :
    (∀ p, p ∈ webrpcMethods services ↔ p ∈ methodsTable ∧ (services = [] ∨ p.2.service ∈ services)) ∧
    (∀ path i h', (path, i, h') ∈ serverMethods (some h) ↔ methodCtx path = some i ∧ h' = h) ∧
    serverMethods (none : Option H) = [] := by
  refine ⟨?_, ?_, rfl⟩
  · intro p
    unfold webrpcMethods
    split
    · rename_i hs; simp [hs]
    · rename_i hs
      simp only [List.mem_filter, List.contains_iff_mem, hs, false_or]
  · intro path i h'
    unfold serverMethods methodsFor methodCtx
    rw [lookup_iff methods_keys]
    have : webrpcMethods [S "TestApi"] = methodsTable := by decide +kernel
    rw [this]
    simp only [List.mem_map, Prod.mk.injEq]
    constructor
    · rintro ⟨⟨a, b⟩, h1, rfl, rfl, rfl⟩; exact ⟨h1, rfl⟩
    · rintro ⟨h1, rfl⟩; exact ⟨(path, i), h1, rfl, rfl, rfl⟩

/-- C58. Every client method posts to the path that is dispatched to the server method of the same name. -/
theorem C58_client (n path : Str) : (n, path) ∈ clientPaths ↔ switchTable.lookup path = some n := by
  rw [(C58_tables_agree path n).1]
  have : clientPaths = schemaMethods.map fun m => (m, pathOf m) := by decide +kernel
  rw [this]
  simp only [List.mem_map, Prod.mk.injEq]
  constructor
  · rintro ⟨a, h1, rfl, rfl⟩; exact ⟨h1, rfl⟩
  · rintro ⟨h1, rfl⟩; exact ⟨n, h1, rfl, rfl⟩

/-! ## C59: enums -/

/-- The two tables generated for an enum with these members. -/
structure EnumTables (members : List (Str × Nat)) (names : List (Nat × Str)) (values : List (Str × Nat)) : Prop where
  distinctNames : (members.map (·.1)).Pairwise (· ≠ ·)
  distinctValues : (members.map (·.2)).Pairwise (· ≠ ·)
  names : names = members.map fun m => (m.2, m.1)
  values : values = members

/-- The members declared in `/repo/tests/schema/test.ridl`. -/
def statusMembers : List (Str × Nat) := [(S "AVAILABLE", 0), (S "NOT_AVAILABLE", 1)]
@[inherit_doc statusMembers]
def accessMembers : List (Str × Nat) := [(S "NONE", 0), (S "READ", 1), (S "WRITE", 2), (S "ADMIN", 3), (S "OWNER", 4)]

/-- C59. The tables of the two enums are those of their members. -/
theorem C59_tables : EnumTables statusMembers statusName statusValue ∧ EnumTables accessMembers accessName accessValue := by
  refine ⟨⟨?_, ?_, ?_, ?_⟩, ⟨?_, ?_, ?_, ?_⟩⟩ <;> decide +kernel

theorem lookup_iff' {β : Type} {l : List (Nat × β)} (h : (l.map (·.1)).Pairwise (· ≠ ·)) (k : Nat) (v : β) :
    l.lookup k = some v ↔ (k, v) ∈ l := by
  induction l with
  | nil => simp
  | cons p l ih =>
    obtain ⟨k', v'⟩ := p
    rw [List.map_cons, List.pairwise_cons] at h
    rw [List.lookup_cons]
    by_cases hk : k = k'
    · subst hk
      simp only [BEq.rfl, Option.some.injEq, List.mem_cons, Prod.mk.injEq, true_and]
      constructor
      · exact fun h => Or.inl h.symm
      · rintro (h1 | h1)
        · exact h1.symm
        · exact absurd rfl (h.1 k (List.mem_map.2 ⟨_, h1, rfl⟩))
    · have : (k == k') = false := by simpa using hk
      simp only [this, ih h.2, List.mem_cons, Prod.mk.injEq, hk, false_and, false_or]

/-- C59. For a declared member, marshalling gives its name and unmarshalling the name gives its value. -/
theorem C59_round_trip {members names values} (h : EnumTables members names values) (n : Str) (v : Nat)
    (hm : (n, v) ∈ members) :
    enumText names v = n ∧ enumOf values n = v ∧ enumOf values (enumText names v) = v ∧
    enumText names (enumOf values n) = n := by
  have h1 : enumText names v = n := by
    unfold enumText
    rw [h.names]
    rw [(lookup_iff' (by rw [List.map_map]; exact h.distinctValues) v n).2 (List.mem_map.2 ⟨(n, v), hm, rfl⟩)]
    rfl
  have h2 : enumOf values n = v := by
    unfold enumOf
    rw [h.values, (lookup_iff h.distinctNames n v).2 hm]; rfl
  exact ⟨h1, h2, by rw [h1, h2], by rw [h2, h1]⟩

/-- C59. Text that names no member gives 0 without an error; a value of no member has the empty text. -/
theorem C59_unknown {members names values} (h : EnumTables members names values) :
    (∀ b, (∀ v, (b, v) ∉ members) → enumOf values b = 0) ∧ (∀ v, (∀ n, (n, v) ∉ members) → enumText names v = []) := by
  constructor
  · intro b hb
    unfold enumOf
    rw [h.values]
    cases hl : members.lookup b with
    | none => rfl
    | some v => exact absurd ((lookup_iff h.distinctNames b v).1 hl) (hb v)
  · intro v hv
    unfold enumText
    rw [h.names]
    cases hl : (members.map fun m => (m.2, m.1)).lookup v with
    | none => rfl
    | some n =>
      have := (lookup_iff' (by rw [List.map_map]; exact h.distinctValues) v n).1 hl
      obtain ⟨⟨a, b⟩, hm, he⟩ := List.mem_map.1 this
      cases he
      exact absurd hm (hv _)

/-- C59. `Is`: the value is one of those given; false for a nil pointer. -/
theorem C59_is (x : Option Nat) (values : List Nat) : enumIs x values = true ↔ ∃ v ∈ values, x = some v := by
  cases x with
  | none => simp [enumIs]
  | some x => simp [enumIs]

/-! ## C60: request headers -/

/-- The values stored under a key by the caller, as they were when the headers were attached. -/
def attached (heap : Heap) (h : Header) : List (Str × List Str) := h.map fun p => (p.1, heap.read p.2)

theorem copyLoop_spec (heap : Heap) (h copied : Header) (hh : ∀ p ∈ h, ∀ i, p.2 = some i → i < heap.length) :
    ∃ new tail, copyLoop heap h copied = (heap ++ new, copied ++ tail) ∧
      (∀ p ∈ tail, ∀ i, p.2 = some i → heap.length ≤ i ∧ i < heap.length + new.length) ∧
      attached (heap ++ new) tail = attached heap h := by
  induction h generalizing heap copied with
  | nil => exact ⟨[], [], by simp [copyLoop], by simp, rfl⟩
  | cons p h ih =>
    obtain ⟨k, r⟩ := p
    cases r with
    | none =>
      obtain ⟨new, tail, e1, e2, e3⟩ := ih heap (copied ++ [(k, none)]) (fun p hp => hh p (by simp [hp]))
      refine ⟨new, (k, none) :: tail, ?_, ?_, ?_⟩
      · rw [copyLoop, e1]; simp
      · intro p hp i hi
        rcases List.mem_cons.1 hp with rfl | hp
        · cases hi
        · exact e2 p hp i hi
      · unfold attached at e3 ⊢
        rw [List.map_cons, List.map_cons, e3]; rfl
    | some i =>
      have hi := hh (k, some i) (by simp) i rfl
      obtain ⟨new, tail, e1, e2, e3⟩ := ih (heap ++ [heap.read (some i)]) (copied ++ [(k, some heap.length)])
        (fun p hp j hj => by
          have := hh p (by simp [hp]) j hj
          rw [List.length_append]; simp only [List.length_singleton]; omega)
      refine ⟨heap.read (some i) :: new, (k, some heap.length) :: tail, ?_, ?_, ?_⟩
      · rw [copyLoop, e1]; simp
      · intro p hp j hj
        rcases List.mem_cons.1 hp with rfl | hp
        · cases hj; simp
        · have := e2 p hp j hj
          simp only [List.length_append, List.length_cons, List.length_nil] at this ⊢
          omega
      · have hx : heap ++ heap.read (some i) :: new = heap ++ [heap.read (some i)] ++ new := by simp
        rw [hx]
        unfold attached at e3 ⊢
        rw [List.map_cons, List.map_cons, e3]
        have h1 : Heap.read (heap ++ [heap.read (some i)] ++ new) (some heap.length) = heap.read (some i) := by
          simp only [Heap.read]
          rw [List.append_assoc, List.getElem?_append_right (Nat.le_refl _)]
          simp
        rw [h1]
        congr 1
        apply List.map_congr_left
        intro p hp
        congr 1
        cases hr : p.2 with
        | none => rfl
        | some j =>
          have := hh p (by simp [hp]) j hr
          simp only [Heap.read]
          rw [List.getElem?_append_left this]

/-- The values a request carries for a canonical header name: the fixed ones, then those attached. -/
def expectedValues (headerValue : Str) (att : List (Str × List Str)) (name : Str) : List Str :=
  (if name = S "Accept" ∨ name = S "Content-Type" then [S "application/json"]
   else if name = S "Webrpc" then [headerValue] else []) ++
  att.flatMap fun p => if canonicalKey p.1 = name then p.2 else []

theorem addAll_lookup (k : Str) (vs : List Str) (acc : List (Str × List Str)) (name : Str) :
    ((vs.foldl (fun acc v => addTo acc k v) acc).lookup name).getD [] =
      (acc.lookup name).getD [] ++ if k = name then vs else [] := by
  induction vs generalizing acc with
  | nil => simp
  | cons v vs ih =>
    rw [List.foldl_cons, ih]
    unfold addTo
    rw [mapSet_lookup]
    by_cases h : name = k
    · subst h; simp
    · rw [if_neg h]
      have : ¬ k = name := fun hh => h hh.symm
      simp [this]

theorem newRequest_lookup (heap : Heap) (order : Header) (headerValue name : Str) :
    ((newRequest heap order headerValue).lookup name).getD [] = expectedValues headerValue (attached heap order) name := by
  unfold newRequest expectedValues
  have base : ∀ name, ((([(S "Accept", [S "application/json"]), (S "Content-Type", [S "application/json"]),
      (S "Webrpc", [headerValue])] : List (Str × List Str)).lookup name).getD []) =
      (if name = S "Accept" ∨ name = S "Content-Type" then [S "application/json"]
       else if name = S "Webrpc" then [headerValue] else []) := by
    intro name
    simp only [List.lookup_cons, List.lookup_nil]
    by_cases h1 : name = S "Accept"
    · subst h1; rfl
    · by_cases h2 : name = S "Content-Type"
      · subst h2; rfl
      · by_cases h3 : name = S "Webrpc"
        · subst h3; rfl
        · rw [if_neg (by simp [h1, h2]), if_neg h3]
          have a1 : (name == S "Accept") = false := by simpa using h1
          have a2 : (name == S "Content-Type") = false := by simpa using h2
          have a3 : (name == S "Webrpc") = false := by simpa using h3
          simp [a1, a2, a3]
  rw [← base name]
  generalize ([(S "Accept", [S "application/json"]), (S "Content-Type", [S "application/json"]),
      (S "Webrpc", [headerValue])] : List (Str × List Str)) = acc
  induction order generalizing acc with
  | nil => simp [attached]
  | cons p order ih =>
    rw [List.foldl_cons, ih, addAll_lookup]
    simp [attached]

/-- C60. After headers were attached, the requests made with the context carry exactly the values the caller's map had
at that time (besides `Accept`, `Content-Type` and `Webrpc`), whatever is done afterwards to the caller's map and to
the slices that existed before: the map in the context is a new one (it does not depend on `h` any more) and refers to
new slices only.  The caller's slices are not changed.  (`order`: the iteration order of the map.) -/
theorem C60_isolated (heap : Heap) (h : Header) (hh : ∀ p ∈ h, ∀ i, p.2 = some i → i < heap.length)
    (heap' : Heap) (ctx : Header) (hw : withHTTPRequestHeaders heap h = some (heap', ctx))
    (later : Heap) (hl : ∀ i, heap.length ≤ i → i < heap'.length → later[i]? = heap'[i]?)
    (order : Header) (ho : order.Perm ctx) (headerValue : Str) :
    (∃ new, heap' = heap ++ new) ∧
    ∃ att, att.Perm (attached heap h) ∧
      ∀ name, ((newRequest later order headerValue).lookup name).getD [] = expectedValues headerValue att name := by
  unfold withHTTPRequestHeaders at hw
  split at hw
  · cases hw
  · split at hw
    · cases hw
    · obtain ⟨new, tail, e1, e2, e3⟩ := copyLoop_spec heap h [] hh
      rw [e1] at hw
      simp only [List.nil_append, Option.some.injEq, Prod.mk.injEq] at hw
      obtain ⟨rfl, rfl⟩ := hw
      refine ⟨⟨new, rfl⟩, attached later order, ?_, fun name => newRequest_lookup later order headerValue name⟩
      have h1 : attached later tail = attached (heap ++ new) tail := by
        unfold attached
        apply List.map_congr_left
        intro p hp
        congr 1
        cases hr : p.2 with
        | none => rfl
        | some i =>
          have := e2 p hp i hr
          simp only [Heap.read]
          rw [hl i this.1 (by rw [List.length_append]; omega)]
      rw [← e3, ← h1]
      unfold attached
      exact ho.map _

/-- C60. Attaching fails exactly if the map has the key `Accept` or `Content-Type`. -/
theorem C60_rejected (heap : Heap) (h : Header) :
    withHTTPRequestHeaders heap h = none ↔ ∃ p ∈ h, p.1 = S "Accept" ∨ p.1 = S "Content-Type" := by
  have hl : ∀ k : Str, (h.lookup k).isSome = true ↔ ∃ p ∈ h, p.1 = k := by
    intro k
    induction h with
    | nil => simp
    | cons p h ih =>
      rw [List.lookup_cons]
      by_cases hk : k = p.1
      · subst hk; simp
      · have : (k == p.1) = false := by simpa using hk
        simp only [this, ih, List.mem_cons, exists_eq_or_imp]
        constructor
        · exact Or.inr
        · rintro (h1 | h1)
          · exact absurd h1.symm hk
          · exact h1
  unfold withHTTPRequestHeaders
  split
  · rename_i h1
    obtain ⟨p, hp, e⟩ := (hl _).1 h1
    simp only [true_iff]
    exact ⟨p, hp, Or.inl e⟩
  · rename_i h1
    split
    · rename_i h2
      obtain ⟨p, hp, e⟩ := (hl _).1 h2
      simp only [true_iff]
      exact ⟨p, hp, Or.inr e⟩
    · rename_i h2
      simp only [reduceCtorEq, false_iff, not_exists, not_and]
      rintro p hp (e | e)
      · exact h1 ((hl _).2 ⟨p, hp, e⟩)
      · exact h2 ((hl _).2 ⟨p, hp, e⟩)

/-- C60. The first value of `Accept` and of `Content-Type` is always `application/json`; with keys in canonical form
it is the only one. -/
theorem C60_json (heap : Heap) (h : Header) (hh : ∀ p ∈ h, ∀ i, p.2 = some i → i < heap.length)
    (heap' : Heap) (ctx : Header) (hw : withHTTPRequestHeaders heap h = some (heap', ctx))
    (order : Header) (ho : order.Perm ctx) (headerValue name : Str) (hn : name = S "Accept" ∨ name = S "Content-Type") :
    (∃ rest, ((newRequest heap' order headerValue).lookup name).getD [] = S "application/json" :: rest) ∧
    ((∀ p ∈ h, canonicalKey p.1 = p.1) → ((newRequest heap' order headerValue).lookup name).getD [] = [S "application/json"]) := by
  obtain ⟨-, att, ha, he⟩ := C60_isolated heap h hh heap' ctx hw heap' (fun _ _ _ => rfl) order ho headerValue
  rw [he name]
  unfold expectedValues
  rw [if_pos hn]
  refine ⟨⟨_, rfl⟩, fun hc => ?_⟩
  have : (att.flatMap fun p => if canonicalKey p.1 = name then p.2 else []) = [] := by
    rw [List.flatMap_eq_nil_iff]
    intro p hp
    have hp' := ha.mem_iff.1 hp
    obtain ⟨q, hq, rfl⟩ := List.mem_map.1 hp'
    dsimp only
    rw [hc q hq, if_neg]
    intro hk
    have : withHTTPRequestHeaders heap h = none := (C60_rejected heap h).2 ⟨q, hq, by
      rcases hn with rfl | rfl
      · exact Or.inl hk
      · exact Or.inr hk⟩
    rw [this] at hw; cases hw
  rw [this]; rfl

/-- A key in another form than the canonical one slips through the check, and the request then has two `Accept`
values. -/
theorem C60_other_case :
    let heap : Heap := [[S "text/html"]]
    let h : Header := [(S "accept", some 0)]
    withHTTPRequestHeaders heap h ≠ none ∧
    ∀ heap' ctx, withHTTPRequestHeaders heap h = some (heap', ctx) →
      (newRequest heap' ctx (S "x")).lookup (S "Accept") = some [S "application/json", S "text/html"] := by
  refine ⟨by decide +kernel, ?_⟩
  intro heap' ctx hw
  have : withHTTPRequestHeaders [[S "text/html"]] [(S "accept", some 0)] =
    some ([[S "text/html"], [S "text/html"]], [(S "accept", some 1)]) := by decide +kernel
  rw [this] at hw
  cases hw
  decide +kernel

/-- Headers attached and then changed by the caller: the request has the old ones. -/
example : withHTTPRequestHeaders [[S "a", S "b"]] [(S "x-id", some 0)] = some ([[S "a", S "b"], [S "a", S "b"]], [(S "x-id", some 1)]) ∧
    (newRequest [[S "changed"], [S "a", S "b"]] [(S "x-id", some 1)] (S "v")).lookup (S "X-Id") = some [S "a", S "b"] := by
  decide +kernel

end Verif.Props
