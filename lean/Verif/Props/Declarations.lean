import Verif.Props.Imports
import Verif.Ridl.Emit
import Std.Data.String.ToNat
/-!
# Declarations of a RIDL file (C32 to C34, C36, C64)
-/

namespace Verif.Props
open Verif.Schema Verif.Compile Verif.Spec
open Verif.Ridl (Token Node DefNode ImportNode EnumNode StructNode ErrorNode ArgNode AnnNode MethodNode
  ServiceNode AliasNode Graph ParseResult parseDoc parseN NodeEmit)

/-! ### C32 -/

/-- The keys of main definitions. -/
def headerKeys : List Str := [S "webrpc", S "name", S "version", S "basepath"]

/-- The lines `key = value` of a file. -/
def defsOf (key : Str) (ns : List Node) : List DefNode :=
  ns.filterMap fun
    | .defn d => if d.left.val = key then some d else none
    | _ => none

/-- The value declared for a key; empty if there is none. -/
def declaredValue (key : Str) (ns : List Node) : Str :=
  match defsOf key ns with
  | [] => []
  | d :: _ => textOf d.right

theorem defsOf_eq (key : Str) (ns : List Node) :
    defsOf key ns = (definitions ns).filter fun d => d.left.val = key := by
  unfold defsOf definitions
  induction ns with
  | nil => rfl
  | cons n ns ih =>
    cases n with
    | defn d =>
      simp only [List.filterMap_cons]
      by_cases h : d.left.val = key
      · simp only [h, if_true]; rw [List.filter_cons_of_pos (by simp [h]), ih]
      · simp only [h, if_false]; rw [List.filter_cons_of_neg (by simp [h]), ih]
    | _ => simp only [List.filterMap_cons]; exact ih

/-- The field of a schema a key sets. -/
def headerField (key : Str) (s : Schema) : Str :=
  if key = S "webrpc" then s.webrpcVersion
  else if key = S "name" then s.schemaName
  else if key = S "version" then s.schemaVersion
  else s.basePath

theorem applyDef_ok {s s' : Schema} {d : DefNode} (h : applyDef s d = .ok s') :
    d.left.val ∈ headerKeys ∧ headerField d.left.val s = [] ∧
    ∀ k ∈ headerKeys, headerField k s' = if k = d.left.val then textOf d.right else headerField k s := by
  have k1 : S "name" ≠ S "webrpc" := by decide
  have k2 : S "version" ≠ S "webrpc" := by decide
  have k3 : S "basepath" ≠ S "webrpc" := by decide
  have k4 : S "version" ≠ S "name" := by decide
  have k5 : S "basepath" ≠ S "name" := by decide
  have k6 : S "basepath" ≠ S "version" := by decide
  simp only [applyDef] at h
  split at h
  · next hk =>
    simp only [Res.bind_ok, Res.failIf_ok, Res.ok.injEq] at h
    obtain ⟨_, hz, rfl⟩ := h
    rw [hk]
    refine ⟨by simp [headerKeys], by simpa [headerField] using hz, ?_⟩
    intro k hkm
    simp only [headerKeys, List.mem_cons, List.not_mem_nil, or_false] at hkm
    rcases hkm with rfl | rfl | rfl | rfl <;> simp [headerField, k1, k2, k3, k4, k5, k6]
  · split at h
    · next hk =>
      simp only [Res.bind_ok, Res.failIf_ok, Res.ok.injEq] at h
      obtain ⟨_, hz, rfl⟩ := h
      rw [hk]
      refine ⟨by simp [headerKeys], by simpa [headerField, k1] using hz, ?_⟩
      intro k hkm
      simp only [headerKeys, List.mem_cons, List.not_mem_nil, or_false] at hkm
      rcases hkm with rfl | rfl | rfl | rfl <;> simp [headerField, k1, k2, k3, k4, k5, k6, k1.symm]
    · split at h
      · next hk =>
        simp only [Res.bind_ok, Res.failIf_ok, Res.ok.injEq] at h
        obtain ⟨_, hz, rfl⟩ := h
        rw [hk]
        refine ⟨by simp [headerKeys], by simpa [headerField, k3, k5, k6] using hz, ?_⟩
        intro k hkm
        simp only [headerKeys, List.mem_cons, List.not_mem_nil, or_false] at hkm
        rcases hkm with rfl | rfl | rfl | rfl <;>
          simp [headerField, k1, k2, k3, k4, k5, k6, k3.symm, k5.symm, k6.symm]
      · split at h
        · next hk =>
          simp only [Res.bind_ok, Res.failIf_ok, Res.ok.injEq] at h
          obtain ⟨_, hz, rfl⟩ := h
          rw [hk]
          refine ⟨by simp [headerKeys], by simpa [headerField, k2, k4] using hz, ?_⟩
          intro k hkm
          simp only [headerKeys, List.mem_cons, List.not_mem_nil, or_false] at hkm
          rcases hkm with rfl | rfl | rfl | rfl <;>
            simp [headerField, k1, k2, k3, k4, k5, k6, k2.symm, k4.symm]
        · simp at h

theorem applyDefs_ok {s s' : Schema} {ds : List DefNode} (h : foldRes applyDef s ds = .ok s')
    (hv : ∀ d ∈ ds, textOf d.right ≠ []) :
    (∀ d ∈ ds, d.left.val ∈ headerKeys) ∧
    ∀ k ∈ headerKeys,
      (ds.filter (fun d => d.left.val = k) = [] ∧ headerField k s' = headerField k s) ∨
      (headerField k s = [] ∧ ∃ d, ds.filter (fun d => d.left.val = k) = [d] ∧ headerField k s' = textOf d.right) := by
  induction ds generalizing s with
  | nil =>
    simp only [foldRes, Res.ok.injEq] at h
    subst h
    exact ⟨by simp, fun k _ => .inl (by simp)⟩
  | cons d ds ih =>
    simp only [foldRes, Res.bind_ok'] at h
    obtain ⟨s1, h1, h2⟩ := h
    obtain ⟨a1, a2, a3⟩ := applyDef_ok h1
    obtain ⟨b1, b2⟩ := ih h2 (fun x hx => hv x (by simp [hx]))
    refine ⟨?_, ?_⟩
    · intro x hx
      rcases List.mem_cons.1 hx with rfl | hx
      · exact a1
      · exact b1 x hx
    · intro k hk
      have e := a3 k hk
      by_cases hkd : k = d.left.val
      · rw [if_pos hkd] at e
        rw [List.filter_cons_of_pos (by simp [hkd])]
        rcases b2 k hk with ⟨c1, c2⟩ | ⟨c1, -⟩
        · exact .inr ⟨by rw [hkd]; exact a2, d, by rw [c1], by rw [c2, e]⟩
        · exact absurd (e.symm.trans c1) (hv d (by simp))
      · rw [if_neg hkd] at e
        rw [List.filter_cons_of_neg (by simpa using Ne.symm hkd)]
        rw [← e]
        exact b2 k hk

/-- The nodes of a file that could be read. -/
theorem readNodes_emit {fs : Files} {path : Str} {ns : List Node} (h : readNodes fs path = .ok ns) :
    ∀ n ∈ ns, NodeEmit n := by
  obtain ⟨src, -, h2, -⟩ := readNodes_file h
  exact Verif.Ridl.parseDoc_emit h2

theorem definitions_full {fs : Files} {path : Str} {ns : List Node} (h : readNodes fs path = .ok ns) :
    ∀ d ∈ definitions ns, textOf d.right ≠ [] := by
  intro d hd
  unfold definitions at hd
  rw [List.mem_filterMap] at hd
  obtain ⟨n, hn, he⟩ := hd
  cases n with
  | defn d' =>
    simp only [Option.some.injEq] at he
    subst he
    obtain ⟨-, v, h1, h2⟩ := readNodes_emit h _ hn
    rw [h1]; exact h2
  | _ => simp at he

/-- C32. An accepted file has at most one line for each of `webrpc`, `name`, `version` and `basepath`, no
other main definition, and its schema carries the declared values (none: the empty string; the base path in
normal form), whatever its imports declare. -/
theorem C32_header [GoUnicode] (fs : Files) (path : Str) (s : Schema) (ns : List Node)
    (h : compile fs path = .ok s) (hr : readNodes fs path = .ok ns) :
    (∀ n ∈ ns, ∀ d, n = .defn d → d.left.val ∈ headerKeys) ∧
    (∀ k ∈ headerKeys, (defsOf k ns).length ≤ 1) ∧
    s.webrpcVersion = declaredValue (S "webrpc") ns ∧ s.schemaName = declaredValue (S "name") ns ∧
    s.schemaVersion = declaredValue (S "version") ns ∧
    normBasePath (declaredValue (S "basepath") ns) = .ok s.basePath := by
  have k1 : S "name" ≠ S "webrpc" := by decide
  have k2 : S "version" ≠ S "webrpc" := by decide
  have k3 : S "basepath" ≠ S "webrpc" := by decide
  have k4 : S "version" ≠ S "name" := by decide
  have k5 : S "basepath" ≠ S "name" := by decide
  have k6 : S "basepath" ≠ S "version" := by decide
  cases compile_sound h with
  | @intro _ ns' s0 s1 _ ps h1 h2 h3 h4 h5 h6 =>
    rw [hr] at h1
    simp only [Res.ok.injEq] at h1
    subst h1
    obtain ⟨a1, a2⟩ := applyDefs_ok h2 (definitions_full hr)
    obtain ⟨d1, -⟩ := declare_ids h5
    rw [header_merge] at d1
    have hval : ∀ k ∈ headerKeys, headerField k s0 = declaredValue k ns ∧ (defsOf k ns).length ≤ 1 := by
      intro k hk
      have hz : headerField k {} = [] := by unfold headerField; repeat' split
                                            all_goals rfl
      unfold declaredValue
      rw [defsOf_eq]
      rcases a2 k hk with ⟨e1, e2⟩ | ⟨-, d, e1, e2⟩
      · rw [e1, e2, hz]; simp
      · rw [e1, e2]; simp
    obtain ⟨-, -, b, ts, es, ss, hb, -, -, -, rfl⟩ := validate_ok.1 h6
    simp only [header, Prod.mk.injEq] at d1
    obtain ⟨m1, m2, m3, m4, -⟩ := d1
    refine ⟨?_, fun k hk => (hval k hk).2, ?_, ?_, ?_, ?_⟩
    · rintro n hn d rfl
      refine a1 d ?_
      unfold definitions
      rw [List.mem_filterMap]
      exact ⟨_, hn, rfl⟩
    · dsimp only; rw [m1, ← (hval (S "webrpc") (by simp [headerKeys])).1]; simp [headerField]
    · dsimp only; rw [m2, ← (hval (S "name") (by simp [headerKeys])).1]; simp [headerField, k1]
    · dsimp only; rw [m3, ← (hval (S "version") (by simp [headerKeys])).1]; simp [headerField, k2, k4]
    · dsimp only
      rw [← (hval (S "basepath") (by simp [headerKeys])).1, ← hb, m4]; simp [headerField, k3, k5, k6]

/-- C32. A second line for the same key makes the compilation fail. -/
theorem C32_duplicate_rejected [GoUnicode] (fs : Files) (path : Str) (ns : List Node) (k : Str)
    (hr : readNodes fs path = .ok ns) (hk : k ∈ headerKeys) (h2 : 2 ≤ (defsOf k ns).length) (s : Schema) :
    compile fs path ≠ .ok s := by
  intro h
  have := (C32_header fs path s ns h hr).2.1 k hk
  omega

/-- The duplicate is what is reported for `name` given twice. -/
example : let _ := asciiOnly
    errOf (compile [(S "a", S "webrpc = v1\nname = x\nversion = v1\nname = y\n")] (S "a")) = some .defDup ∧
    partOf (fun s => (s.schemaName, s.schemaVersion, s.basePath))
      (compile [(S "a", S "webrpc = v1\nname = x\nversion = v1.2\nbasepath = rpc\n")] (S "a")) =
        some (S "x", S "v1.2", S "/rpc/") := by decide +kernel

/-! ### C33 -/

/-- C33. Every enum of an accepted file is in the schema with all its members in order; a member with a value
has that value, one without has its name if the enum is of strings and its position otherwise. -/
theorem C33_members [GoUnicode] (fs : Files) (path : Str) (s : Schema) (ns : List Node)
    (h : compile fs path = .ok s) (hr : readNodes fs path = .ok ns) (n : EnumNode) (hn : n ∈ enums ns) :
    ∃ d ∈ s.types, d.ptr.1 = path ∧ EnumMeans s.types n d := by
  cases compile_sound h with
  | @intro _ ns' s0 s1 _ ps h1 h2 h3 h4 h5 h6 =>
    rw [hr] at h1
    simp only [Res.ok.injEq] at h1
    subst h1
    obtain ⟨⟨I, A, E, T, e1, e2, -, e3, -⟩, -⟩ := compiled_means hr h2 h3 h4 h5 h6
    obtain ⟨d, hd, hm⟩ := e3.mem_left hn
    refine ⟨d, by rw [e1]; simp [hd], ?_, hm⟩
    obtain ⟨⟨I', D, f1, f2, f3⟩, -⟩ := compiled_imported hr h2 h3 h4 h5 h6
    have hl : I.length = I'.length := by rw [← e2.length, ← List.length_map (f := TypeDecl.bare), ← f2]; simp
    have : D = A ++ E ++ T := by
      rw [e1, List.append_assoc, List.append_assoc] at f1
      rw [← (List.append_inj f1 hl).2, List.append_assoc]
    have hd' : d.ident ∈ (declaredTypes path ns).map TypeDecl.ident := by
      rw [← f3, this]; exact List.mem_map_of_mem (by simp [hd])
    rw [List.mem_map] at hd'
    obtain ⟨w, hw, he⟩ := hd'
    have : w.ptr = d.ptr := congrArg Prod.fst he
    rw [← this]; exact (declaredTypes_ptr path ns).2 w hw

theorem pointwise_get {α β : Type} {R : α → β → Prop} {xs : List α} {ys : List β} (h : Pointwise R xs ys) (i : Nat)
    (hi : i < ys.length) : ∃ hi' : i < xs.length, R xs[i] ys[i] := by
  induction h generalizing i with
  | nil => simp at hi
  | cons h1 _ ih =>
    cases i with
    | zero => exact ⟨by simp, h1⟩
    | succ i =>
      simp only [List.length_cons, Nat.add_lt_add_iff_right] at hi
      obtain ⟨hi', hr⟩ := ih i hi
      exact ⟨by simpa using hi', hr⟩

/-- C33. If no member has a value of its own, the values of the members are different from each other. -/
theorem C33_distinct [GoUnicode] (fs : Files) (path : Str) (s : Schema) (ns : List Node)
    (h : compile fs path = .ok s) (hr : readNodes fs path = .ok ns) (n : EnumNode) (hn : n ∈ enums ns)
    (hv : ∀ v ∈ n.values, v.right = none) :
    ∃ d ∈ s.types, d.ptr.1 = path ∧ EnumMeans s.types n d ∧ (d.fields.map (·.value)).Pairwise (· ≠ ·) := by
  obtain ⟨d, hd, hp, hm⟩ := C33_members fs path s ns h hr n hn
  refine ⟨d, hd, hp, hm, ?_⟩
  -- the names of the members differ
  have hnames : d.fields.Pairwise (fun f g => toLower f.name ≠ toLower g.name) := by
    cases compile_sound h with
    | @intro _ ns' s0 s1 _ ps h1 h2 h3 h4 h5 h6 =>
      obtain ⟨-, -, b, ts, es, ss, -, hts, -, -, rfl⟩ := validate_ok.1 h6
      obtain ⟨x, hx, hxd⟩ := hts.mem_right hd
      have k1 : S "enum" ≠ S "alias" := by decide
      have k2 : S "enum" ≠ S "struct" := by decide
      have hsig := (typeParse_ok hxd).2.2.2.1
      simp only [TypeDecl.sig, Prod.mk.injEq] at hsig
      have hk : x.kind = S "enum" := by rw [← hsig.2.1]; exact hm.kind
      rcases (typeParse_ok hxd).2.2.2.2 with ⟨hk', _⟩ | ⟨-, rfl, hc, -⟩ | ⟨hk', _⟩
      · exact absurd (hk.symm.trans hk') k1
      · exact (checkFields_ok hc).2.1
      · exact absurd (hk.symm.trans hk') k2
  rw [List.pairwise_iff_getElem] at hnames
  rw [List.pairwise_map, List.pairwise_iff_getElem]
  intro i j hi hj hij he
  obtain ⟨hi', ri⟩ := pointwise_get hm.members i hi
  obtain ⟨hj', rj⟩ := pointwise_get hm.members j hj
  simp only [List.getElem_zipIdx, Nat.zero_add] at ri rj
  have hi2 : i < n.values.length := by simpa using hi'
  have hj2 : j < n.values.length := by simpa using hj'
  have ni : textOf n.values[i].right = [] := by rw [hv _ (List.getElem_mem hi2)]; rfl
  have nj : textOf n.values[j].right = [] := by rw [hv _ (List.getElem_mem hj2)]; rfl
  by_cases hs : n.enumType.val = S "string"
  · have h1 := ri.byName ni hs
    have h2 := rj.byName nj hs
    exact hnames i j hi hj hij (by rw [← h1, ← h2, he])
  · have h1 := ri.byPosition ni hs
    have h2 := rj.byPosition nj hs
    rw [h1, h2] at he
    have := Nat.repr_injective (String.toList_inj.1 he)
    omega

/-- An enum with values given for some members. -/
def exEnum : Files :=
  [(S "a", S "webrpc = v1\nname = x\nversion = v1\nenum E: uint32\n - A\n - B\n - C=1\nenum F: string\n - P\n - Q\n")]

/-- C33 is false of the code when some members have values: an implicit value may equal an explicit one.
(Here `B` and `C` are both `1`.)  Without explicit values they differ. -/
theorem C33_collision : let _ := asciiOnly
    partOf (fun s => s.types.map fun t => t.fields.map fun f => (f.name, f.value)) (compile exEnum (S "a")) =
      some [[(S "A", S "0"), (S "B", S "1"), (S "C", S "1")], [(S "P", S "P"), (S "Q", S "Q")]] := by
  decide +kernel

/-! ### C34 -/

/-- The value of a text of decimal digits. -/
def decimalValue (t : Str) : Nat := t.foldl (fun a c => 10 * a + (c.toNat - '0'.toNat)) 0

/-- The largest value of an `int32`. -/
def maxInt32 : Nat := 2147483647

/-- `e` is what the error line `n` of the file stands for. -/
structure ErrorMeans (n : ErrorNode) (e : ErrorDecl) : Prop where
  code : decimalValue n.code.val ≤ maxInt32 → e.code = decimalValue n.code.val
  name : e.name = trimSpace n.name.val
  message : ∃ m, n.message = some m ∧ e.message = m.val
  noStatus : n.httpStatus = none → e.httpStatus = 400
  status : ∀ t, n.httpStatus = some t → decimalValue t.val ≤ maxInt32 → e.httpStatus = decimalValue t.val

theorem digit_val {c : Char} (h : c ∈ "0123456789".toList) : digit? c = some (c.toNat - '0'.toNat) := by
  have h2 : c ∈ ['0', '1', '2', '3', '4', '5', '6', '7', '8', '9'] := h
  simp only [List.mem_cons, List.not_mem_nil, or_false] at h2
  rcases h2 with rfl | rfl | rfl | rfl | rfl | rfl | rfl | rfl | rfl | rfl <;> decide

theorem decimal_val (t : Str) (acc : Nat) (h : ∀ c ∈ t, c ∈ "0123456789".toList) :
    decimal? acc t = some (t.foldl (fun a c => 10 * a + (c.toNat - '0'.toNat)) acc) := by
  induction t generalizing acc with
  | nil => rfl
  | cons c cs ih =>
    simp only [decimal?, digit_val (h c (by simp)), List.foldl_cons]
    rw [ih _ (fun d hd => h d (by simp [hd])), Nat.mul_comm acc 10]

theorem parseInt32_val {t : Token} (h : Verif.Ridl.Number t) :
    parseInt32 t.val = if decimalValue t.val ≤ maxInt32 then (decimalValue t.val : Int) else maxInt32 := by
  unfold parseInt32
  rw [if_neg h.1, decimal_val t.val 0 h.2]
  rfl

theorem errors_ok {fs : Files} {path : Str} {ns : List Node} (h : readNodes fs path = .ok ns) (n : ErrorNode)
    (hn : n ∈ Compile.errors ns) : Verif.Ridl.ErrOK n := by
  unfold Compile.errors at hn
  rw [List.mem_filterMap] at hn
  obtain ⟨x, hx, he⟩ := hn
  cases x with
  | error e =>
    simp only [Option.some.injEq] at he
    subst he
    exact readNodes_emit h _ hx
  | _ => simp at he

/-- C34. Every error of an accepted file is in the schema, with its code, name, message and status. -/
theorem C34_errors_partial [GoUnicode] (fs : Files) (path : Str) (s : Schema) (ns : List Node)
    (h : compile fs path = .ok s) (hr : readNodes fs path = .ok ns) :
    Pointwise ErrorMeans (Compile.errors ns) (s.errors.filter fun e => e.ptr.1 = path) := by
  cases compile_sound h with
  | @intro _ ns' s0 s1 _ ps h1 h2 h3 h4 h5 h6 =>
    rw [hr] at h1
    simp only [Res.ok.injEq] at h1
    subst h1
    obtain ⟨-, -, es, g1, g2⟩ := compiled_imported hr h2 h3 h4 h5 h6
    have hown := merged_owned hr h2 h3 h4
    have hf : s.errors.filter (fun e => e.ptr.1 = path) = es.map fun e => { e with name := trimSpace e.name } := by
      rw [g2, List.map_append, List.filter_append, List.filter_eq_nil_iff.2, List.nil_append,
        List.filter_eq_self.2]
      · intro t ht
        rw [List.mem_map] at ht
        obtain ⟨w, hw, rfl⟩ := ht
        have hx : w.ptr ∈ es.map (·.ptr) := List.mem_map_of_mem hw
        rw [makeErrors_ptr g1, List.mem_mapIdx] at hx
        obtain ⟨i, _, hx⟩ := hx
        simp [← hx]
      · intro t ht
        rw [List.mem_map] at ht
        obtain ⟨w, hw, rfl⟩ := ht
        have := hown.errorsFrom w hw
        simpa using this
    rw [hf]
    have key : ∀ (l : List ErrorNode) (i : Nat) (xs : List ErrorDecl), (∀ n ∈ l, Verif.Ridl.ErrOK n) →
        Pointwise (fun (p : ErrorNode × Nat) y => makeError path p.2 p.1 = .ok y) (l.zipIdx i) xs →
        Pointwise ErrorMeans l (xs.map fun e => { e with name := trimSpace e.name }) := by
      intro l
      induction l with
      | nil => intro i xs _ hp; cases hp; exact .nil
      | cons n l ih =>
        intro i xs hok hp
        rw [List.zipIdx_cons] at hp
        cases hp with
        | @cons _ y _ ys hy hp =>
          refine .cons ?_ (ih _ _ (fun m hm => hok m (by simp [hm])) hp)
          obtain ⟨c1, c2, ⟨m, c3, c4⟩, c5⟩ := hok n (by simp)
          simp only [makeError, c3, Res.ok.injEq] at hy
          subst hy
          refine ⟨fun hle => ?_, rfl, ⟨m, c3, rfl⟩, fun hz => ?_, fun t ht hle => ?_⟩
          · dsimp only; rw [parseInt32_val c1, if_pos hle]
          · simp [hz]
          · simp only [ht]; rw [parseInt32_val (c5 t ht), if_pos hle]
    exact key _ 0 es (errors_ok hr) (eachIdx_ok.1 g1)

/-- The digits of a number read back. -/
theorem decimalValue_repr (n : Nat) : decimalValue (Nat.repr n).toList = n := by
  have h1 : ∀ t : Str, (∀ c ∈ t, c ∈ "0123456789".toList) →
      decimalValue t = t.foldl (fun a c => a * 10 + (c.toNat - '0'.toNat)) 0 := by
    intro t _
    unfold decimalValue
    congr 1
    funext a c
    omega
  have key : ∀ n : Nat, decimalValue (Nat.toDigits 10 n) = n := by
    intro n
    induction n using Nat.strongRecOn with
    | _ n ih =>
      by_cases hn : n < 10
      · rw [Nat.toDigits_of_lt_base hn]
        have hd : ∀ d : Fin 10, decimalValue [Nat.digitChar d.val] = d.val := by decide
        exact hd ⟨n, hn⟩
      · rw [Nat.toDigits_of_base_le (by omega) (by omega)]
        have h2 := ih (n / 10) (by omega)
        have hd : ∀ d : Fin 10, (Nat.digitChar d.val).toNat - '0'.toNat = d.val := by decide
        unfold decimalValue at *
        rw [List.foldl_append, h2]
        simp only [List.foldl_cons, List.foldl_nil]
        rw [hd ⟨n % 10, by omega⟩]
        dsimp only
        omega
  have : (Nat.repr n).toList = Nat.toDigits 10 n := by simp [Nat.repr]
  rw [this]; exact key n

/-- C34. So a code written in the usual way is that number. -/
theorem C34_code_as_written (n : ErrorNode) (e : ErrorDecl) (h : ErrorMeans n e) (k : Nat) (hk : k ≤ maxInt32)
    (hn : n.code.val = (Nat.repr k).toList) : e.code = k := by
  have := h.code
  rw [hn, decimalValue_repr] at this
  exact this hk

/-- C34 is false of the code beyond 32 bits: a larger code silently becomes the largest `int32`. -/
theorem C34_clamped : let _ := asciiOnly
    partOf (fun s => s.errors.map fun e => (e.code, e.name, e.message, e.httpStatus))
      (compile [(S "a", S "webrpc = v1\nname = x\nversion = v1\nerror 4294967297 Big \"too big\"\nerror 7 Small \"ok\" HTTP 404\n")]
        (S "a")) = some [(2147483647, S "Big", S "too big", 400), (7, S "Small", S "ok", 404)] := by decide +kernel

/-! ### C36, C64 -/

/-- C36. An accepted file has exactly its declarations in the schema, aliases first, then enums, then
structs, each with its meaning.  Every type expression in them is resolved among *all* types of the schema:
those declared before or after it and the imported ones. -/
theorem C36_declarations_partial [GoUnicode] (fs : Files) (path : Str) (s : Schema) (ns : List Node)
    (h : compile fs path = .ok s) (hr : readNodes fs path = .ok ns) :
    ∃ A E T, s.types.filter (fun t => t.ptr.1 = path) = A ++ E ++ T ∧
      Pointwise (AliasMeans s.types) (aliases ns) A ∧
      Pointwise (EnumMeans s.types) (enums ns) E ∧
      Pointwise (StructMeans s.types) (structs ns) T := by
  cases compile_sound h with
  | @intro _ ns' s0 s1 _ ps h1 h2 h3 h4 h5 h6 =>
    rw [hr] at h1
    simp only [Res.ok.injEq] at h1
    subst h1
    obtain ⟨⟨I, A, E, T, e1, e2, eA, eE, eT⟩, -⟩ := compiled_means hr h2 h3 h4 h5 h6
    refine ⟨A, E, T, ?_, eA, eE, eT⟩
    obtain ⟨⟨I', D, f1, f2, f3⟩, -⟩ := compiled_imported hr h2 h3 h4 h5 h6
    have hl : I.length = I'.length := by rw [← e2.length, ← List.length_map (f := TypeDecl.bare), ← f2]; simp
    have hown := merged_owned hr h2 h3 h4
    have hD : D = A ++ E ++ T := by
      rw [e1, List.append_assoc, List.append_assoc] at f1
      rw [← (List.append_inj f1 hl).2, List.append_assoc]
    rw [f1, List.filter_append, List.filter_eq_nil_iff.2, List.nil_append, List.filter_eq_self.2, hD]
    · intro t ht
      have : t.ident ∈ (declaredTypes path ns).map TypeDecl.ident := by rw [← f3]; exact List.mem_map_of_mem ht
      rw [List.mem_map] at this
      obtain ⟨w, hw, hwb⟩ := this
      have hp : t.ptr = w.ptr := congrArg Prod.fst hwb.symm
      simp [hp, (declaredTypes_ptr path ns).2 w hw]
    · intro t ht
      have : t.bare ∈ (mergeAll s0 ps).types.map TypeDecl.bare := by rw [← f2]; exact List.mem_map_of_mem ht
      rw [List.mem_map] at this
      obtain ⟨w, hw, hwb⟩ := this
      have hp : w.ptr = t.ptr := congrArg Prod.fst (bare_ptr hwb)
      have := hown.typesFrom w hw
      rw [hp] at this
      simpa using this

/-- C64. Aliases, enums and structs have the kind, name, comments, metas, members and fields as written. -/
theorem C64_types [GoUnicode] (fs : Files) (path : Str) (s : Schema) (ns : List Node)
    (h : compile fs path = .ok s) (hr : readNodes fs path = .ok ns) :
    ∃ A E T, s.types.filter (fun t => t.ptr.1 = path) = A ++ E ++ T ∧
      Pointwise (AliasMeans s.types) (aliases ns) A ∧
      Pointwise (EnumMeans s.types) (enums ns) E ∧
      Pointwise (StructMeans s.types) (structs ns) T :=
  C36_declarations_partial fs path s ns h hr

/-- C64. The same for services: name, comments, and all methods in order with their flags, errors,
annotations (the last one of each kind), arguments and results. -/
theorem C64_services [GoUnicode] (fs : Files) (path : Str) (s : Schema) (ns : List Node)
    (h : compile fs path = .ok s) (hr : readNodes fs path = .ok ns) :
    Pointwise (ServiceMeans s.types) (services ns) (s.services.filter fun v => v.ptr.1 = path) := by
  cases compile_sound h with
  | @intro _ ns' s0 s1 _ ps h1 h2 h3 h4 h5 h6 =>
    rw [hr] at h1
    simp only [Res.ok.injEq] at h1
    subst h1
    obtain ⟨-, I, V, e1, e2, eV⟩ := compiled_means hr h2 h3 h4 h5 h6
    obtain ⟨-, ⟨I', D, f1, f2, f3⟩, -⟩ := compiled_imported hr h2 h3 h4 h5 h6
    have hl : I.length = I'.length := by rw [← e2.length, ← List.length_map (f := Service.bare), ← f2]; simp
    have hown := merged_owned hr h2 h3 h4
    have hD : D = V := by
      rw [e1] at f1
      exact (List.append_inj f1 hl).2.symm
    have : s.services.filter (fun v => v.ptr.1 = path) = V := by
      rw [f1, List.filter_append, List.filter_eq_nil_iff.2, List.nil_append, List.filter_eq_self.2, hD]
      · intro t ht
        have : t.ident ∈ (declaredServices path ns).map Service.ident := by
          rw [← f3]; exact List.mem_map_of_mem ht
        rw [List.mem_map] at this
        obtain ⟨w, hw, hwb⟩ := this
        have hp : t.ptr = w.ptr := congrArg Prod.fst hwb.symm
        simp [hp, (declaredServices_ptr path ns).2 w hw]
      · intro t ht
        have : t.bare ∈ (mergeAll s0 ps).services.map Service.bare := by rw [← f2]; exact List.mem_map_of_mem ht
        rw [List.mem_map] at this
        obtain ⟨w, hw, hwb⟩ := this
        have hp : w.ptr = t.ptr := congrArg Prod.fst (bare_ptr_service hwb)
        have := hown.servicesFrom w hw
        rw [hp] at this
        simpa using this
    rw [this]
    exact eV

/-- Forward references: a struct, an alias and a service using types declared later. -/
def exForward : Files :=
  [(S "a", S "webrpc = v1\nname = x\nversion = v1\nservice V\n - M(a: T) => (u: U)\nstruct T\n - u: U\n - ids: []Id\ntype Id: uint64\nstruct U\n - t: map<K,T>\nenum K: uint8\n - A\n")]

example : let _ := asciiOnly
    partOf (fun s => s.types.map fun t => (t.name, t.fields.map (·.type))) (compile exForward (S "a")) = some
      [(S "Id", []), (S "K", [none]),
       (S "T", [some (.struct (S "U") (S "U") (S "a", 3)),
                some (.list (S "[]Id") (.alias (S "Id") (S "Id") (S "a", 0)))]),
       (S "U", [some (.map (S "map<K,T>") (.enum (S "K") (S "K") (S "a", 1)) (.struct (S "T") (S "T") (S "a", 2)))])] := by
  decide +kernel

/-- Aliases in two orders: the second one uses the first as a map key. -/
def exAliases (swap : Bool) : Files :=
  let a := S "type K2: K\n"
  let b := S "type M: map<K2,string>\n"
  [(S "a", S "webrpc = v1\nname = x\nversion = v1\nenum K: uint8\n - A\n" ++ if swap then b ++ a else a ++ b)]

/-- C36 is false of the code for aliases used as map keys: if the alias is declared before its use the file is
accepted, in the other order the compiler panics (its type is not there yet). -/
theorem C36_alias_order : let _ := asciiOnly
    sizes (compile (exAliases false) (S "a")) = some (3, 0, 0) ∧
    (match compile (exAliases true) (S "a") with | .panic => true | _ => false) = true := by decide +kernel

end Verif.Props
