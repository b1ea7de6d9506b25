import Verif.Props.Grammar
import Verif.Props.Declarations
import Verif.Props.Frame
import Verif.Props.Validation
import Verif.Ridl.EmitArgs

/-! # C114: everything in a schema is written in one of its files -/

namespace Verif.Props
open Verif.Schema Verif.Compile
open Verif.Ridl (TT Token Node DefNode ArgNode AnnNode ImportNode EnumNode StructNode ErrorNode MethodNode ServiceNode AliasNode parseDoc)
open Verif.Spec hiding advance
open Verif.Spec.Grammar hiding Path

theorem _root_.Verif.Spec.Grammar.EnumRows.mem {i r : List Lexeme} {ms : List FieldEntry} (h : EnumRows i ms r) {f : FieldEntry} (hf : f ∈ ms) :
    ∃ pre m g j k, i = pre ++ (.minusSign, m) :: (g ++ (.word, f.name) :: j) ∧ Gap g ∧ MemberValue j f.value k := by
  induction h with
  | stop => simp at hf
  | noise hn h ih =>
    obtain ⟨pre, m, g, j, k, rfl, h1⟩ := ih hf
    obtain ⟨u, rfl⟩ := hn.suf
    exact ⟨u ++ pre, m, g, j, k, by simp, h1⟩
  | @row m n doc g i j r v ms hg hv h ih =>
    rcases List.mem_cons.1 hf with rfl | hf
    · exact ⟨[], m, g, i, j, rfl, hg, hv⟩
    · obtain ⟨pre, m', g', j', k', rfl, h1⟩ := ih hf
      obtain ⟨u, rfl⟩ := hv.suf
      exact ⟨(.minusSign, m) :: (g ++ (.word, n) :: u) ++ pre, m', g', j', k', by simp, h1⟩

/-- The file `file`, which is `path` or imported by it, over any number of files, is the tokens `l`. -/
def FileOf (fs : Files) (path file : Str) (l : List Lexeme) : Prop :=
  Reach (Imports fs) path file ∧ ∃ src, fs.lookup file = some src ∧ Segments src l

/-- `t` is the same type, but for the trees of type expressions, in the schema of the file that declares it. -/
theorem origin_types [GoUnicode] {fs : Files} {path : Str} {s : Schema} (h : Compiled fs path s) : ∀ t ∈ s.types, ∃ m, ∃ u ∈ m.types,
    Reach (Imports fs) path t.ptr.1 ∧ compile fs t.ptr.1 = .ok m ∧ u.bare = t.bare := by
  induction h with
  | @intro path ns s0 s1 s ps h1 h2 h3 h4 h5 h6 ih =>
    intro t ht
    have hc := compile_iff.2 (Compiled.intro h1 h2 h3 h4 h5 h6)
    by_cases hp : t.ptr.1 = path
    · rw [hp]; exact ⟨s, t, ht, .inl rfl, hc, rfl⟩
    · obtain ⟨n, hn, m, hm, -, u, hu, hb⟩ := (C31_types fs path s ns hc h1 t).1 ⟨t, ht, hp, rfl⟩
      have hn' := hn
      rw [← h3, List.mem_map] at hn
      obtain ⟨p, hpm, rfl⟩ := hn
      have hpe : p.2 = m := compiled_det (h4 p hpm) (compile_sound hm)
      obtain ⟨m', u', hu', hr, hm', hb'⟩ := ih p hpm u (by rw [hpe]; exact hu)
      have hptr : u.ptr = t.ptr := congrArg Prod.fst (bare_ptr hb)
      rw [hptr] at hr hm'
      exact ⟨m', u', hu', reach_cons ⟨ns, h1, p.1, hn', rfl⟩ hr, hm', hb'.trans hb⟩

theorem origin_services [GoUnicode] {fs : Files} {path : Str} {s : Schema} (h : Compiled fs path s) : ∀ t ∈ s.services, ∃ m, ∃ u ∈ m.services,
    Reach (Imports fs) path t.ptr.1 ∧ compile fs t.ptr.1 = .ok m ∧ u.bare = t.bare := by
  induction h with
  | @intro path ns s0 s1 s ps h1 h2 h3 h4 h5 h6 ih =>
    intro t ht
    have hc := compile_iff.2 (Compiled.intro h1 h2 h3 h4 h5 h6)
    by_cases hp : t.ptr.1 = path
    · rw [hp]; exact ⟨s, t, ht, .inl rfl, hc, rfl⟩
    · obtain ⟨n, hn, m, hm, -, u, hu, hb⟩ := (C31_services fs path s ns hc h1 t).1 ⟨t, ht, hp, rfl⟩
      have hn' := hn
      rw [← h3, List.mem_map] at hn
      obtain ⟨p, hpm, rfl⟩ := hn
      have hpe : p.2 = m := compiled_det (h4 p hpm) (compile_sound hm)
      obtain ⟨m', u', hu', hr, hm', hb'⟩ := ih p hpm u (by rw [hpe]; exact hu)
      have hptr : u.ptr = t.ptr := (congrArg Service.ptr hb :)
      rw [hptr] at hr hm'
      exact ⟨m', u', hu', reach_cons ⟨ns, h1, p.1, hn', rfl⟩ hr, hm', hb'.trans hb⟩

theorem origin_errors [GoUnicode] {fs : Files} {path : Str} {s : Schema} (h : Compiled fs path s) : ∀ e ∈ s.errors, ∃ m, e ∈ m.errors ∧
    Reach (Imports fs) path e.ptr.1 ∧ compile fs e.ptr.1 = .ok m := by
  induction h with
  | @intro path ns s0 s1 s ps h1 h2 h3 h4 h5 h6 ih =>
    intro t ht
    have hc := compile_iff.2 (Compiled.intro h1 h2 h3 h4 h5 h6)
    by_cases hp : t.ptr.1 = path
    · rw [hp]; exact ⟨s, ht, .inl rfl, hc⟩
    · obtain ⟨n, hn, m, hm, -, hu⟩ := (C31_errors fs path s ns hc h1 t).1 ⟨ht, hp⟩
      have hn' := hn
      rw [← h3, List.mem_map] at hn
      obtain ⟨p, hpm, rfl⟩ := hn
      have hpe : p.2 = m := compiled_det (h4 p hpm) (compile_sound hm)
      obtain ⟨m', hu', hr, hm'⟩ := ih p hpm t (by rw [hpe]; exact hu)
      exact ⟨m', hu', reach_cons ⟨ns, h1, p.1, hn', rfl⟩ hr, hm'⟩

theorem read_file [GoUnicode] {fs : Files} {path : Str} {s : Schema} (h : compile fs path = .ok s) :
    ∃ ns src l, readNodes fs path = .ok ns ∧ fs.lookup path = some src ∧ parseDoc src = .ok ns ∧ Segments src l := by
  cases compile_sound h with
  | @intro _ ns s0 s1 _ ps h1 h2 h3 h4 h5 h6 =>
    have h1' := h1
    simp only [readNodes, Res.bind_ok] at h1
    obtain ⟨_, -, h1⟩ := h1
    cases hl : fs.lookup path with
    | none => simp [hl] at h1
    | some src =>
      simp only [hl] at h1
      cases hp : parseDoc src with
      | ok ns' =>
        simp only [hp, Res.ok.injEq] at h1
        obtain ⟨l, hl'⟩ := C111_tokens src
        exact ⟨ns, src, l, h1', rfl, by rw [hp, h1], hl'⟩
      | err _ _ _ _ => simp [hp] at h1
      | panic => simp [hp] at h1
      | outOfFuel => simp [hp] at h1

/-- **C114.** Every type of a schema is declared in one of its files: an enum with `enum` and its name, an alias with `type` and its
name, a struct with `struct` and its name, and each field of it stands there with its name, its `?` if it is optional, and a type;
the members of an enum with their names, and the values that are given. -/
theorem C114_types [GoUnicode] (fs : Files) (path : Str) (s : Schema) (h : compile fs path = .ok s) (t : TypeDecl) (ht : t ∈ s.types) :
    ∃ l, FileOf fs path t.ptr.1 l ∧
      ((t.kind = S "alias" ∧ ∃ pre g1 g2 c i v j, l = pre ++ (.word, "type".toList) :: (g1 ++ (.word, t.name) :: (.colon, c) :: (g2 ++ i)) ∧
          Gap g1 ∧ Gap g2 ∧ TypeE i v j) ∨
       (t.kind = S "enum" ∧ ∃ pre g1 g2 c type post,
          l = pre ++ (.word, "enum".toList) :: (g1 ++ (.word, t.name) :: (.colon, c) :: (g2 ++ (.word, type) :: post)) ∧ Gap g1 ∧ Gap g2 ∧
          ∀ f ∈ t.fields, ∃ pre' m g j v k, post = pre' ++ (.minusSign, m) :: (g ++ (.word, f.name) :: j) ∧ Gap g ∧
            MemberValue j v k ∧ ∀ x, v = some x → x ≠ [] → f.value = x) ∨
       (t.kind = S "struct" ∧ ∃ pre g body, l = pre ++ (.word, "struct".toList) :: (g ++ (.word, t.name) :: body) ∧ Gap g ∧
          ∀ f ∈ t.fields, ∃ pre' m c g1 g2 j k r v, body = pre' ++ (.minusSign, m) :: (g1 ++ (.word, f.name) :: j) ∧ Gap g1 ∧
            Mark j f.optional ((.colon, c) :: (g2 ++ k)) ∧ Gap g2 ∧ TypeE k v r)) := by
  obtain ⟨m, u, hu, hr, hm, hb⟩ := origin_types (compile_sound h) t ht
  obtain ⟨ns, src, l, hns, hsrc, hdoc, hl⟩ := read_file hm
  refine ⟨l, ⟨hr, src, hsrc, hl⟩, ?_⟩
  have hkind : u.kind = t.kind := (congrArg TypeDecl.kind hb :)
  have hname : u.name = t.name := (congrArg TypeDecl.name hb :)
  have hfields : u.fields.map Field.bare = t.fields.map Field.bare := congrArg TypeDecl.fields hb
  have hptr : u.ptr = t.ptr := (congrArg TypeDecl.ptr hb :)
  have hf : ∀ f ∈ t.fields, ∃ f' ∈ u.fields, f'.name = f.name ∧ f'.optional = f.optional ∧ f'.value = f.value := by
    intro f hf
    have : f.bare ∈ u.fields.map Field.bare := by rw [hfields]; exact List.mem_map_of_mem hf
    obtain ⟨f', h1, h2⟩ := List.mem_map.1 this
    exact ⟨f', h1, (congrArg Field.name h2 :), (congrArg Field.optional h2 :), (congrArg Field.value h2 :)⟩
  obtain ⟨A, E, T, e, hA, hE, hT⟩ := C64_types fs t.ptr.1 m ns hm hns
  have hu' : u ∈ A ++ E ++ T := by rw [← e]; simp [hu, hptr]
  rw [List.mem_append, List.mem_append] at hu'
  rw [← hkind, ← hname]
  rcases hu' with (hu' | hu') | hu'
  · obtain ⟨n, hn, hm⟩ := hA.mem_right hu'
    refine .inl ⟨hm.kind, ?_⟩
    simp only [aliases, List.mem_filterMap] at hn
    obtain ⟨nd, hnd, hn⟩ := hn
    have : nd = .alias n := by cases nd <;> simp at hn; rw [hn]
    subst this
    obtain ⟨pre, i, d, r, rfl, hd, hmem⟩ := (C111_grammar hdoc hl).mem (List.mem_map_of_mem (f := Node.entry) hnd)
    cases hd with
    | imports he h => simp [Node.entry] at hmem
    | @alias name c doc g1 g2 i j r v ms h1 h2 hty h =>
      simp only [Node.entry, List.mem_singleton, Entry.alias.injEq] at hmem
      rw [hm.name, hmem.2.1]
      exact ⟨pre, g1, g2, c, _, _, _, rfl, h1, h2, hty⟩
    | _ => simp [Node.entry] at hmem
  · obtain ⟨n, hn, hm⟩ := hE.mem_right hu'
    refine .inr (.inl ⟨hm.kind, ?_⟩)
    simp only [enums, List.mem_filterMap] at hn
    obtain ⟨nd, hnd, hn⟩ := hn
    have : nd = .enum n := by cases nd <;> simp at hn; rw [hn]
    subst this
    obtain ⟨pre, i, d, r, rfl, hd, hmem⟩ := (C111_grammar hdoc hl).mem (List.mem_map_of_mem (f := Node.entry) hnd)
    cases hd with
    | imports he h => simp [Node.entry] at hmem
    | @enum name c type doc g1 g2 i j r ms h1 h2 hle h =>
      simp only [Node.entry, List.mem_singleton, Entry.enum.injEq] at hmem
      rw [hm.name, hmem.2.1]
      refine ⟨pre, g1, g2, c, type, _, rfl, h1, h2, fun f hf0 => ?_⟩
      obtain ⟨f', hf', e1, -, e3⟩ := hf f hf0
      obtain ⟨⟨v, k⟩, hv, hvm⟩ := hm.members.mem_right hf'
      have hv' : v ∈ n.values := (List.mem_zipIdx' hv).2 ▸ List.getElem_mem _
      have : v.entry ∈ ms := by rw [← hmem.2.2.2]; exact List.mem_map_of_mem hv'
      obtain ⟨pre', m, g, j', k, e, hg, hval⟩ := h.mem this
      obtain ⟨w, rfl⟩ := hle.suf
      refine ⟨w ++ pre', m, g, j', _, k, ?_, hg, hval, fun x hx hne => ?_⟩
      · rw [e, ← e1, hvm.name]; simp [DefNode.entry]
      · have hx' : textOf v.right = x := by
          have : v.right.map Token.val = some x := hx
          cases hr : v.right with
          | none => simp [hr] at this
          | some tk => simpa [hr, textOf] using this
        rw [← e3, hvm.explicit (by rw [hx']; exact hne), hx']
    | _ => simp [Node.entry] at hmem
  · obtain ⟨n, hn, hm⟩ := hT.mem_right hu'
    refine .inr (.inr ⟨hm.kind, ?_⟩)
    simp only [structs, List.mem_filterMap] at hn
    obtain ⟨nd, hnd, hn⟩ := hn
    have : nd = .struct n := by cases nd <;> simp at hn; rw [hn]
    subst this
    obtain ⟨pre, g, body, e, hg, hfs⟩ := C111_fields hdoc hl (List.mem_map_of_mem (f := Node.entry) hnd)
    refine ⟨pre, g, body, by rw [hm.name]; exact e, hg, fun f hf0 => ?_⟩
    obtain ⟨f', hf', e1, e2, -⟩ := hf f hf0
    obtain ⟨v, hv, hvm⟩ := hm.fields.mem_right hf'
    obtain ⟨pre', m, c, g1, g2, j, k, r, v', h1, h2, h3, h4, h5, -⟩ := hfs v.entry (List.mem_map_of_mem hv)
    refine ⟨pre', m, c, g1, g2, j, k, r, v', ?_, h2, ?_, h4, h5⟩
    · rw [h1, ← e1, hvm.name]; rfl
    · rw [← e2, hvm.optional]; exact h3

/-- The arguments (or results) `xs` of a method are those written as `es`: each has the name, `?` and type of one of them, in order; or,
for a method in succinct form, the only one is named like the struct in the parentheses, which is its type.  `T text tree` tells what
is known of the tree of the type written as `text`. -/
def ArgsFrom [GoUnicode] (T : Str → Option VarType → Prop) (succinct : Bool) (es : List ArgEntry) (xs : List Argument) : Prop :=
  if succinct then ∃ w n a, es = [.whole w] ∧ xs = [a] ∧ toLower n = toLower w ∧ a.name = toLowerFirst n ∧ a.optional = false ∧ T n a.type
  else Pointwise (fun e a => ∃ text, e = .one (some a.name) (some text) a.optional ∧ T text a.type) es xs

theorem argsFrom_mean [GoUnicode] {ts : List TypeDecl} {b : Bool} {vs : List ArgNode} {xs : List Argument} (h : ArgsMean ts b vs xs)
    (hv : ∀ v ∈ vs, Verif.Ridl.ArgOK v) (hx : ∀ a ∈ xs, a.name ≠ []) : ArgsFrom (TreeOf ts) b (vs.map ArgNode.entry) xs := by
  unfold ArgsMean at h
  unfold ArgsFrom
  cases b with
  | true =>
    rw [if_pos rfl] at h ⊢
    obtain ⟨v, n, a, rfl, h1, rfl, h2⟩ := h
    obtain ⟨d, ⟨l, r, e1, e2, -⟩, h3, h4, h5⟩ := h2.type
    exact ⟨n.val, d.name, a, by simp [ArgNode.entry, h1], rfl, e2, h4, h2.optional, h5⟩
  | false =>
    rw [if_neg (by simp)] at h ⊢
    replace h := h.2
    induction h with
    | nil => exact .nil
    | @cons v a vs xs h1 h2 ih =>
      refine .cons ?_ (ih (fun w hw => hv w (by simp [hw])) fun w hw => hx w (by simp [hw]))
      rcases hv v (by simp) with ⟨t, rfl⟩ | ⟨n, t, o, rfl⟩
      · exact absurd h1.name (hx a (by simp))
      · refine ⟨t.val, ?_, h1.type⟩
        rw [h1.name, h1.optional]
        rfl

/-- A service of the file itself. -/
theorem written_service [GoUnicode] {fs : Files} {path : Str} {m : Schema} (hm : compile fs path = .ok m) {u : Service} (hu : u ∈ m.services)
    (hp : u.ptr.1 = path) : ∃ src l pre g i body, fs.lookup path = some src ∧ Segments src l ∧
      l = pre ++ (.word, "service".toList) :: (g ++ i) ∧ Gap g ∧ Value i u.name body ∧
      ∀ mt ∈ u.methods, ∃ pre' anns j e r, body = pre' ++ j ∧ MethodRow anns j e r ∧ mt.name = e.name ∧ mt.streamInput = e.streamIn ∧
        mt.streamOutput = e.streamOut ∧ mt.errors = e.errors ∧ ArgsFrom (TreeOf m.types) mt.succinct e.inputs mt.inputs ∧
        ArgsFrom (TreeOf m.types) mt.succinct e.outputs mt.outputs := by
  obtain ⟨ns, src, l, hns, hsrc, hdoc, hl⟩ := read_file hm
  obtain ⟨n, hn, hmean⟩ := (C64_services fs path m ns hm hns).mem_right (y := u) (by simp [hu, hp])
  simp only [services, List.mem_filterMap] at hn
  obtain ⟨nd, hnd, hn⟩ := hn
  have : nd = .service n := by cases nd <;> simp at hn; rw [hn]
  subst this
  have hargs : Verif.Ridl.ServiceArgs n := Verif.Ridl.parseDoc_args hdoc _ hnd
  obtain ⟨pre, g, i, body, e, hg, hval, hms⟩ := C111_methods hdoc hl (List.mem_map_of_mem (f := Node.entry) hnd)
  refine ⟨src, l, pre, g, i, body, hsrc, hl, e, hg, by rw [hmean.name]; exact hval, fun mt hmt => ?_⟩
  obtain ⟨n', hn', hmm⟩ := hmean.methods.mem_right hmt
  obtain ⟨pre', anns, j, r, h1, h2⟩ := hms n'.entry (List.mem_map_of_mem hn')
  have hnames : ∀ a ∈ mt.inputs ++ mt.outputs, a.name ≠ [] := by
    cases compile_sound hm with
    | intro _ _ _ _ _ h6 => exact fun a ha => ((C21_method_errors _ m h6 u hu mt hmt).2.1 a ha).1
  refine ⟨pre', anns, j, n'.entry, r, h1, h2, hmm.name, hmm.streamInput, hmm.streamOutput, hmm.errors,
    argsFrom_mean hmm.inputs (fun a ha => hargs n' hn' a (by simp [ha])) (fun a ha => hnames a (by simp [ha])),
    argsFrom_mean hmm.outputs (fun a ha => hargs n' hn' a (by simp [ha])) (fun a ha => hnames a (by simp [ha]))⟩

theorem argsFrom_bare [GoUnicode] {T : Str → Option VarType → Prop} {b : Bool} {es : List ArgEntry} {xs ys : List Argument}
    (h : ArgsFrom T b es xs) (hb : xs.map Argument.bare = ys.map Argument.bare) : ArgsFrom (fun _ _ => True) b es ys := by
  unfold ArgsFrom at *
  have hname : ∀ {a a' : Argument}, a.bare = a'.bare → a.name = a'.name ∧ a.optional = a'.optional := fun h =>
    ⟨(congrArg Argument.name h :), (congrArg Argument.optional h :)⟩
  cases b with
  | true =>
    rw [if_pos rfl] at h ⊢
    obtain ⟨w, n, a, rfl, rfl, h1, h2, h3, -⟩ := h
    cases ys with
    | nil => simp at hb
    | cons a' ys =>
      simp only [List.map_cons, List.map_nil, List.cons.injEq] at hb
      have : ys = [] := by simpa using hb.2.symm
      subst this
      obtain ⟨k1, k2⟩ := hname hb.1
      exact ⟨w, n, a', rfl, rfl, h1, k1 ▸ h2, k2 ▸ h3, trivial⟩
  | false =>
    rw [if_neg (by simp)] at h ⊢
    induction h generalizing ys with
    | nil =>
      cases ys with
      | nil => exact .nil
      | cons => simp at hb
    | @cons e a es xs h1 h2 ih =>
      cases ys with
      | nil => simp at hb
      | cons a' ys =>
        simp only [List.map_cons, List.cons.injEq] at hb
        obtain ⟨k1, k2⟩ := hname hb.1
        obtain ⟨text, rfl, -⟩ := h1
        exact .cons ⟨text, by rw [k1, k2], trivial⟩ (ih hb.2)

/-- **C114.** Every service of a schema is declared in one of its files, with all its methods: their names, which sides are streams and
which errors they have stand there, and their arguments and results, in order, with their names and `?`. -/
theorem C114_services [GoUnicode] (fs : Files) (path : Str) (s : Schema) (h : compile fs path = .ok s) (v : Service) (hv : v ∈ s.services) :
    ∃ l pre g i body, FileOf fs path v.ptr.1 l ∧ l = pre ++ (.word, "service".toList) :: (g ++ i) ∧ Gap g ∧ Value i v.name body ∧
      ∀ m ∈ v.methods, ∃ pre' anns j e r, body = pre' ++ j ∧ MethodRow anns j e r ∧ m.name = e.name ∧ m.streamInput = e.streamIn ∧
        m.streamOutput = e.streamOut ∧ m.errors = e.errors ∧ ArgsFrom (fun _ _ => True) m.succinct e.inputs m.inputs ∧
        ArgsFrom (fun _ _ => True) m.succinct e.outputs m.outputs := by
  obtain ⟨m, u, hu, hr, hm, hb⟩ := origin_services (compile_sound h) v hv
  have hname : u.name = v.name := (congrArg Service.name hb :)
  have hptr : u.ptr = v.ptr := (congrArg Service.ptr hb :)
  have hmeth : u.methods.map Method.bare = v.methods.map Method.bare := (congrArg Service.methods hb :)
  obtain ⟨src, l, pre, g, i, body, hsrc, hl, e, hg, hval, hms⟩ := written_service hm hu (by rw [hptr])
  refine ⟨l, pre, g, i, body, ⟨hr, src, hsrc, hl⟩, e, hg, by rw [← hname]; exact hval, fun mt hmt => ?_⟩
  have : mt.bare ∈ u.methods.map Method.bare := by rw [hmeth]; exact List.mem_map_of_mem hmt
  obtain ⟨m', hm', hb'⟩ := List.mem_map.1 this
  obtain ⟨pre', anns, j, e, r, h1, h2, h3, h4, h5, h6, h7, h8⟩ := hms m' hm'
  have k0 : m'.succinct = mt.succinct := (congrArg Method.succinct hb' :)
  rw [k0] at h7 h8
  exact ⟨pre', anns, j, e, r, h1, h2, (congrArg Method.name hb' :).symm.trans h3, (congrArg Method.streamInput hb' :).symm.trans h4,
    (congrArg Method.streamOutput hb' :).symm.trans h5, (congrArg Method.errors hb' :).symm.trans h6,
    argsFrom_bare h7 (congrArg Method.inputs hb' :), argsFrom_bare h8 (congrArg Method.outputs hb' :)⟩

/-- **C114.** For a service of the main file, the types of the arguments in the schema are those written. -/
theorem C114_argument_trees [GoUnicode] (fs : Files) (path : Str) (s : Schema) (h : compile fs path = .ok s) (v : Service) (hv : v ∈ s.services)
    (hp : v.ptr.1 = path) :
    ∃ l pre g i body, FileOf fs path path l ∧ l = pre ++ (.word, "service".toList) :: (g ++ i) ∧ Gap g ∧ Value i v.name body ∧
      ∀ m ∈ v.methods, ∃ pre' anns j e r, body = pre' ++ j ∧ MethodRow anns j e r ∧ m.name = e.name ∧ m.streamInput = e.streamIn ∧
        m.streamOutput = e.streamOut ∧ m.errors = e.errors ∧ ArgsFrom (TreeOf s.types) m.succinct e.inputs m.inputs ∧
        ArgsFrom (TreeOf s.types) m.succinct e.outputs m.outputs := by
  obtain ⟨src, l, pre, g, i, body, hsrc, hl, h1⟩ := written_service h hv hp
  exact ⟨l, pre, g, i, body, ⟨.inl rfl, src, hsrc, hl⟩, h1⟩

/-- Annotations with blanks, line ends and comments around them, but no line of a method. -/
inductive Noted : List Lexeme → List (Str × Option Str) → List Lexeme → Prop
  | nil (i : List Lexeme) : Noted i [] i
  | noise {i j r : List Lexeme} {as : List (Str × Option Str)} (hn : Noise i j) (h : Noted j as r) : Noted i as r
  | ann {i j r : List Lexeme} {as bs : List (Str × Option Str)} (ha : Anns i as j) (h : Noted j bs r) : Noted i (as ++ bs) r

/-- Every method stands in the lines of its service behind its annotations, which begin where the line of the method before ends. -/
theorem methods_noted {anns : List (Str × Option Str)} {i r : List Lexeme} {ms : List MethodEntry} (h : Methods anns i ms r)
    {e : MethodEntry} (he : e ∈ ms) : (∃ as j k, Noted i as j ∧ MethodRow (anns ++ as) j e k) ∨
      ∃ pre bs q e' i' as j k, i = pre ++ q ∧ MethodRow bs q e' i' ∧ Noted i' as j ∧ MethodRow as j e k := by
  induction h with
  | stop => simp at he
  | noise hn h ih =>
    rcases ih he with ⟨as, j, k, h1, h2⟩ | ⟨pre, bs, q, e', i', as, j, k, rfl, h1⟩
    · exact .inl ⟨as, j, k, .noise hn h1, h2⟩
    · obtain ⟨u, rfl⟩ := hn.suf
      exact .inr ⟨u ++ pre, bs, q, e', i', as, j, k, by simp, h1⟩
  | ann ha h ih =>
    rcases ih he with ⟨bs, j, k, h1, h2⟩ | ⟨pre, bs, q, e', i', as, j, k, rfl, h1⟩
    · exact .inl ⟨_, j, k, .ann ha h1, by rw [← List.append_assoc]; exact h2⟩
    · obtain ⟨u, rfl⟩ := ha.suf
      exact .inr ⟨u ++ pre, bs, q, e', i', as, j, k, by simp, h1⟩
  | @row anns i j r m ms hr h ih =>
    rcases List.mem_cons.1 he with rfl | he
    · exact .inl ⟨[], i, j, .nil i, by simpa using hr⟩
    · rcases ih he with ⟨as, j', k, h1, h2⟩ | ⟨pre, bs, q, e', i', as, j', k, rfl, h1⟩
      · exact .inr ⟨[], anns, i, m, j, as, j', k, rfl, hr, h1, by simpa using h2⟩
      · obtain ⟨u, rfl⟩ := hr.suf
        exact .inr ⟨u ++ pre, bs, q, e', i', as, j', k, by simp, h1⟩

theorem methodRow_anns {as : List (Str × Option Str)} {j k : List Lexeme} {e : MethodEntry} (h : MethodRow as j e k) : e.anns = as := by
  cases h <;> rfl

theorem lookup_entry (anns : List AnnNode) (key : Str) :
    (((anns.filter fun a => a.annType.val = key).getLast?).map fun a => ({ annotationType := key, value := textOf a.value } : Annotation)) =
      (((anns.map fun a => (a.annType.val, a.value.map Token.val)).filter fun a => a.1 = key).getLast?).map fun a =>
        { annotationType := key, value := a.2.getD [] } := by
  rw [List.filter_map, List.getLast?_map, Option.map_map]
  congr 1
  funext a
  cases h : a.value <;> simp [textOf, h]

/-- **C114.** The annotations of a method are those written before its line, behind the line of the method before or the name of the
service: of several with the same name, the last one. -/
theorem C114_annotations [GoUnicode] (fs : Files) (path : Str) (s : Schema) (h : compile fs path = .ok s) (v : Service) (hv : v ∈ s.services) :
    ∃ l pre g i j body, FileOf fs path v.ptr.1 l ∧ l = pre ++ (.word, "service".toList) :: (g ++ i) ∧ Gap g ∧ Value i v.name j ∧
      LineEnd j body ∧ ∀ m ∈ v.methods, ∃ i' as q e r,
        (i' = body ∨ ∃ pre' bs q' e', body = pre' ++ q' ∧ MethodRow bs q' e' i') ∧ Noted i' as q ∧ MethodRow as q e r ∧ m.name = e.name ∧
        ∀ key, m.annotations.lookup key = ((as.filter fun a => a.1 = key).getLast?).map fun a =>
          { annotationType := key, value := a.2.getD [] } := by
  obtain ⟨m, u, hu, hr, hm, hb⟩ := origin_services (compile_sound h) v hv
  have hname : u.name = v.name := (congrArg Service.name hb :)
  have hptr : u.ptr = v.ptr := (congrArg Service.ptr hb :)
  have hmeth : u.methods.map Method.bare = v.methods.map Method.bare := (congrArg Service.methods hb :)
  obtain ⟨ns, src, l, hns, hsrc, hdoc, hl⟩ := read_file hm
  obtain ⟨n, hn, hmean⟩ := (C64_services fs v.ptr.1 m ns hm hns).mem_right (y := u) (by simp [hu, hptr])
  simp only [services, List.mem_filterMap] at hn
  obtain ⟨nd, hnd, hn⟩ := hn
  have : nd = .service n := by cases nd <;> simp at hn; rw [hn]
  subst this
  obtain ⟨pre, i, d, r, e, hd, hmem⟩ := (C111_grammar hdoc hl).mem (List.mem_map_of_mem (f := Node.entry) hnd)
  cases hd with
  | imports he h => simp [Node.entry] at hmem
  | @service doc g i j body r n' ms hg hval he hms =>
    simp only [Node.entry, List.mem_singleton, Entry.service.injEq] at hmem
    obtain ⟨-, h1, h2⟩ := hmem
    refine ⟨l, pre, g, i, j, body, ⟨hr, src, hsrc, hl⟩, e, hg, by rw [← hname, hmean.name, h1]; exact hval, he, fun mt hmt => ?_⟩
    have : mt.bare ∈ u.methods.map Method.bare := by rw [hmeth]; exact List.mem_map_of_mem hmt
    obtain ⟨m', hm', hb'⟩ := List.mem_map.1 this
    have k1 : m'.name = mt.name := (congrArg Method.name hb' :)
    have k2 : m'.annotations = mt.annotations := (congrArg Method.annotations hb' :)
    obtain ⟨nm, hnm, hmm⟩ := hmean.methods.mem_right hm'
    have hrow : nm.entry ∈ ms := by rw [← h2]; exact List.mem_map_of_mem hnm
    have hfin : ∀ as q k, MethodRow as q nm.entry k → mt.name = nm.entry.name ∧
        ∀ key, mt.annotations.lookup key = ((as.filter fun a => a.1 = key).getLast?).map fun a =>
          ({ annotationType := key, value := a.2.getD [] } : Annotation) := by
      intro as q k hq
      refine ⟨by rw [← k1, hmm.name]; rfl, fun key => ?_⟩
      rw [← k2, hmm.annotations key, ← methodRow_anns hq]
      exact lookup_entry nm.annotations key
    rcases methods_noted hms hrow with ⟨as, q, k, h3, h4⟩ | ⟨pre', bs, q', e', i', as, q, k, h3, h4, h5, h6⟩
    · rw [List.nil_append] at h4
      exact ⟨body, as, q, _, k, .inl rfl, h3, h4, hfin _ _ _ h4⟩
    · exact ⟨i', as, q, _, k, .inr ⟨pre', bs, q', e', h3, h4⟩, h5, h6, hfin _ _ _ h6⟩
  | _ => simp [Node.entry] at hmem

/-- **C114.** Every error of a schema is declared in one of its files: the word `error`, its code, its name, its message, and its status
if it is not 400. -/
theorem C114_errors [GoUnicode] (fs : Files) (path : Str) (s : Schema) (h : compile fs path = .ok s) (e : ErrorDecl) (he : e ∈ s.errors) :
    ∃ l pre g1 g2 g3 i j r code name, FileOf fs path e.ptr.1 l ∧
      l = pre ++ (.word, "error".toList) :: (g1 ++ (.word, code) :: (g2 ++ (.word, name) :: (g3 ++ i))) ∧ Gap g1 ∧ Gap g2 ∧ Gap g3 ∧
      AllDigits code ∧ (decimalValue code ≤ maxInt32 → e.code = decimalValue code) ∧ e.name = trimSpace name ∧ Message i e.message j ∧
      (e.httpStatus = 400 ∨ ∃ st g4 g5, AllDigits st ∧ Gap g4 ∧ Gap g5 ∧ j = g4 ++ (.word, "HTTP".toList) :: (g5 ++ (.word, st) :: r) ∧
        (decimalValue st ≤ maxInt32 → e.httpStatus = decimalValue st)) := by
  obtain ⟨m, hu, hr, hm⟩ := origin_errors (compile_sound h) e he
  obtain ⟨ns, src, l, hns, hsrc, hdoc, hl⟩ := read_file hm
  obtain ⟨n, hn, hmean⟩ := (C34_errors_partial fs e.ptr.1 m ns hm hns).mem_right (y := e) (by simp [hu])
  simp only [errors, List.mem_filterMap] at hn
  obtain ⟨nd, hnd, hn⟩ := hn
  have : nd = .error n := by cases nd <;> simp at hn; rw [hn]
  subst this
  obtain ⟨pre, g1, g2, g3, i, msg, j, r, e1, h1, h2, h3, h4, h5, h6, h7⟩ := C111_errors hdoc hl (List.mem_map_of_mem (f := Node.entry) hnd)
  obtain ⟨mt, k1, k2⟩ := hmean.message
  have : msg = e.message := by rw [k1] at h6; simp at h6; rw [k2, ← h6]
  subst this
  refine ⟨l, pre, g1, g2, g3, i, j, r, n.code.val, n.name.val, ⟨hr, src, hsrc, hl⟩, e1, h1, h2, h3, h4, hmean.code, hmean.name, h5, ?_⟩
  cases hst : n.httpStatus with
  | none => exact .inl (hmean.noStatus hst)
  | some t =>
    obtain ⟨q1, g4, g5, q2, q3, q4⟩ := h7 t.val (by rw [hst]; rfl)
    exact .inr ⟨t.val, g4, g5, q1, q2, q3, q4, hmean.status t hst⟩

/-- **C114.** The fields of a struct of the file itself have the types that are written there. -/
theorem C114_trees [GoUnicode] (fs : Files) (path : Str) (s : Schema) (h : compile fs path = .ok s) (t : TypeDecl) (ht : t ∈ s.types)
    (hp : t.ptr.1 = path) (hk : t.kind = S "struct") :
    ∃ l pre g body, FileOf fs path path l ∧ l = pre ++ (.word, "struct".toList) :: (g ++ (.word, t.name) :: body) ∧ Gap g ∧
      ∀ f ∈ t.fields, ∃ pre' m c g1 g2 j k r v, body = pre' ++ (.minusSign, m) :: (g1 ++ (.word, f.name) :: j) ∧ Gap g1 ∧
        Mark j f.optional ((.colon, c) :: (g2 ++ k)) ∧ Gap g2 ∧ TypeE k v r ∧ TreeOf s.types v f.type := by
  obtain ⟨ns, src, l, hns, hsrc, hdoc, hl⟩ := read_file h
  obtain ⟨A, E, T, e, hA, hE, hT⟩ := C64_types fs path s ns h hns
  have hu' : t ∈ A ++ E ++ T := by rw [← e]; simp [ht, hp]
  rw [List.mem_append, List.mem_append] at hu'
  rcases hu' with (hu' | hu') | hu'
  · obtain ⟨n, hn, hm⟩ := hA.mem_right hu'
    rw [hm.kind] at hk; exact absurd hk (by decide)
  · obtain ⟨n, hn, hm⟩ := hE.mem_right hu'
    rw [hm.kind] at hk; exact absurd hk (by decide)
  · obtain ⟨n, hn, hm⟩ := hT.mem_right hu'
    simp only [structs, List.mem_filterMap] at hn
    obtain ⟨nd, hnd, hn⟩ := hn
    have : nd = .struct n := by cases nd <;> simp at hn; rw [hn]
    subst this
    obtain ⟨pre, g, body, e, hg, hfs⟩ := C111_fields hdoc hl (List.mem_map_of_mem (f := Node.entry) hnd)
    refine ⟨l, pre, g, body, ⟨.inl rfl, src, hsrc, hl⟩, by rw [hm.name]; exact e, hg, fun f hf => ?_⟩
    obtain ⟨v, hv, hvm⟩ := hm.fields.mem_right hf
    obtain ⟨pre', m, c, g1, g2, j, k, r, v', h1, h2, h3, h4, h5, h6⟩ := hfs v.entry (List.mem_map_of_mem hv)
    refine ⟨pre', m, c, g1, g2, j, k, r, v', ?_, h2, ?_, h4, h5, ?_⟩
    · rw [h1, hvm.name]; rfl
    · rw [hvm.optional]; exact h3
    · have : textOf v.right = v' := by
        have h6' : v.right.map Token.val = some v' := h6
        cases hr : v.right with
        | none => simp [hr] at h6'
        | some tk => simpa [hr, textOf] using h6'
      rw [← this]; exact hvm.type

/-- Two files; the schema has a struct of each, an enum, an error and a service. -/
def writtenFiles : Files := [
  (S "a.ridl", S "webrpc = v1\nname = x\nversion = v1\nimport b.ridl\nstruct A\n  - b?: []B\nerror 7 Gone \"it is gone\" HTTP 410\nservice V\n  @auth:jwt @internal\n  - Get(a: A) => stream (b: B) errors Gone\n"),
  (S "b.ridl", S "webrpc = v1\nname = y\nversion = v1\nstruct B\n  - k: K\nenum K: uint8\n  - ONE = 1\n  - TWO\n")]

theorem C114_example : let _ := asciiOnly
    partOf (fun s => s.types.map fun t => (t.ptr.1, t.kind, t.name)) (compile writtenFiles (S "a.ridl")) =
      some [(S "b.ridl", S "enum", S "K"), (S "b.ridl", S "struct", S "B"), (S "a.ridl", S "struct", S "A")] ∧
    partOf (fun s => s.types.map fun t => t.fields.map fun f => (f.name, f.optional, f.value)) (compile writtenFiles (S "a.ridl")) =
      some [[(S "ONE", false, S "1"), (S "TWO", false, S "1")], [(S "k", false, [])], [(S "b", true, [])]] ∧
    partOf (fun s => s.errors.map fun e => (e.code, e.name, e.message, e.httpStatus)) (compile writtenFiles (S "a.ridl")) =
      some [(7, S "Gone", S "it is gone", 410)] ∧
    partOf (fun s => s.services.flatMap fun v => v.methods.map fun m => (v.name, m.name, m.streamOutput, m.errors))
      (compile writtenFiles (S "a.ridl")) = some [(S "V", S "Get", true, [S "Gone"])] ∧
    partOf (fun s => s.services.flatMap fun v => v.methods.map fun m => (m.inputs.map (·.name), m.outputs.map (·.name)))
      (compile writtenFiles (S "a.ridl")) = some [([S "a"], [S "b"])] ∧
    partOf (fun s => s.services.flatMap fun v => v.methods.flatMap fun m => m.annotations.map fun a => (a.1, a.2.value))
      (compile writtenFiles (S "a.ridl")) = some [(S "auth", S "jwt"), (S "internal", [])] := by
  intro _
  exact ⟨by decide +kernel, by decide +kernel, by decide +kernel, by decide +kernel, by decide +kernel, by decide +kernel⟩

end Verif.Props
