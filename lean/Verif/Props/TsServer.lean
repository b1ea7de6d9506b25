import Verif.Spec.TsServer
import Verif.Props.TsBig
import Verif.Props.TsUtf8
/-!
# C96, C97: generated TypeScript servers
-/

namespace Verif.Ts
open Verif.Schema hiding Json Method
open Verif.Json Verif.Gen Verif.Spec Verif.TsSpec Verif.Props Verif.Values
open Verif.Compile (mapSet)

/-! ### Paths -/

/-- The parts that `split('/').filter(Boolean)` gives. -/
def parts (path : Str) : List Str := (Gen.split (S "/") path).filter fun p => !p.isEmpty

theorem slash_ne : S "/" ≠ [] := by decide

theorem parts_slash (s : Str) : parts ('/' :: s) = parts s := by
  have h : cut (S "/") ('/' :: s) = some ([], s) := rfl
  unfold parts
  rw [split_some slash_ne h, List.filter_cons]
  rfl

theorem parts_slashes {a : Str} (h : ∀ c ∈ a, c = '/') (s : Str) : parts (a ++ s) = parts s := by
  induction a with
  | nil => rfl
  | cons c a ih =>
    rw [h c (by simp), List.cons_append, parts_slash]
    exact ih fun c hc => h c (by simp [hc])

theorem parts_seg {seg : Str} (hn : seg ≠ []) (hs : '/' ∉ seg) : parts seg = [seg] ∧ ∀ r, parts (seg ++ '/' :: r) = seg :: parts r := by
  have he : (!seg.isEmpty) = true := by cases seg with
    | nil => exact absurd rfl hn
    | cons => rfl
  constructor
  · unfold parts
    rw [split_none slash_ne (cut_char_none.2 hs), List.filter_cons, he]; rfl
  · intro r
    unfold parts
    have hc : cut (S "/") (seg ++ '/' :: r) = some (seg, r) := (cut_char (c := '/')).2 ⟨hs, rfl⟩
    rw [split_some slash_ne hc, List.filter_cons, he]; rfl

theorem parts_of {path : Str} {segs : List Str} (h : PathOf path segs) : parts path = segs := by
  induction h with
  | none h =>
    rename_i s
    have := parts_slashes h []
    rw [List.append_nil] at this
    rw [this]; rfl
  | some h1 h2 h3 h4 _ ih =>
    rw [List.append_assoc, parts_slashes h1]
    rcases h4 with rfl | ⟨r, rfl⟩
    · rw [List.append_nil, (parts_seg h2 h3).1, ← ih]; rfl
    · rw [(parts_seg h2 h3).2 r, ← ih, parts_slash]

theorem segments_slash {s : Str} {segs : List Str} (h : PathOf s segs) : PathOf ('/' :: s) segs := by
  cases h with
  | none h =>
    refine .none fun c hc => ?_
    rcases List.mem_cons.1 hc with rfl | hc
    · rfl
    · exact h c hc
  | some h1 h2 h3 h4 h5 =>
    rename_i sl seg rest segs
    have := PathOf.some (slashes := '/' :: sl) (by
      intro c hc
      rcases List.mem_cons.1 hc with rfl | hc
      · rfl
      · exact h1 c hc) h2 h3 h4 h5
    exact this

theorem segments_all (path : Str) : PathOf path (parts path) := by
  suffices h : ∀ n, ∀ path : Str, path.length ≤ n → ∃ segs, PathOf path segs by
    obtain ⟨segs, h⟩ := h _ path (Nat.le_refl _)
    rw [parts_of h]; exact h
  intro n
  induction n with
  | zero =>
    intro path h
    have h0 : path.length = 0 := by omega
    rw [List.length_eq_zero_iff.1 h0]; exact ⟨[], .none nofun⟩
  | succ n ih =>
    intro path h
    cases path with
    | nil => exact ⟨[], .none nofun⟩
    | cons c s =>
      simp only [List.length_cons] at h
      by_cases hc : c = '/'
      · subst hc
        obtain ⟨segs, h'⟩ := ih s (by omega)
        exact ⟨segs, segments_slash h'⟩
      · have hsplit : (c :: s).takeWhile (· ≠ '/') ++ (c :: s).dropWhile (· ≠ '/') = c :: s := List.takeWhile_append_dropWhile
        have hne : (c :: s).takeWhile (· ≠ '/') ≠ [] := by
          rw [List.takeWhile_cons, if_pos (by simpa using hc)]; nofun
        have hno : '/' ∉ (c :: s).takeWhile (· ≠ '/') := by
          intro hm
          have := List.all_takeWhile (p := fun x : Char => decide (x ≠ '/')) (l := c :: s)
          have := List.all_eq_true.1 this _ hm
          simp at this
        have hlen := congrArg List.length hsplit
        have hpos : 0 < ((c :: s).takeWhile (· ≠ '/')).length := List.length_pos_iff.2 hne
        simp only [List.length_append, List.length_cons] at hlen
        obtain ⟨segs, h'⟩ := ih ((c :: s).dropWhile (· ≠ '/')) (by omega)
        have hhead : (c :: s).dropWhile (· ≠ '/') = [] ∨ ∃ r, (c :: s).dropWhile (· ≠ '/') = '/' :: r := by
          cases hd : (c :: s).dropWhile (· ≠ '/') with
          | nil => exact Or.inl rfl
          | cons d r =>
            refine Or.inr ⟨r, ?_⟩
            have := List.head?_dropWhile_not (fun x : Char => decide (x ≠ '/')) (c :: s)
            rw [hd] at this
            simp at this
            rw [this]
        have := PathOf.some (slashes := []) nofun hne hno hhead h'
        rw [List.nil_append, hsplit] at this
        exact ⟨_, this⟩

/-- What `split('/').filter(Boolean)` gives. -/
theorem parts_iff {path : Str} {segs : List Str} : parts path = segs ↔ PathOf path segs :=
  ⟨fun h => h ▸ segments_all path, parts_of⟩

variable [JsEngine]

/-! ### Validators -/

omit [JsEngine] in
theorem member_of {v : Js} {name : Str} {x : Js} (h : (membersOf v).lookup name = some x) : member name v = x ∧ depth x < depth v := by
  cases v with
  | obj l =>
    have hm := lookup_mem h
    refine ⟨?_, ?_⟩
    · show ((l.lookup name).getD .undefined) = x
      rw [show l.lookup name = some x from h]; rfl
    · have := depth_member hm
      show depth x < depthMembers l + 1
      have : depth x ≤ depthMembers l := this
      omega
  | _ => cases h

theorem inside_ok {v : Js} {name : Str} (h : IsObject v) : inside name v = .ok ((membersOf v).lookup name).isSome := by
  cases v with
  | obj l => rfl
  | arr l => rfl
  | _ => cases h

theorem inside_error {v : Js} {name : Str} (h : ¬ IsObject v) : ∃ t, inside name v = .error t := by
  cases v with
  | obj l => exact absurd trivial h
  | arr l => exact absurd trivial h
  | _ => exact ⟨_, rfl⟩

theorem checkAll_iff {rec : Js → Str → Except Thrown Bool} {P : Str → Js → Prop} {v : Js}
    (hrec : ∀ x type, depth x < depth v → (rec x type = .ok true ↔ P type x)) (cs : List Check) :
    checkAll rec v cs = .ok true ↔ (cs ≠ [] → IsObject v) ∧ (∀ c ∈ cs, c.required = true → ∃ x, (membersOf v).lookup c.name = some x) ∧
      ∀ c ∈ cs, ∀ x, (membersOf v).lookup c.name = some x → P c.type x := by
  induction cs with
  | nil => simp [checkAll]
  | cons c cs ih =>
    rw [checkAll]
    by_cases ho : IsObject v
    · rw [inside_ok ho]
      cases hl : (membersOf v).lookup c.name with
      | none =>
        simp only [Option.isSome_none]
        cases hr : c.required with
        | true =>
          simp only [if_true, reduceCtorEq, false_iff, Except.ok.injEq, Bool.false_eq_true]
          rintro ⟨-, h, -⟩
          obtain ⟨x, hx⟩ := h c (by simp) hr
          rw [hl] at hx; cases hx
        | false =>
          simp only [Bool.false_eq_true, if_false]
          rw [ih]
          constructor
          · rintro ⟨-, h1, h2⟩
            refine ⟨fun _ => ho, fun d hd hq => ?_, fun d hd x hx => ?_⟩
            · rcases List.mem_cons.1 hd with rfl | hd
              · rw [hr] at hq; cases hq
              · exact h1 d hd hq
            · rcases List.mem_cons.1 hd with rfl | hd
              · rw [hl] at hx; cases hx
              · exact h2 d hd x hx
          · rintro ⟨-, h1, h2⟩
            exact ⟨fun _ => ho, fun d hd => h1 d (by simp [hd]), fun d hd => h2 d (by simp [hd])⟩
      | some x =>
        simp only [Option.isSome_some]
        obtain ⟨hm, hd⟩ := member_of hl
        rw [hm]
        have hx := hrec x c.type hd
        have key : checkAll rec v cs = .ok true ∧ P c.type x ↔ (c :: cs ≠ [] → IsObject v) ∧
            (∀ d ∈ c :: cs, d.required = true → ∃ x, (membersOf v).lookup d.name = some x) ∧
            ∀ d ∈ c :: cs, ∀ x, (membersOf v).lookup d.name = some x → P d.type x := by
          rw [ih]
          constructor
          · rintro ⟨⟨-, h1, h2⟩, h3⟩
            refine ⟨fun _ => ho, fun d hd hq => ?_, fun d hd y hy => ?_⟩
            · rcases List.mem_cons.1 hd with rfl | hd
              · exact ⟨x, hl⟩
              · exact h1 d hd hq
            · rcases List.mem_cons.1 hd with rfl | hd
              · rw [hl] at hy; cases hy; exact h3
              · exact h2 d hd y hy
          · rintro ⟨-, h1, h2⟩
            exact ⟨⟨fun _ => ho, fun d hd => h1 d (by simp [hd]), fun d hd => h2 d (by simp [hd])⟩, h2 c (by simp) x hl⟩
        rw [← key]
        cases hr : rec x c.type with
        | error t => rw [hr] at hx; simp only [reduceCtorEq, false_iff] at hx ⊢; exact fun h => hx h.2
        | ok b =>
          rw [hr] at hx
          cases b with
          | false => simp only [Except.ok.injEq, Bool.false_eq_true, false_iff] at hx ⊢; exact fun h => hx h.2
          | true => simp only [true_iff] at hx; simp [hx]
    · obtain ⟨t, ht⟩ := inside_error (name := c.name) ho
      rw [ht]
      simp only [reduceCtorEq, false_iff]
      rintro ⟨h, -⟩
      exact ho (h (by simp))

theorem validateN_iff (vs : List (Str × List Check)) (n : Nat) (v : Js) (type : Str) (h : depth v < n) :
    validateN vs n v type = .ok true ↔ Conforms vs type v := by
  induction n generalizing v type with
  | zero => omega
  | succ n ih =>
    rw [validateN]
    by_cases ht : type ∈ jsTypes
    · rw [if_pos ht]
      simp only [Except.ok.injEq, decide_eq_true_eq]
      constructor
      · intro h; exact .js ht h
      · intro h
        cases h with
        | js _ h => exact h
        | members h => exact absurd ht h
    · rw [if_neg ht]
      cases hl : vs.lookup type with
      | none =>
        simp only [Except.ok.injEq, Bool.false_eq_true, false_iff]
        intro h
        cases h with
        | js h => exact ht h
        | members _ h => rw [hl] at h; cases h
      | some cs =>
        dsimp only
        rw [checkAll_iff (P := Conforms vs) fun x type hx => ih x type (by omega)]
        constructor
        · rintro ⟨h1, h2, h3⟩; exact .members ht hl h1 h2 h3
        · intro h
          cases h with
          | js h => exact absurd h ht
          | members _ h h1 h2 h3 => rw [hl] at h; cases h; exact ⟨h1, h2, h3⟩

/-- `validateType` says yes exactly for the values of the type. -/
theorem validate_iff (vs : List (Str × List Check)) (v : Js) (type : Str) :
    validateType vs v type = .ok true ↔ Conforms vs type v := validateN_iff vs _ v type (by omega)

theorem checkArgs_all (vs : List (Str × List Check)) (payload : Js) (cs : List Check) :
    checkArgs vs payload cs = .ok () ↔ checkAll (validateType vs) payload cs = .ok true := by
  induction cs with
  | nil => simp [checkArgs, checkAll]
  | cons c cs ih =>
    rw [checkArgs, checkAll]
    cases inside c.name payload with
    | error t => simp
    | ok b =>
      cases b with
      | false => cases c.required <;> simp [ih]
      | true =>
        cases validateType vs (member c.name payload) c.type with
        | error t => simp
        | ok b => cases b <;> simp [ih]

/-- The checks pass exactly if the payload carries the arguments. -/
theorem checks_iff (vs : List (Str × List Check)) (payload : Js) (a : ArgChecks) :
    a.run vs payload = .ok () ↔ Carries vs payload a := by
  cases a with
  | each cs =>
    show checkArgs vs payload cs = .ok () ↔ _
    rw [checkArgs_all, checkAll_iff (P := Conforms vs) fun x type _ => validate_iff vs x type]
    rfl
  | whole type label =>
    show (if truthy payload = true then _ else _) = _ ↔ (truthy payload = true → _)
    by_cases ht : truthy payload = true
    · rw [if_pos ht, ← validate_iff]
      cases validateType vs payload type with
      | error t => simp [ht]
      | ok b => cases b <;> simp [ht]
    · rw [if_neg ht]; simp [ht]

/-! ### C96 -/

/-- The methods of a server have different names. -/
def TsServer.Distinct (s : TsServer) : Prop := (s.methods.map (·.name)).Nodup

omit [JsEngine] in
theorem find_iff {s : TsServer} (hd : s.Distinct) {name : Str} {m : TsServerMethod} :
    s.methods.find? (fun m => decide (m.name = name)) = some m ↔ m ∈ s.methods ∧ m.name = name := by
  constructor
  · intro h
    exact ⟨List.mem_of_find?_eq_some h, by simpa using List.find?_some h⟩
  · rintro ⟨h1, h2⟩
    cases hf : s.methods.find? (fun m => decide (m.name = name)) with
    | none =>
      have := List.find?_eq_none.1 hf m h1
      simp [h2] at this
    | some m' =>
      have h1' := List.mem_of_find?_eq_some hf
      have h2' : m'.name = name := by simpa using List.find?_some hf
      rw [pairwise_inj (f := TsServerMethod.name) (List.nodup_iff_pairwise_ne.1 hd) h1' h1 (h2'.trans h2.symm)]

/-- What a server does with a path of its own. -/
theorem serve_path (s : TsServer) (impl : Str → Js → Except SThrown Js) (path : Str) (body : Js) (name : Str)
    (hb : s.base <+: path) (hp : PathOf path [s.first, s.service, name]) :
    s.serve impl path body = ((s.dispatch impl name body).1, some (.of name (s.dispatch impl name body).2)) := by
  unfold TsServer.serve
  have h1 := List.isPrefixOf_iff_prefix.2 hb
  have h2 := parts_iff.2 hp
  unfold parts at h2
  rw [h1, h2]
  simp

/-- What it does with others. -/
theorem serve_other (s : TsServer) (impl : Str → Js → Except SThrown Js) (path : Str) (body : Js)
    (h : ¬ (s.base <+: path ∧ ∃ name, PathOf path [s.first, s.service, name])) : s.serve impl path body = ([], none) := by
  unfold TsServer.serve
  by_cases hb : s.base.isPrefixOf path = false
  · rw [if_pos hb]
  · rw [if_neg hb]
    have hb' : s.base <+: path := List.isPrefixOf_iff_prefix.1 (by simpa using hb)
    split
    · rename_i a b method he
      by_cases hne : a ≠ s.first ∨ b ≠ s.service
      · rw [if_pos hne]
      · exfalso
        refine h ⟨hb', method, parts_iff.1 ?_⟩
        simp only [ne_eq, not_or, Decidable.not_not] at hne
        rw [← hne.1, ← hne.2]
        exact he
    · rfl

/-- C96. The implementation of a method is called exactly if the path is of the server and names the method, and the body carries
its arguments; it is then called once, with the payload of the body.  (Partial: for the server in the repository no path is
of the server, see `C96_never`; falsy payloads are not checked, see `C96_unchecked`.) -/
theorem C96_called_partial (s : TsServer) (hd : s.Distinct) (impl : Str → Js → Except SThrown Js) (path : Str) (body : Js) :
    (s.serve impl path body).1.length ≤ 1 ∧
    ∀ name arg, (name, arg) ∈ (s.serve impl path body).1 ↔
      s.base <+: path ∧ PathOf path [s.first, s.service, name] ∧ ∃ m ∈ s.methods, m.name = name ∧
        ∃ payload, Payload s m body payload ∧ Carries s.validators payload m.checks ∧ arg = orElse payload (.obj []) := by
  by_cases hp : s.base <+: path ∧ ∃ name, PathOf path [s.first, s.service, name]
  · obtain ⟨hb, name, hn⟩ := hp
    rw [serve_path s impl path body name hb hn]
    have huniq : ∀ name', PathOf path [s.first, s.service, name'] → name' = name := by
      intro name' h
      have := (parts_iff.2 h).symm.trans (parts_iff.2 hn)
      simpa using this
    have key : (s.dispatch impl name body).1.length ≤ 1 ∧ ∀ name' arg, (name', arg) ∈ (s.dispatch impl name body).1 ↔
        name' = name ∧ ∃ m ∈ s.methods, m.name = name ∧
          ∃ payload, Payload s m body payload ∧ Carries s.validators payload m.checks ∧ arg = orElse payload (.obj []) := by
      unfold TsServer.dispatch
      cases hf : s.methods.find? (fun m => decide (m.name = name)) with
      | none =>
        have hno : ¬ ∃ m ∈ s.methods, m.name = name := by
          rintro ⟨m, h1, h2⟩
          rw [(find_iff hd).2 ⟨h1, h2⟩] at hf; cases hf
        have hno' : ∀ (P : TsServerMethod → Prop), ¬ ∃ m ∈ s.methods, m.name = name ∧ P m := by
          rintro P ⟨m, h1, h2, -⟩; exact hno ⟨m, h1, h2⟩
        dsimp only
        split <;> refine ⟨by simp, fun name' arg => ?_⟩ <;> simp only [List.not_mem_nil, false_iff] <;>
          exact fun h => hno' _ h.2
      | some m =>
        obtain ⟨h1, h2⟩ := (find_iff hd).1 hf
        have hm : ∀ m' ∈ s.methods, m'.name = name → m' = m := fun m' h1' h2' =>
          pairwise_inj (f := TsServerMethod.name) (List.nodup_iff_pairwise_ne.1 hd) h1' h1 (h2'.trans h2.symm)
        dsimp only
        have hpay : ∀ payload, Payload s m body payload ↔ (if m.req = [] then .ok body else s.decode m.req body) = .ok payload := by
          intro payload
          unfold Payload
          by_cases hr : m.req = []
          · rw [if_pos hr]
            simp only [hr, true_and, ne_eq, not_true_eq_false, false_and, or_false, Except.ok.injEq]
            exact eq_comm
          · rw [if_neg hr]; simp [hr]
        cases hc : (if m.req = [] then Except.ok body else s.decode m.req body) with
        | error t =>
          refine ⟨by simp, fun name' arg => ?_⟩
          simp only [List.not_mem_nil, false_iff]
          rintro ⟨-, m', h1', h2', payload, h3, -⟩
          rw [hm m' h1' h2', hpay, hc] at h3; cases h3
        | ok payload =>
          dsimp only
          cases hk : m.checks.run s.validators payload with
          | error t =>
            refine ⟨by simp, fun name' arg => ?_⟩
            simp only [List.not_mem_nil, false_iff]
            rintro ⟨-, m', h1', h2', payload', h3, h4, -⟩
            rw [hm m' h1' h2'] at h3 h4
            rw [hpay, hc] at h3; cases h3
            rw [← checks_iff, hk] at h4; cases h4
          | ok u =>
            refine ⟨by simp, fun name' arg => ?_⟩
            simp only [List.mem_cons, List.not_mem_nil, or_false, Prod.mk.injEq]
            constructor
            · rintro ⟨rfl, rfl⟩
              exact ⟨rfl, m, h1, h2, payload, (hpay _).2 hc, (checks_iff ..).1 hk, rfl⟩
            · rintro ⟨rfl, m', h1', h2', payload', h3, -, rfl⟩
              rw [hm m' h1' h2', hpay, hc] at h3; cases h3
              exact ⟨rfl, rfl⟩
    refine ⟨key.1, fun name' arg => ?_⟩
    rw [key.2]
    constructor
    · rintro ⟨rfl, h⟩; exact ⟨hb, hn, h⟩
    · rintro ⟨-, h, m, hm⟩
      have := huniq _ h
      subst this
      exact ⟨rfl, m, hm⟩
  · rw [serve_other s impl path body hp]
    refine ⟨by simp, fun name arg => ?_⟩
    simp only [List.not_mem_nil, false_iff]
    rintro ⟨h1, h2, -⟩
    exact hp ⟨h1, name, h2⟩

/-! What happens otherwise -/

omit [JsEngine] in
/-- The parts of a path that begins with a segment. -/
theorem parts_base {b : Str} (hn : b ≠ []) (hs : '/' ∉ b) {path : Str} (h : '/' :: b ++ S "/" <+: path) : ∃ r, parts path = b :: parts r := by
  obtain ⟨r, rfl⟩ := h
  refine ⟨r, ?_⟩
  have : '/' :: b ++ S "/" ++ r = '/' :: (b ++ '/' :: r) := by
    rw [List.append_assoc]; rfl
  rw [this, parts_slash, (parts_seg hn hs).2]

/-- C96: a server whose basepath is not `/rpc/` answers no request at all: the code compares the first segment with `rpc`. -/
theorem C96_never (s : TsServer) (b : Str) (hn : b ≠ []) (hs : '/' ∉ b) (hb : s.base = '/' :: b ++ S "/") (hne : b ≠ s.first)
    (impl : Str → Js → Except SThrown Js) (path : Str) (body : Js) : s.serve impl path body = ([], none) := by
  refine serve_other s impl path body ?_
  rintro ⟨h1, name, h2⟩
  rw [hb] at h1
  obtain ⟨r, hr⟩ := parts_base hn hs h1
  rw [parts_iff.2 h2] at hr
  exact hne (List.cons.inj hr).1.symm

/-- C96: so does the server in the repository, whatever is requested. -/
theorem C96_never_example (impl : Str → Js → Except SThrown Js) (path : Str) (body : Js) : exampleServer.serve impl path body = ([], none) :=
  C96_never exampleServer (S "v1") (by decide) (by decide) rfl (by decide) impl path body

/-- The server for a schema with the basepath `/rpc/`. -/
def rpcServer : TsServer := { exampleServer with base := S "/rpc/" }

omit [JsEngine] in
theorem rpc_distinct : rpcServer.Distinct := by unfold TsServer.Distinct; decide

omit [JsEngine] in
theorem reply_method (name : Str) (x : Except SThrown Js) : (TsReply.of name x).method = name := by
  cases x with
  | ok v => rfl
  | error t => cases t <;> rfl

/-- What happens after a call. -/
theorem after_call {s : TsServer} (hd : s.Distinct) {impl : Str → Js → Except SThrown Js} {path : Str} {body : Js} {name : Str} {arg : Js}
    (h : (name, arg) ∈ (s.serve impl path body).1) : ∃ m ∈ s.methods, m.name = name ∧
      (s.serve impl path body).2 = some (.of name (match impl name arg with
        | .error t => .error t
        | .ok result => if m.resp = [] then .ok result else match s.encode with
          | none => .error (.other (some (S "encodeType is not defined")))
          | some f => f m.resp result)) := by
  obtain ⟨hb, hp, m, hm, hn, payload, h1, h2, h3⟩ := ((C96_called_partial s hd impl path body).2 name arg).1 h
  refine ⟨m, hm, hn, ?_⟩
  rw [serve_path s impl path body name hb hp]
  unfold TsServer.dispatch
  rw [(find_iff hd).2 ⟨hm, hn⟩]
  have hc : (if m.req = [] then Except.ok body else s.decode m.req body) = .ok payload := by
    rcases h1 with ⟨hr, rfl⟩ | ⟨hr, h'⟩
    · rw [if_pos hr]
    · rw [if_neg hr, h']
  dsimp only
  rw [hc]
  dsimp only
  rw [(checks_iff ..).2 h2]
  dsimp only
  rw [h3]
  cases impl name (orElse payload (.obj [])) with
  | error t => rfl
  | ok r => rfl

/-- C96: because `encodeType` is not defined, a method that has a response answers 400, without a message, whatever the
implementation returns. -/
theorem C96_no_result (s : TsServer) (hd : s.Distinct) (he : s.encode = none) (hr : ∀ m ∈ s.methods, m.resp ≠ [])
    (impl : Str → Js → Except SThrown Js) (path : Str) (body : Js) (name : Str) (arg result : Js)
    (h : (name, arg) ∈ (s.serve impl path body).1) (hi : impl name arg = .ok result) :
    (s.serve impl path body).2 = some ⟨name, .num (S "400"),
      .obj [(S "code", .num (S "0")), (S "status", .num (S "400")), (S "name", .str (S "WebrpcEndpointError"))]⟩ := by
  obtain ⟨m, hm, -, h1⟩ := after_call hd h
  rw [h1, hi]
  dsimp only
  rw [if_neg (hr m hm), he]
  rfl

/-- C96. An error that the implementation throws is answered with its status, code and cause; its message is sent exactly if it is
the default one (a message that was given is lost).  Anything else that is thrown is answered 400 with code 0. -/
theorem C96_thrown_partial (s : TsServer) (hd : s.Distinct) (impl : Str → Js → Except SThrown Js) (path : Str) (body : Js) (name : Str) (arg : Js)
    (h : (name, arg) ∈ (s.serve impl path body).1) : ∃ r, (s.serve impl path body).2 = some r ∧ r.method = name ∧
      (∀ e given, impl name arg = .error (.webrpc e given) → truthy e.status = true →
        r.status = e.status ∧ member (S "code") r.body = e.code ∧ member (S "status") r.body = e.status ∧ member (S "cause") r.body = e.cause ∧
        member (S "name") r.body = .str e.name ∧ member (S "message") r.body = if given then .undefined else e.message) ∧
      (∀ msg, impl name arg = .error (.other msg) → r.status = .num (S "400") ∧ member (S "code") r.body = .num (S "0")) := by
  obtain ⟨m, hm, -, h1⟩ := after_call hd h
  refine ⟨_, h1, reply_method .., fun e given hi hs => ?_, fun msg hi => ?_⟩
  · rw [hi]
    obtain ⟨cls, nm, code, message, status, cause⟩ := e
    show orElse status (.num (S "400")) = status ∧ _
    dsimp only at hs
    refine ⟨by unfold orElse; rw [if_pos hs], rfl, rfl, ?_, rfl, ?_⟩
    · cases given <;> cases cause <;> rfl
    · cases given <;> cases cause <;> rfl
  · rw [hi]
    cases msg <;> exact ⟨rfl, rfl⟩

/-! Refused requests -/

/-- What decoding and validating throw. -/
def Usual (t : Thrown) : Prop :=
  (∃ m, t = .other m) ∨ ∃ c, t = .webrpc (badResponseClass.construct .undefined .undefined .undefined (.str c))

omit [JsEngine] in
theorem toBig_usual {w : Str} {v : Js} {t : Thrown} (h : toBig w v = .error t) : Usual t := by
  unfold toBig at h
  split at h
  · split at h
    · cases h
    · cases h; exact Or.inr ⟨_, rfl⟩
  · cases h

omit [JsEngine] in
theorem mapArr_usual {f : Nat → Js → Except Thrown Js} (hf : ∀ i v t, f i v = .error t → Usual t) {i : Nat} {l : List Js} {t : Thrown}
    (h : mapArr f i l = .error t) : Usual t := by
  induction l generalizing i with
  | nil => cases h
  | cons v l ih =>
    rw [mapArr] at h
    cases hc : f i v with
    | error t' => rw [hc] at h; cases h; exact hf _ _ _ hc
    | ok x =>
      rw [hc] at h
      dsimp only at h
      cases hr : mapArr f (i + 1) l with
      | error t' => rw [hr] at h; cases h; exact ih hr
      | ok x => rw [hr] at h; cases h

omit [JsEngine] in
theorem onArr_usual {f : Nat → Js → Except Thrown Js} (hf : ∀ i v t, f i v = .error t → Usual t) {k : Str} {o : Js} {t : Thrown}
    (h : onArr f k o = .error t) : Usual t := by
  unfold onArr at h
  split at h
  · rename_i l _
    cases hr : mapArr f 0 l with
    | error t' => rw [hr] at h; cases h; exact mapArr_usual hf hr
    | ok x => rw [hr] at h; cases h
  · cases h

omit [JsEngine] in
theorem entry_usual {rec : Str → Js → Except Thrown Js} (hr : ∀ n v t, rec n v = .error t → Usual t) {o : Js} {e : BigEntry} {t : Thrown}
    (h : applyEntry rec o e = .error t) : Usual t := by
  cases e with
  | pair field nested =>
    rw [applyEntry] at h
    split at h
    · exact onArr_usual (fun i v t h => hr _ _ _ h) h
    · split at h
      · split at h
        · exact onArr_usual (fun i v t h => hr _ _ _ h) h
        · split at h
          · rename_i t' hc; cases h; exact hr _ _ _ hc
          · cases h
      · cases h
  | name d =>
    rw [applyEntry] at h
    split at h
    · exact onArr_usual (fun i v t h => toBig_usual h) h
    · split at h
      · split at h
        · rename_i hc; cases h; exact toBig_usual hc
        · cases h
      · cases h

omit [JsEngine] in
theorem entries_usual {rec : Str → Js → Except Thrown Js} (hr : ∀ n v t, rec n v = .error t → Usual t) {es : List BigEntry} {o : Js}
    {t : Thrown} (h : applyEntries rec o es = .error t) : Usual t := by
  induction es generalizing o with
  | nil => cases h
  | cons e es ih =>
    rw [applyEntries] at h
    split at h
    · rename_i hc; cases h; exact entry_usual hr hc
    · exact ih h

omit [JsEngine] in
theorem decodeN_usual {table : BigTable} {n : Nat} {typ : Str} {v : Js} {t : Thrown} (h : decodeTypeN table n typ v = .error t) : Usual t := by
  induction n generalizing typ v t with
  | zero => cases h
  | succ n ih =>
    rw [decodeTypeN.eq_def] at h
    dsimp only at h
    split at h
    · exact entries_usual (fun n v t h => ih h) h
    · cases h

theorem decode_usual {s : TsServer} {typ : Str} {data : Js} {t : Thrown} (h : s.decode typ data = .error t) : Usual t := by
  unfold TsServer.decode TsClient.decode at h
  dsimp only at h
  split at h
  · rename_i t' hc
    cases h
    split at hc
    · split at hc
      · cases hc; exact Or.inr ⟨_, rfl⟩
      · cases hc
    · cases hc
  · exact decodeN_usual h

theorem inside_usual {name : Str} {v : Js} {t : Thrown} (h : inside name v = .error t) : Usual t := by
  unfold inside at h
  split at h <;> cases h
  exact Or.inl ⟨_, rfl⟩

theorem checkAll_usual {rec : Js → Str → Except Thrown Bool} (hr : ∀ v n t, rec v n = .error t → Usual t) {v : Js} {cs : List Check}
    {t : Thrown} (h : checkAll rec v cs = .error t) : Usual t := by
  induction cs with
  | nil => cases h
  | cons c cs ih =>
    rw [checkAll] at h
    split at h
    · rename_i hc; cases h; exact inside_usual hc
    · split at h
      · cases h
      · exact ih h
    · split at h
      · rename_i hc; cases h; exact hr _ _ _ hc
      · cases h
      · exact ih h

theorem validateN_usual {vs : List (Str × List Check)} {n : Nat} {v : Js} {type : Str} {t : Thrown} (h : validateN vs n v type = .error t) :
    Usual t := by
  induction n generalizing v type t with
  | zero => cases h
  | succ n ih =>
    rw [validateN] at h
    split at h
    · cases h
    · split at h
      · cases h
      · exact checkAll_usual (fun v n t h => ih h) h

/-- The status that answers what is thrown. -/
def StatusOf (t : SThrown) (n : Str) : Prop := ∀ name, (TsReply.ofThrown name t).status = .num n

omit [JsEngine] in
theorem usual_status {t : Thrown} (h : Usual t) : StatusOf t.served (S "400") ∨ StatusOf t.served (S "500") := by
  rcases h with ⟨m, rfl⟩ | ⟨c, rfl⟩
  · exact Or.inl fun _ => rfl
  · exact Or.inr fun _ => rfl

theorem checks_status {vs : List (Str × List Check)} {payload : Js} {a : ArgChecks} {t : SThrown} (h : a.run vs payload = .error t) :
    StatusOf t (S "400") ∨ StatusOf t (S "500") := by
  cases a with
  | each cs =>
    replace h : checkArgs vs payload cs = .error t := h
    induction cs with
    | nil => cases h
    | cons c cs ih =>
      rw [checkArgs] at h
      split at h
      · rename_i hc; cases h; exact usual_status (inside_usual hc)
      · split at h
        · cases h; exact Or.inl fun _ => rfl
        · exact ih h
      · split at h
        · rename_i hc; cases h; exact usual_status (validateN_usual hc)
        · cases h; exact Or.inl fun _ => rfl
        · exact ih h
  | whole type label =>
    rw [ArgChecks.run] at h
    split at h
    · split at h
      · rename_i hc; cases h; exact usual_status (validateN_usual hc)
      · cases h; exact Or.inl fun _ => rfl
      · cases h
    · cases h

/-- C96. A request to a path of the server that does not lead to a call is answered with status 404 if there is no such method, and
400 or 500 otherwise; a call of the implementation is never answered with nothing. -/
theorem C96_refused_partial (s : TsServer) (hd : s.Distinct) (impl : Str → Js → Except SThrown Js) (path : Str) (body : Js) (name : Str)
    (hb : s.base <+: path) (hp : PathOf path [s.first, s.service, name]) :
    ∃ r, (s.serve impl path body).2 = some r ∧ r.method = name ∧ ((s.serve impl path body).1 = [] →
      r.status = .num (S "400") ∨ (r.status = .num (S "404") ∧ ∀ m ∈ s.methods, m.name ≠ name) ∨
      (r.status = .num (S "500") ∧ ∃ m ∈ s.methods, m.name = name)) := by
  rw [serve_path s impl path body name hb hp]
  refine ⟨_, rfl, reply_method .., fun hc => ?_⟩
  unfold TsServer.dispatch at hc ⊢
  cases hf : s.methods.find? (fun m => decide (m.name = name)) with
  | none =>
    dsimp only
    split
    · exact Or.inl rfl
    · refine Or.inr (Or.inl ⟨rfl, fun m hm hn => ?_⟩)
      rw [(find_iff hd).2 ⟨hm, hn⟩] at hf; cases hf
  | some m =>
    have hm := (find_iff hd).1 hf
    rw [hf] at hc
    dsimp only at hc ⊢
    have fin : ∀ t : SThrown, (StatusOf t (S "400") ∨ StatusOf t (S "500")) →
        (TsReply.of name (.error t)).status = .num (S "400") ∨ ((TsReply.of name (.error t)).status = .num (S "404") ∧ ∀ m ∈ s.methods, m.name ≠ name) ∨
        ((TsReply.of name (.error t)).status = .num (S "500") ∧ ∃ m ∈ s.methods, m.name = name) := by
      rintro t (h | h)
      · exact Or.inl (h name)
      · exact Or.inr (Or.inr ⟨h name, m, hm⟩)
    cases he : (if m.req = [] then Except.ok body else s.decode m.req body) with
    | error t =>
      dsimp only
      refine fin _ (usual_status ?_)
      split at he
      · cases he
      · exact decode_usual he
    | ok payload =>
      rw [he] at hc
      dsimp only at hc ⊢
      cases hk : m.checks.run s.validators payload with
      | error t => exact fin _ (checks_status hk)
      | ok u => rw [hk] at hc; cases hc

/-- A text that may be missing. -/
def optText : Option Str → Js
  | none => .undefined
  | some t => .str t

/-- C96. An error of a class of the schema that the implementation throws reaches a TypeScript client as an error of the same class
with its code, status and cause, but always with the default message of the class: the message that was given is lost. -/
theorem C96_error_trip_partial (cs : List ErrClass) (hd : DistinctCodes cs) (c : ErrClass) (hc : c ∈ cs) (hcode : c.code.natAbs ≤ 2 ^ 53)
    (hst : c.status.natAbs ≤ 2 ^ 53) (hok : ¬ (200 ≤ c.status ∧ c.status ≤ 299)) (message cause : Option Str) :
    ∃ text t, stringify ((c.construct (optText message) .undefined .undefined (optText cause)).own message.isSome) = some text ∧
      buildResponse cs c.status text = .error (.webrpc t) ∧ t.cls = c ∧ t.code = .num (intText c.code) ∧ t.status = .num (intText c.status) ∧
      t.cause = optText cause ∧ t.message = .str c.message := by
  generalize hown : (c.construct (optText message) .undefined .undefined (optText cause)).own message.isSome = own
  have hform : own = .obj ([(S "code", .num (intText c.code)), (S "status", .num (intText c.status)), (S "name", .str c.name)] ++
      (if message.isSome then [] else [(S "message", .str c.message)]) ++ (cause.map fun t => (S "cause", Js.str t)).toList) := by
    rw [← hown]
    cases message <;> cases cause <;> rfl
  have hk : Kept own := by
    rw [hform]
    refine .obj ?_ fun p hp => ?_
    · cases message <;> cases cause <;> simp <;> decide
    · have num : ∀ i : Int, i.natAbs ≤ 2 ^ 53 → Kept (.num (intText i)) := fun i hi => .num (numText_int i) (JsEngine.canon_int i hi)
      rcases List.mem_append.1 hp with hp | hp
      · rcases List.mem_append.1 hp with hp | hp
        · simp only [List.mem_cons, List.not_mem_nil, or_false] at hp
          rcases hp with rfl | rfl | rfl
          · exact num _ hcode
          · exact num _ hst
          · exact .str _
        · cases message with
          | some _ => cases hp
          | none => simp only [Option.isSome_none, Bool.false_eq_true, if_false, List.mem_cons, List.not_mem_nil, or_false] at hp; subst hp; exact .str _
      · cases cause with
        | none => cases hp
        | some t => simp only [Option.map_some, Option.toList_some, List.mem_cons, List.not_mem_nil, or_false] at hp; subst hp; exact .str _
  obtain ⟨text, h1, h2⟩ := kept_trip hk
  rw [wire_plain hk (by rw [hform]; cases message <;> cases cause <;> rfl)] at h2
  have hn : nullish own = false := by rw [hform]; rfl
  have hcin : CodeIn own c.code := Or.inl (by rw [hform]; rfl)
  obtain ⟨t, h3, h4⟩ := throw_describes hd hn hcin
  have hcls : t.cls = c := classOf_unique hd h4.cls (.known hc rfl)
  refine ⟨text, t, h1, ?_, hcls, h4.code, ?_, ?_, ?_⟩
  · unfold buildResponse
    rw [h2]
    dsimp only
    rw [if_neg (by unfold okStatus; simpa using hok)]
    exact h3
  · rcases h4.status with ⟨x, hx, hx'⟩ | ⟨hx, -⟩
    · rw [hx', ← hx, hform]; rfl
    · exact absurd (by rw [hform]; rfl) (hx (intText c.status))
  · rw [h4.cause, hform]
    cases message <;> cases cause <;> rfl
  · rw [h4.message, hcls]
    cases message with
    | some _ =>
      have hmem : member (S "message") own = .undefined := by rw [hform]; cases cause <;> rfl
      rw [hmem]
      rfl
    | none =>
      have hmem : member (S "message") own = .str c.message := by rw [hform]; cases cause <;> rfl
      rw [hmem]
      split <;> rfl

/-- C96: a falsy body is not checked: the implementation is called without the required members. -/
theorem C96_unchecked (impl : Str → Js → Except SThrown Js) :
    (rpcServer.serve impl (S "/rpc/Example/GetArticle") .null).1 = [(S "GetArticle", .obj [])] ∧
    ¬ Conforms rpcServer.validators (S "GetArticleRequest") (.obj []) := by
  refine ⟨?_, ?_⟩
  · have h := ((C96_called_partial rpcServer rpc_distinct impl (S "/rpc/Example/GetArticle") .null).2 (S "GetArticle") (.obj [])).2 ?_
    · have hl := (C96_called_partial rpcServer rpc_distinct impl (S "/rpc/Example/GetArticle") .null).1
      revert h hl
      generalize (rpcServer.serve impl (S "/rpc/Example/GetArticle") .null).1 = l
      intro h hl
      match l, h, hl with
      | [x], h, _ => simp only [List.mem_cons, List.not_mem_nil, or_false] at h; rw [h]
    · refine ⟨⟨S "Example/GetArticle", rfl⟩, parts_iff.1 (by decide), _, List.mem_cons_of_mem _ (List.mem_cons_of_mem _ (List.mem_cons_self ..)),
        rfl, .null, Or.inr ⟨by decide, rfl⟩, nofun, rfl⟩
  · intro h
    cases h with
    | js h => exact absurd h (by decide)
    | members _ h _ h1 _ =>
      rw [show rpcServer.validators.lookup (S "GetArticleRequest") = some [⟨S "articleId", true, S "number"⟩, ⟨S "byBN", true, S "bigint"⟩] from rfl] at h
      cases h
      obtain ⟨x, hx⟩ := h1 _ (List.mem_cons_self ..) rfl
      cases hx

/-- C96: no value at all passes the validators of `Extra` and `User`: there are none for lists. -/
theorem C96_lists (v : Js) : validateType exampleValidators v (S "Extra") ≠ .ok true ∧ validateType exampleValidators v (S "User") ≠ .ok true := by
  have hE : ¬ ∃ v, Conforms exampleValidators (S "Extra") v := by
    rintro ⟨v, h⟩
    cases h with
    | js h => exact absurd h (by decide)
    | members _ h _ h1 h2 =>
      rw [show exampleValidators.lookup (S "Extra") = some [⟨S "info", true, S "string"⟩, ⟨S "amount", true, S "bigint"⟩, ⟨S "points", true, S "bigint[]"⟩] from rfl] at h
      cases h
      have hm : (⟨S "points", true, S "bigint[]"⟩ : Check) ∈ [⟨S "info", true, S "string"⟩, ⟨S "amount", true, S "bigint"⟩, ⟨S "points", true, S "bigint[]"⟩] := by simp
      obtain ⟨x, hx⟩ := h1 _ hm rfl
      cases h2 _ hm x hx with
      | js h => exact absurd h (by decide)
      | members _ h => cases h
  constructor
  · rw [Ne, validate_iff]; exact fun h => hE ⟨v, h⟩
  · rw [Ne, validate_iff]
    intro h
    cases h with
    | js h => exact absurd h (by decide)
    | members _ h _ h1 h2 =>
      have hl : exampleValidators.lookup (S "User") = some ((exampleValidators[1]'(by decide)).2) := rfl
      rw [hl] at h
      cases h
      have hm : (⟨S "extra", true, S "Extra"⟩ : Check) ∈ (exampleValidators[1]'(by decide)).2 := by decide
      obtain ⟨x, hx⟩ := h1 _ hm rfl
      exact hE ⟨x, h2 _ hm x hx⟩

/-- C96, example: a call of `GetUser` with its argument is made, and one without is refused. -/
theorem C96_example (impl : Str → Js → Except SThrown Js) :
    (S "GetUser", .obj [(S "userId", .num (S "7"))]) ∈ (rpcServer.serve impl (S "/rpc/Example/GetUser") (.obj [(S "userId", .num (S "7"))])).1 ∧
    (rpcServer.serve impl (S "/rpc/Example/GetUser") (.obj [(S "userId", .str (S "7"))])).1 = [] ∧
    (rpcServer.serve impl (S "/rpc/Example/GetUser") (.obj [])).1 = [] ∧
    (rpcServer.serve impl (S "/rpc/Example/Nothing") (.obj [])).1 = [] := by
  exact ⟨List.mem_cons_self .., rfl, rfl, rfl⟩

/-! ### C97 -/

omit [JsEngine] in
/-- C97. If every chunk of a body is the UTF-8 of a text, the text of the body is that of the chunks one after the other. -/
theorem C97_chunks_partial (ts : List Str) : (ts.map utf8).flatMap bufferText = ts.flatMap id := by
  induction ts with
  | nil => rfl
  | cons t ts ih =>
    rw [List.map_cons, List.flatMap_cons, List.flatMap_cons, ih]
    congr 1
    unfold bufferText
    rw [utf8_text]
    exact List.append_nil t

omit [JsEngine] in
/-- C97: a character whose bytes are in two chunks is lost: here, of the bytes of `"é"` the first two come first. -/
theorem C97_split : utf8 (S "\"é\"") = [0x22, 0xC3] ++ [0xA9, 0x22] ∧ bufferText [0x22, 0xC3] ++ bufferText [0xA9, 0x22] = S "\"\uFFFD\uFFFD\"" := by
  decide +kernel

/-- A POST request. -/
def post (url : Str) (body : Str) : NodeRequest := { method := S "POST", url := url, chunks := [utf8 body] }

/-- C97: the server in the repository answers no request under `/rpc/`, if its body is empty or JSON: nothing is ever sent, and the
implementation is not called. -/
theorem C97_unanswered (impl : Str → Js → Except SThrown Js) (reqId json : Str) (req : NodeRequest) (hu : S "/rpc/" <+: req.url)
    (hm : req.method ≠ S "OPTIONS") (hf : req.failure = none)
    (hb : req.method = S "POST" → req.chunks.flatMap bufferText = [] ∨ ∃ j, JsonText (req.chunks.flatMap bufferText) j) :
    nodeServer exampleServer impl reqId json req = ([], none) := by
  unfold nodeServer entrypoint withCors nodeRoutes rpcHandler
  rw [if_neg hm, List.isPrefixOf_iff_prefix.2 hu]
  dsimp only
  rw [if_pos rfl]
  have key : ∀ raw : Str, (raw = [] ∨ ∃ j, JsonText raw j) → ∃ v, (if raw = [] then some (Js.obj []) else jsonParse raw) = some v := by
    intro raw h
    by_cases hr : raw = []
    · exact ⟨_, if_pos hr⟩
    · rcases h with h | ⟨j, h⟩
      · exact absurd h hr
      · exact ⟨_, by rw [if_neg hr]; exact jsonParse_iff.2 ⟨j, h, rfl⟩⟩
  rw [hf]
  by_cases hp : req.method = S "POST"
  · obtain ⟨v, hv⟩ := key _ (hb hp)
    simp only [hp, if_true, Bool.true_eq_false, if_false, hv, C96_never_example]
  · simp only [hp, Bool.true_eq_false, if_false, if_true, C96_never_example]

/-- C97. Every other request is answered: outside of `/rpc/`, preflight requests, and bodies that cannot be read or are not JSON. -/
theorem C97_answered_partial (s : TsServer) (impl : Str → Js → Except SThrown Js) (reqId json : Str) (req : NodeRequest)
    (h : ¬ S "/rpc/" <+: req.url ∨ req.method = S "OPTIONS" ∨ (req.method = S "POST" ∧ (req.failure ≠ none ∨
      (req.chunks.flatMap bufferText ≠ [] ∧ ¬ ∃ j, JsonText (req.chunks.flatMap bufferText) j)))) :
    ∃ r, nodeServer s impl reqId json req = ([], some r) := by
  unfold nodeServer entrypoint withCors
  by_cases ho : req.method = S "OPTIONS"
  · rw [if_pos ho]; exact ⟨_, rfl⟩
  · rw [if_neg ho]
    unfold nodeRoutes
    by_cases hu : S "/rpc/" <+: req.url
    · rw [List.isPrefixOf_iff_prefix.2 hu, if_pos rfl]
      unfold rpcHandler
      rw [List.isPrefixOf_iff_prefix.2 hu]
      rcases h with h | h | ⟨hp, h⟩
      · exact absurd hu h
      · exact absurd h ho
      · cases hf : req.failure with
        | some m => simp only [hp, if_true, Bool.true_eq_false, if_false]; exact ⟨_, rfl⟩
        | none =>
          rcases h with h | ⟨h1, h2⟩
          · exact absurd hf h
          · simp only [hp, if_true, Bool.true_eq_false, if_false, h1, jsonParse_none.2 h2]; exact ⟨_, rfl⟩
    · have : (S "/rpc/").isPrefixOf req.url = false := by
        cases hx : (S "/rpc/").isPrefixOf req.url with
        | false => rfl
        | true => exact absurd (List.isPrefixOf_iff_prefix.1 hx) hu
      rw [this]
      simp only [Bool.false_eq_true, if_false]
      split
      · exact ⟨_, rfl⟩
      · split <;> exact ⟨_, rfl⟩

/-- C97. A server whose basepath is `/rpc/` answers every POST request to its paths, whatever the body is and the implementation
does (provided that it returns). -/
theorem C97_served_partial (s : TsServer) (hd : s.Distinct) (impl : Str → Js → Except SThrown Js) (reqId json : Str) (url : Str) (name : Str)
    (hb : s.base <+: url) (hrpc : S "/rpc/" <+: url) (hp : PathOf url [s.first, s.service, name]) (body : Str) :
    ∃ calls r, nodeServer s impl reqId json (post url body) = (calls, some r) := by
  have hraw : (post url body).chunks.flatMap bufferText = body := by
    have := C97_chunks_partial [body]
    simpa [post] using this
  have hm : (post url body).method = S "POST" := rfl
  have hf : (post url body).failure = none := rfl
  have hurl : (post url body).url = url := rfl
  unfold nodeServer entrypoint withCors nodeRoutes
  rw [hm, hurl, if_neg (by decide), List.isPrefixOf_iff_prefix.2 hrpc, if_pos rfl]
  unfold rpcHandler
  rw [hurl, List.isPrefixOf_iff_prefix.2 hrpc]
  simp only [hm, hf, hraw, hurl, if_true, Bool.true_eq_false, if_false]
  cases (if body = [] then some (Js.obj []) else jsonParse body) with
  | none => exact ⟨_, _, rfl⟩
  | some v =>
    dsimp only
    obtain ⟨r, hr, -⟩ := C96_refused_partial s hd impl url v name hb hp
    rw [hr]
    dsimp only
    cases hasBig r.body <;> exact ⟨_, _, rfl⟩

/-- C97: the TypeScript client of the example and its TypeScript server do not fit: the server knows no path under `/v1/`, so that
every call ends with `WebrpcBadResponse`. -/
theorem C97_client (impl : Str → Js → Except SThrown Js) (reqId json : Str) (name body : Str) :
    ∃ r, nodeServer exampleServer impl reqId json (post (S "/v1/Example/" ++ name) body) = ([], some r) ∧ r.status = .num (intText 404) ∧
      ∃ t, exClient.finish ⟨name, name⟩ (.response 404 (.ok r.body)) = .error (.webrpc t) ∧ t.cls = badResponseClass := by
  refine ⟨⟨.num (S "404"), S "Not Found\n"⟩, ?_, congrArg Js.num (by decide : S "404" = intText 404), ?_⟩
  · have h1 : (S "/rpc/").isPrefixOf (post (S "/v1/Example/" ++ name) body).url = false := rfl
    have h2 : (post (S "/v1/Example/" ++ name) body).url ≠ S "/" := fun h => absurd (show some 'v' = none from congrArg (fun l : Str => l[1]?) h) nofun
    have h3 : (post (S "/v1/Example/" ++ name) body).url ≠ S "/json" := fun h => absurd (show some 'v' = some 'j' from congrArg (fun l : Str => l[1]?) h) (by decide)
    unfold nodeServer entrypoint withCors nodeRoutes
    rw [show (post (S "/v1/Example/" ++ name) body).method = S "POST" from rfl, if_neg (by decide), h1]
    simp only [Bool.false_eq_true, if_false, h2, h3]
  · have hn : jsonParse (S "Not Found\n") = none := by
      unfold jsonParse
      have : parse (S "Not Found\n") = none := by
        have : (parse (S "Not Found\n")).isNone = true := by decide +kernel
        exact Option.isNone_iff_eq_none.1 this
      rw [this]; rfl
    have key : ∀ text, jsonParse text = none → ∃ t, exClient.finish ⟨name, name⟩ (.response 404 (.ok text)) = .error (.webrpc t) ∧ t.cls = badResponseClass := by
      intro text h
      unfold TsClient.finish
      dsimp only
      unfold buildResponse
      rw [h]
      exact ⟨_, rfl, rfl⟩
    exact key _ hn

/-- C97, example: a call that the handler passes on. -/
theorem C97_example (impl : Str → Js → Except SThrown Js) :
    PathOf (S "/rpc/Example/Ping") [rpcServer.first, rpcServer.service, S "Ping"] ∧ rpcServer.base <+: S "/rpc/Example/Ping" ∧
    (nodeServer rpcServer impl [] [] (post (S "/rpc/Example/Ping") [])).1 = [(S "Ping", .obj [])] :=
  ⟨parts_iff.1 (by decide), ⟨S "Example/Ping", rfl⟩, rfl⟩

end Verif.Ts
