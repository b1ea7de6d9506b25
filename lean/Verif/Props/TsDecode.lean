import Verif.Spec.TsDecode
import Verif.Props.TsBig
import Verif.Ts.Stream
/-!
# C87, C95: the errors of generated TypeScript, and what `JsonDecode` changes
-/

namespace Verif.Ts
open Verif.Schema hiding Json Method
open Verif.Json Verif.Gen Verif.TsSpec Verif.Compile

/-- C87. The errors that generated TypeScript makes itself are those of the table: same name, code, message and status. -/
theorem C87_own_errors : badResponseClass ∈ builtinClasses ∧ requestFailedClass ∈ builtinClasses ∧ clientAbortedClass ∈ builtinClasses ∧
    streamLostClass ∈ builtinClasses := by decide +kernel

theorem revived_trans {a b c : Js} (h1 : Revived a b) (h2 : Revived b c) : Revived a c := by
  induction h1 generalizing c with
  | same v => exact h2
  | big h => cases h2; exact .big h
  | @arr l l' hl he ih =>
    cases h2 with
    | same => exact .arr hl he
    | @arr _ l'' hl' he' =>
      refine .arr (hl.trans hl') fun i v w hv hw => ?_
      have hi : i < l'.length := by rw [← hl]; exact (List.getElem?_eq_some_iff.1 hv).1
      exact ih i v _ hv (List.getElem?_eq_getElem hi) (he' i _ w (List.getElem?_eq_getElem hi) hw)
  | @obj l l' hl he ih =>
    cases h2 with
    | same => exact .obj hl he
    | @obj _ l'' hl' he' =>
      refine .obj (hl.trans hl') fun i v w hv hw => ?_
      have hlen : l.length = l'.length := by have := congrArg List.length hl; simpa using this
      have hi : i < l'.length := by rw [← hlen]; exact (List.getElem?_eq_some_iff.1 hv).1
      exact ih i v _ hv (List.getElem?_eq_getElem hi) (he' i _ w (List.getElem?_eq_getElem hi) hw)

theorem contains_back {a b : Js} {s : Str} (h : Revived a b) (hc : Contains b s) : Contains a s := by
  induction h with
  | same v => exact hc
  | big _ => cases hc
  | @arr l l' hl he ih =>
    cases hc with
    | elem hv hc =>
      obtain ⟨i, hi, rfl⟩ := List.getElem_of_mem hv
      have hi' : i < l.length := by omega
      exact .elem (List.getElem_mem hi') (ih i _ _ (List.getElem?_eq_getElem hi') (List.getElem?_eq_getElem hi) hc)
  | @obj l l' hl he ih =>
    cases hc with
    | member hv hc =>
      have hlen : l.length = l'.length := by have := congrArg List.length hl; simpa using this
      obtain ⟨i, hi, rfl⟩ := List.getElem_of_mem hv
      have hi' : i < l.length := by omega
      exact .member (List.getElem_mem hi') (ih i _ _ (List.getElem?_eq_getElem hi') (List.getElem?_eq_getElem hi) hc)

/-- How decoding may end. -/
inductive Decoded (a : Js) : Except Thrown Js → Prop
  | ok {b} : Revived a b → Decoded a (.ok b)
  | bad {s place} : Contains a s → bigInt s = none →
      Decoded a (.error (.webrpc (badResponseClass.construct .undefined .undefined .undefined (.str (S "Invalid bigint value for " ++ place ++ S ": " ++ s)))))

theorem decoded_toBig (place : Str) (v : Js) : Decoded v (toBig place v) := by
  unfold toBig
  split
  · split
    · rename_i h; exact .ok (.big h)
    · rename_i h; exact .bad (.here _) h
  · exact .ok (.same _)

theorem decoded_mapArr {f : Nat → Js → Except Thrown Js} (hf : ∀ i v, Decoded v (f i v)) (i : Nat) (l : List Js) :
    (∃ l', mapArr f i l = .ok l' ∧ Revived (.arr l) (.arr l')) ∨ (∃ t, mapArr f i l = .error t ∧ Decoded (.arr l) (.error t)) := by
  induction l generalizing i with
  | nil => exact .inl ⟨_, rfl, .same _⟩
  | cons v l ih =>
    unfold mapArr
    have h1 := hf i v
    cases hv : f i v with
    | error t =>
      rw [hv] at h1
      refine .inr ⟨t, rfl, ?_⟩
      cases h1 with
      | bad hc hb => exact .bad (.elem (List.mem_cons_self ..) hc) hb
    | ok v' =>
      rw [hv] at h1
      dsimp only
      rcases ih (i + 1) with ⟨l', e, hr⟩ | ⟨t, e, hd⟩
      · rw [e]
        refine .inl ⟨_, rfl, ?_⟩
        cases h1 with
        | ok h1 =>
          have key : l.length = l'.length ∧ ∀ (i : Nat) v v', l[i]? = some v → l'[i]? = some v' → Revived v v' := by
            cases hr with
            | same => exact ⟨rfl, fun i v v' h h' => by rw [h] at h'; cases h'; exact .same _⟩
            | arr a b => exact ⟨a, b⟩
          refine .arr (by simp [key.1]) fun i x x' hx hx' => ?_
          cases i with
          | zero => cases hx; cases hx'; exact h1
          | succ i => exact key.2 i x x' (by simpa using hx) (by simpa using hx')
      · rw [e]
        refine .inr ⟨t, rfl, ?_⟩
        cases hd with
        | bad hc hb =>
          cases hc with
          | elem hm hc => exact .bad (.elem (List.mem_cons_of_mem _ hm) hc) hb

/-- A property that is there is changed. -/
theorem revived_set {key : Str} {o v' : Js} (hd : member key o ≠ .undefined) (h : Revived (member key o) v') : Revived o (setProp key v' o) := by
  cases o with
  | obj l =>
    show Revived _ (.obj (mapSet key v' l))
    have hl : ∃ v, l.lookup key = some v ∧ Revived v v' := by
      unfold member at h hd
      dsimp only at h hd
      cases e : l.lookup key with
      | none => rw [e] at hd; exact absurd rfl hd
      | some v => rw [e] at h; exact ⟨v, rfl, h⟩
    clear h hd
    obtain ⟨v, hv, h⟩ := hl
    suffices hh : l.map (·.1) = (mapSet key v' l).map (·.1) ∧ ∀ (i : Nat) p p', l[i]? = some p → (mapSet key v' l)[i]? = some p' → Revived p.2 p'.2 from
      .obj hh.1 hh.2
    induction l with
    | nil => cases hv
    | cons q l ih =>
      obtain ⟨k, w⟩ := q
      unfold mapSet
      by_cases hk : k = key
      · rw [if_pos hk]
        subst hk
        rw [List.lookup_cons_self] at hv
        cases hv
        refine ⟨rfl, fun i p p' hp hp' => ?_⟩
        cases i with
        | zero => cases hp; cases hp'; exact h
        | succ i =>
          have hp : l[i]? = some p := by simpa using hp
          have hp' : l[i]? = some p' := by simpa using hp'
          rw [hp] at hp'; cases hp'; exact .same _
      · rw [if_neg hk]
        have hv' : l.lookup key = some v := by
          rw [List.lookup_cons] at hv
          have : (key == k) = false := by simpa using fun h => hk h.symm
          rw [this] at hv; exact hv
        obtain ⟨i1, i2⟩ := ih hv'
        refine ⟨by simp only [List.map_cons]; rw [i1], fun i p p' hp hp' => ?_⟩
        cases i with
        | zero => cases hp; cases hp'; exact .same _
        | succ i => exact i2 i p p' (by simpa using hp) (by simpa using hp')
  | _ => exact absurd rfl hd

theorem contains_member {key : Str} {o : Js} {s : Str} (h : Contains (member key o) s) : Contains o s := by
  cases o with
  | obj l =>
    unfold member at h
    dsimp only at h
    cases e : l.lookup key with
    | none => rw [e] at h; cases h
    | some v =>
      rw [e] at h
      obtain ⟨p, hp, hpv⟩ : ∃ p ∈ l, p.2 = v := by
        clear h
        induction l with
        | nil => cases e
        | cons q l ih =>
          rw [List.lookup_cons] at e
          split at e
          · cases e; exact ⟨q, List.mem_cons_self .., rfl⟩
          · obtain ⟨p, hp, h⟩ := ih e
            exact ⟨p, List.mem_cons_of_mem _ hp, h⟩
      exact .member hp (by rw [hpv]; exact h)
  | _ => cases h

theorem decoded_onArr {f : Nat → Js → Except Thrown Js} (hf : ∀ i v, Decoded v (f i v)) (key : Str) (o : Js) : Decoded o (onArr f key o) := by
  unfold onArr
  split
  · rename_i l hm
    rcases decoded_mapArr hf 0 l with ⟨l', e, hr⟩ | ⟨t, e, hd⟩
    · rw [e]
      exact .ok (revived_set (by rw [hm]; nofun) (by rw [hm]; exact hr))
    · rw [e]
      cases hd with
      | bad hc hb => exact .bad (contains_member (by rw [hm]; exact hc)) hb
  · exact .ok (.same _)

theorem decoded_entry {rec : Str → Js → Except Thrown Js} (hr : ∀ n v, Decoded v (rec n v)) (o : Js) (e : BigEntry) : Decoded o (applyEntry rec o e) := by
  cases e with
  | pair field nested =>
    unfold applyEntry
    dsimp only
    split
    · exact decoded_onArr (fun _ v => hr nested v) _ o
    · split
      · rename_i ht
        split
        · exact decoded_onArr (fun _ v => hr _ v) _ o
        · have h1 := hr nested (member field o)
          cases hv : rec nested (member field o) with
          | error t =>
            rw [hv] at h1
            cases h1 with
            | bad hc hb => exact .bad (contains_member hc) hb
          | ok v =>
            rw [hv] at h1
            cases h1 with
            | ok h1 => exact .ok (revived_set (by intro h; rw [h] at ht; cases ht) h1)
      · exact .ok (.same _)
  | name d =>
    unfold applyEntry
    dsimp only
    split
    · exact decoded_onArr (fun i v => decoded_toBig _ v) _ o
    · split
      · rename_i s hm
        have h1 := decoded_toBig d (.str s)
        cases hv : toBig d (.str s) with
        | error t =>
          rw [hv] at h1
          cases h1 with
          | bad hc hb => exact .bad (contains_member (by rw [hm]; exact hc)) hb
        | ok v =>
          rw [hv] at h1
          cases h1 with
          | ok h1 => exact .ok (revived_set (by rw [hm]; nofun) (by rw [hm]; exact h1))
      · exact .ok (.same _)

theorem decoded_entries {rec : Str → Js → Except Thrown Js} (hr : ∀ n v, Decoded v (rec n v)) (es : List BigEntry) (o : Js) :
    Decoded o (applyEntries rec o es) := by
  induction es generalizing o with
  | nil => exact .ok (.same _)
  | cons e es ih =>
    unfold applyEntries
    have h1 := decoded_entry hr o e
    cases ho : applyEntry rec o e with
    | error t => rw [ho] at h1; exact h1
    | ok o' =>
      rw [ho] at h1
      dsimp only
      cases h1 with
      | ok h1 =>
        have h2 := ih o'
        revert h2
        cases applyEntries rec o' es with
        | error t => intro h2; cases h2 with | bad hc hb => exact .bad (contains_back h1 hc) hb
        | ok o'' => intro h2; cases h2 with | ok h2 => exact .ok (revived_trans h1 h2)

theorem decoded_type (table : BigTable) (n : Nat) (typ : Str) (v : Js) : Decoded v (decodeTypeN table n typ v) := by
  induction n generalizing typ v with
  | zero => exact .ok (.same _)
  | succ n ih =>
    unfold decodeTypeN
    split
    · exact decoded_entries (fun n v => ih n v) _ _
    · exact .ok (.same _)

theorem decode_value [JsEngine] (c : TsClient) (typ : Str) (data : Js) (hs : ∀ s, data ≠ .str s) : Decoded data (c.decode typ data) := by
  have key : c.decode typ data = match c.table with
      | none => .ok data
      | some t => decodeType t typ data := by
    unfold TsClient.decode
    cases data with
    | str s => exact absurd rfl (hs s)
    | _ => rfl
  rw [key]
  cases c.table with
  | none => exact .ok (.same _)
  | some t => exact decoded_type t _ typ data

/-- C95. Whatever the table says and the response is, `JsonDecode` changes nothing but texts, and these only into the bigints
they denote: no member is lost or added, no other value changes. -/
theorem C95_only_bigints [JsEngine] (c : TsClient) (typ : Str) (data v : Js) (hs : ∀ s, data ≠ .str s) (h : c.decode typ data = .ok v) :
    Revived data v := by
  have := decode_value c typ data hs
  rw [h] at this
  cases this with
  | ok h => exact h

/-- C95. `JsonDecode` fails only with a bad-response error, that says which text in the response is no bigint. -/
theorem C95_no_bigint [JsEngine] (c : TsClient) (typ : Str) (data : Js) (t : Thrown) (hs : ∀ s, data ≠ .str s) (h : c.decode typ data = .error t) :
    ∃ e place s, t = .webrpc e ∧ e.cls.name = S "WebrpcBadResponse" ∧ e.code = .num (S "-5") ∧ e.message = .str (S "bad response") ∧
      e.status = .num (S "500") ∧ Contains data s ∧ bigInt s = none ∧ e.cause = .str (S "Invalid bigint value for " ++ place ++ S ": " ++ s) := by
  have := decode_value c typ data hs
  rw [h] at this
  cases this with
  | @bad s place hc hb => exact ⟨_, place, s, rfl, rfl, rfl, rfl, rfl, hc, hb, rfl⟩

/-- C95. A case in which it fails, and one in which it does not: `{"n": "1x"}` and `{"n": "17", "m": "5"}`. -/
theorem C95_decode_example [JsEngine] (c : TsClient) (ht : c.table = some [(S "T", [.name (S "n")])]) :
    (∃ t, c.decode (S "T") (.obj [(S "n", .str (S "1x"))]) = .error t) ∧
    c.decode (S "T") (.obj [(S "n", .str (S "17")), (S "m", .str (S "5"))]) = .ok (.obj [(S "n", .big 17), (S "m", .str (S "5"))]) := by
  constructor <;> unfold TsClient.decode <;> dsimp only <;> rw [ht]
  · exact ⟨_, rfl⟩
  · rfl

end Verif.Ts
