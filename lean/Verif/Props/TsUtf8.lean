import Verif.Ts.Utf8
/-!
# UTF-8: what is sent is what is decoded, however it is cut
-/

namespace Verif.Ts
open Verif.Schema hiding Json Method
open Verif.Gen

theorem utf8Bytes_append (s : Utf8State) (a b : List UInt8) :
    utf8Bytes s (a ++ b) = ((utf8Bytes (utf8Bytes s a).1 b).1, (utf8Bytes s a).2 ++ (utf8Bytes (utf8Bytes s a).1 b).2) := by
  induction a generalizing s with
  | nil => rfl
  | cons x a ih =>
    rw [List.cons_append, utf8Bytes, utf8Bytes, ih]
    simp only [List.append_assoc]

/-- Decoding piece by piece. -/
theorem decode_append (d : TextDecoder) (a b : List UInt8) :
    d.decode (a ++ b) = (((d.decode a).1.decode b).1, (d.decode a).2 ++ ((d.decode a).1.decode b).2) := by
  have e : ∀ (d : TextDecoder) (x : List UInt8) (st : Utf8State) (o : Str), utf8Bytes d.state x = (st, o) →
      d.decode x = if d.bomSeen then (⟨st, true⟩, o) else match o with
        | [] => (⟨st, false⟩, [])
        | c :: text => (⟨st, true⟩, if c = bom then text else c :: text) := by
    intro d x st o h
    unfold TextDecoder.decode; dsimp only; rw [h]; rfl
  obtain ⟨st, seen⟩ := d
  have hab := utf8Bytes_append st a b
  cases ha : utf8Bytes st a with
  | mk s1 o1 =>
  rw [ha] at hab
  dsimp only at hab
  cases hb : utf8Bytes s1 b with
  | mk s2 o2 =>
  rw [hb] at hab
  dsimp only at hab
  rw [e ⟨st, seen⟩ (a ++ b) _ _ hab, e ⟨st, seen⟩ a _ _ ha]
  cases seen with
  | true =>
    simp only [if_true]
    rw [e ⟨s1, true⟩ b _ _ hb]; rfl
  | false =>
    cases o1 with
    | nil =>
      simp only [Bool.false_eq_true, if_false, List.nil_append]
      rw [e ⟨s1, false⟩ b _ _ hb]
      cases o2 <;> rfl
    | cons c l =>
      simp only [Bool.false_eq_true, if_false, List.cons_append]
      rw [e ⟨s1, true⟩ b _ _ hb]
      simp only [if_true]
      split <;> rfl

theorem toNat_ofNat' {n : Nat} (h : n < 256) : (UInt8.ofNat n).toNat = n := by
  simp; omega

theorem char_range (c : Char) : c.toNat < 0xD800 ∨ (0xDFFF < c.toNat ∧ c.toNat < 0x110000) := by
  have := c.valid
  exact this

theorem ofNat_toNat' {c : Char} {n : Nat} (h : n = c.toNat) : Char.ofNat n = c := by
  subst h; exact Char.ofNat_toNat c

/-- A character is decoded, and nothing before its last byte. -/
theorem utf8_char (c : Char) :
    utf8Bytes .clean (String.utf8EncodeChar c) = (.clean, [c]) ∧
    ∀ b, b <+: String.utf8EncodeChar c → b ≠ String.utf8EncodeChar c → (utf8Bytes .clean b).2 = [] := by
  have hr := char_range c
  have hv : c.val.toNat = c.toNat := rfl
  unfold String.utf8EncodeChar
  rw [hv]
  dsimp only
  generalize hn : c.toNat = n at hr
  have hpre1 : ∀ (x : UInt8) (b : List UInt8), b <+: [x] → b ≠ [x] → b = [] := by
    intro x b h1 h2
    cases b with
    | nil => rfl
    | cons y b => obtain ⟨rfl, h⟩ := List.cons_prefix_cons.1 h1; rw [List.prefix_nil.1 h] at h2; exact absurd rfl h2
  have hpre2 : ∀ (x y : UInt8) (b : List UInt8), b <+: [x, y] → b ≠ [x, y] → b = [] ∨ b = [x] := by
    intro x y b h1 h2
    cases b with
    | nil => exact .inl rfl
    | cons z b =>
      obtain ⟨rfl, h⟩ := List.cons_prefix_cons.1 h1
      exact .inr (by rw [hpre1 y b h (fun e => h2 (by rw [e]))])
  have hpre3 : ∀ (x y z : UInt8) (b : List UInt8), b <+: [x, y, z] → b ≠ [x, y, z] → b = [] ∨ b = [x] ∨ b = [x, y] := by
    intro x y z b h1 h2
    cases b with
    | nil => exact .inl rfl
    | cons w b =>
      obtain ⟨rfl, h⟩ := List.cons_prefix_cons.1 h1
      rcases hpre2 y z b h (fun e => h2 (by rw [e])) with e | e
      · exact .inr (.inl (by rw [e]))
      · exact .inr (.inr (by rw [e]))
  have hpre4 : ∀ (x y z w : UInt8) (b : List UInt8), b <+: [x, y, z, w] → b ≠ [x, y, z, w] →
      b = [] ∨ b = [x] ∨ b = [x, y] ∨ b = [x, y, z] := by
    intro x y z w b h1 h2
    cases b with
    | nil => exact .inl rfl
    | cons v b =>
      obtain ⟨rfl, h⟩ := List.cons_prefix_cons.1 h1
      rcases hpre3 y z w b h (fun e => h2 (by rw [e])) with e | e | e
      · exact .inr (.inl (by rw [e]))
      · exact .inr (.inr (.inl (by rw [e])))
      · exact .inr (.inr (.inr (by rw [e])))
  by_cases h1 : n ≤ 0x7f
  · rw [if_pos h1]
    have hb : (UInt8.ofNat n).toNat = n := toNat_ofNat' (by omega)
    constructor
    · simp only [utf8Bytes, utf8Byte, hb, utf8Start, Utf8State.clean, if_true, if_pos h1]
      rw [ofNat_toNat' hn.symm]; rfl
    · intro b hb1 hb2; rw [hpre1 _ b hb1 hb2]; rfl
  rw [if_neg h1]
  by_cases h2 : n ≤ 0x7ff
  · rw [if_pos h2]
    have hb1 : (UInt8.ofNat (n / 64 % 32 + 192)).toNat = n / 64 % 32 + 192 := toNat_ofNat' (by omega)
    have hb2 : (UInt8.ofNat (n % 64 + 128)).toNat = n % 64 + 128 := toNat_ofNat' (by omega)
    have s1 : utf8Byte .clean (n / 64 % 32 + 192) = (⟨n / 64, 1, 0x80, 0xBF⟩, []) := by
      unfold utf8Byte
      rw [if_pos (show Utf8State.clean.left = 0 from rfl)]
      unfold utf8Start
      rw [if_neg (by omega), if_pos (by omega)]
      congr 2; omega
    constructor
    · simp only [utf8Bytes, hb1, hb2, s1]
      unfold utf8Byte
      dsimp only
      rw [if_neg (by omega), if_neg (by omega)]
      rw [if_pos rfl, ofNat_toNat' (c := c) (by omega)]
      rfl
    · intro b k1 k2
      rcases hpre2 _ _ b k1 k2 with rfl | rfl
      · rfl
      · simp only [utf8Bytes, hb1, s1]; rfl
  rw [if_neg h2]
  by_cases h3 : n ≤ 0xffff
  · rw [if_pos h3]
    have hb1 : (UInt8.ofNat (n / 4096 % 16 + 224)).toNat = n / 4096 % 16 + 224 := toNat_ofNat' (by omega)
    have hb2 : (UInt8.ofNat (n / 64 % 64 + 128)).toNat = n / 64 % 64 + 128 := toNat_ofNat' (by omega)
    have hb3 : (UInt8.ofNat (n % 64 + 128)).toNat = n % 64 + 128 := toNat_ofNat' (by omega)
    have s1 : utf8Byte .clean (n / 4096 % 16 + 224) = (⟨n / 4096, 2, if n / 4096 % 16 + 224 = 0xE0 then 0xA0 else 0x80,
        if n / 4096 % 16 + 224 = 0xED then 0x9F else 0xBF⟩, []) := by
      unfold utf8Byte
      rw [if_pos (show Utf8State.clean.left = 0 from rfl)]
      unfold utf8Start
      rw [if_neg (by omega), if_neg (by omega), if_pos (by omega)]
      congr 2; omega
    have s2 : utf8Byte ⟨n / 4096, 2, if n / 4096 % 16 + 224 = 0xE0 then 0xA0 else 0x80,
        if n / 4096 % 16 + 224 = 0xED then 0x9F else 0xBF⟩ (n / 64 % 64 + 128) = (⟨n / 64, 1, 0x80, 0xBF⟩, []) := by
      unfold utf8Byte
      dsimp only
      rw [if_neg (by omega), if_neg (by split <;> split <;> omega)]
      rw [if_neg (by omega)]
      congr 2; omega
    constructor
    · simp only [utf8Bytes, hb1, hb2, hb3, s1, s2]
      unfold utf8Byte
      dsimp only
      rw [if_neg (by omega), if_neg (by omega)]
      rw [if_pos rfl, ofNat_toNat' (c := c) (by omega)]
      rfl
    · intro b k1 k2
      rcases hpre3 _ _ _ b k1 k2 with rfl | rfl | rfl
      · rfl
      · simp only [utf8Bytes, hb1, s1]; rfl
      · simp only [utf8Bytes, hb1, hb2, s1, s2]; rfl
  rw [if_neg h3]
  · have hb1 : (UInt8.ofNat (n / 262144 % 8 + 240)).toNat = n / 262144 % 8 + 240 := toNat_ofNat' (by omega)
    have hb2 : (UInt8.ofNat (n / 4096 % 64 + 128)).toNat = n / 4096 % 64 + 128 := toNat_ofNat' (by omega)
    have hb3 : (UInt8.ofNat (n / 64 % 64 + 128)).toNat = n / 64 % 64 + 128 := toNat_ofNat' (by omega)
    have hb4 : (UInt8.ofNat (n % 64 + 128)).toNat = n % 64 + 128 := toNat_ofNat' (by omega)
    have s1 : utf8Byte .clean (n / 262144 % 8 + 240) = (⟨n / 262144, 3, if n / 262144 % 8 + 240 = 0xF0 then 0x90 else 0x80,
        if n / 262144 % 8 + 240 = 0xF4 then 0x8F else 0xBF⟩, []) := by
      unfold utf8Byte
      rw [if_pos (show Utf8State.clean.left = 0 from rfl)]
      unfold utf8Start
      rw [if_neg (by omega), if_neg (by omega), if_neg (by omega), if_pos (by omega)]
      congr 2; omega
    have s2 : utf8Byte ⟨n / 262144, 3, if n / 262144 % 8 + 240 = 0xF0 then 0x90 else 0x80,
        if n / 262144 % 8 + 240 = 0xF4 then 0x8F else 0xBF⟩ (n / 4096 % 64 + 128) = (⟨n / 4096, 2, 0x80, 0xBF⟩, []) := by
      unfold utf8Byte
      dsimp only
      rw [if_neg (by omega), if_neg (by split <;> split <;> omega)]
      rw [if_neg (by omega)]
      congr 2; omega
    have s3 : utf8Byte ⟨n / 4096, 2, 0x80, 0xBF⟩ (n / 64 % 64 + 128) = (⟨n / 64, 1, 0x80, 0xBF⟩, []) := by
      unfold utf8Byte
      dsimp only
      rw [if_neg (by omega), if_neg (by omega)]
      rw [if_neg (by omega)]
      congr 2; omega
    constructor
    · simp only [utf8Bytes, hb1, hb2, hb3, hb4, s1, s2, s3]
      unfold utf8Byte
      dsimp only
      rw [if_neg (by omega), if_neg (by omega)]
      rw [if_pos rfl, ofNat_toNat' (c := c) (by omega)]
      rfl
    · intro b k1 k2
      rcases hpre4 _ _ _ _ b k1 k2 with rfl | rfl | rfl | rfl
      · rfl
      · simp only [utf8Bytes, hb1, s1]; rfl
      · simp only [utf8Bytes, hb1, hb2, s1, s2]; rfl
      · simp only [utf8Bytes, hb1, hb2, hb3, s1, s2, s3]; rfl

theorem utf8_text (t : Str) : utf8Bytes .clean (utf8 t) = (.clean, t) := by
  induction t with
  | nil => rfl
  | cons c t ih =>
    show utf8Bytes .clean (String.utf8EncodeChar c ++ utf8 t) = _
    rw [utf8Bytes_append, (utf8_char c).1]
    dsimp only
    rw [ih]; rfl

/-- Of a text that arrived in part, as much is decoded as arrived completely. -/
theorem utf8_prefix (t : Str) (b : List UInt8) (h : b <+: utf8 t) : (utf8Bytes .clean b).2 <+: t := by
  induction t generalizing b with
  | nil => rw [List.prefix_nil.1 h]; exact List.prefix_rfl
  | cons c t ih =>
    have h' : b <+: String.utf8EncodeChar c ++ utf8 t := h
    have hcase : b <+: String.utf8EncodeChar c ∨ ∃ b', b = String.utf8EncodeChar c ++ b' ∧ b' <+: utf8 t := by
      rcases Nat.le_total b.length (String.utf8EncodeChar c).length with hl | hl
      · exact .inl (List.prefix_of_prefix_length_le h' (List.prefix_append ..) hl)
      · obtain ⟨b', rfl⟩ := List.prefix_of_prefix_length_le (List.prefix_append ..) h' hl
        exact .inr ⟨b', rfl, (List.prefix_append_right_inj _).1 h'⟩
    rcases hcase with hp | ⟨b', rfl, hp⟩
    · by_cases he : b = String.utf8EncodeChar c
      · rw [he, (utf8_char c).1]; exact ⟨t, rfl⟩
      · rw [(utf8_char c).2 b hp he]; exact List.nil_prefix
    · rw [utf8Bytes_append, (utf8_char c).1]
      dsimp only
      obtain ⟨r, hr⟩ := ih b' hp
      exact ⟨r, by rw [List.append_assoc, hr]; rfl⟩

/-- What a `TextDecoder` gives for a text that does not begin with a byte order mark. -/
theorem decode_text (t : Str) (h : t.head? ≠ some bom) : (TextDecoder.new.decode (utf8 t)).2 = t := by
  unfold TextDecoder.decode TextDecoder.new
  dsimp only
  rw [utf8_text]
  cases t with
  | nil => rfl
  | cons c t =>
    simp only [Bool.false_eq_true, if_false]
    rw [if_neg]
    rintro rfl; exact h rfl

theorem decode_prefix (t : Str) (h : t.head? ≠ some bom) (b : List UInt8) (hb : b <+: utf8 t) :
    (TextDecoder.new.decode b).2 <+: t := by
  have hp := utf8_prefix t b hb
  unfold TextDecoder.decode TextDecoder.new
  dsimp only
  cases hx : (utf8Bytes .clean b).2 with
  | nil => exact List.nil_prefix
  | cons c l =>
    rw [hx] at hp
    simp only [Bool.false_eq_true, if_false]
    rw [if_neg]
    · exact hp
    · rintro rfl
      obtain ⟨r, rfl⟩ := hp
      exact h rfl

end Verif.Ts
