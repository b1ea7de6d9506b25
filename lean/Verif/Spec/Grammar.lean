import Verif.Spec.Document

/-!
# The grammar of RIDL

What a text, cut into tokens (`Segments`), declares.  `Doc l es` says that the tokens `l` can be read as the declarations
`es`, one after another, with nothing left over.  A relation `R i x r` reads `x` from the start of `i` and leaves `r`.
Doc comments are not told here (`doc` is left open); they are the subject of C11.
-/

namespace Verif.Spec.Grammar
open Verif.Ridl (Str TT)

/-- A token: its class and its text. -/
abbrev Lexeme := TT × Str

/-- A blank, which may be left out. -/
def Gap (g : List Lexeme) : Prop := g = [] ∨ ∃ v, g = [(.whitespace, v)]

/-- The end of the document or of a line. -/
def AtEnd (i : List Lexeme) : Prop := i = [] ∨ ∃ v r, i = (.newLine, v) :: r

/-- The next token is none of these. -/
def NoMore (ks : List TT) (i : List Lexeme) : Prop := ∀ t v r, i = (t, v) :: r → t ∉ ks

/-- Blanks, line ends and comments. -/
inductive Noise : List Lexeme → List Lexeme → Prop
  | nil (i : List Lexeme) : Noise i i
  | blank (v : Str) {i r : List Lexeme} (h : Noise i r) : Noise ((.whitespace, v) :: i) r
  | line (v : Str) {i r : List Lexeme} (h : Noise i r) : Noise ((.newLine, v) :: i) r
  | comment (v : Str) (c : List Lexeme) {i r : List Lexeme} (hc : ∀ x ∈ c, x.1 ≠ .newLine) (he : AtEnd i) (h : Noise i r) :
    Noise ((.hash, v) :: (c ++ i)) r

/-- The rest of a line: blanks, then possibly a comment. -/
inductive LineEnd : List Lexeme → List Lexeme → Prop
  | nil {i : List Lexeme} (h : AtEnd i) : LineEnd i i
  | blank (v : Str) {i r : List Lexeme} (h : LineEnd i r) : LineEnd ((.whitespace, v) :: i) r
  | comment (v : Str) (c : List Lexeme) {i : List Lexeme} (hc : ∀ x ∈ c, x.1 ≠ .newLine) (he : AtEnd i) :
    LineEnd ((.hash, v) :: (c ++ i)) i

/-! ### Values -/

/-- `v` is what the text `s` stands for.  (Texts that are not ASCII are the subject of C07.) -/
def Means (s v : Str) : Prop := Ascii s → Unescaped s v

/-- The inside of a string and its text, up to and with the closing quote. -/
inductive StrBody : List Lexeme → Str → List Lexeme → Prop
  | close (q : Str) (i : List Lexeme) : StrBody ((.quote, q) :: i) [] i
  | esc (b : Str) (x : Lexeme) {i r : List Lexeme} {s : Str} (h : StrBody i s r) : StrBody ((.backslash, b) :: x :: i) (b ++ x.2 ++ s) r
  | tok (x : Lexeme) {i r : List Lexeme} {s : Str} (hx : x.1 ∉ [.quote, .backslash, .newLine]) (h : StrBody i s r) :
    StrBody (x :: i) (x.2 ++ s) r

/-- `"..."`. -/
inductive Quoted : List Lexeme → Str → List Lexeme → Prop
  | mk (q : Str) {i r : List Lexeme} {s v : Str} (h : StrBody i s r) (hv : Means s v) : Quoted ((.quote, q) :: i) v r

/-- A run of tokens of certain classes, and its text. -/
inductive Run (ks : List TT) : List Lexeme → Str → List Lexeme → Prop
  | nil (i : List Lexeme) : Run ks i [] i
  | cons (x : Lexeme) {i r : List Lexeme} {s : Str} (hx : x.1 ∈ ks) (h : Run ks i s r) : Run ks (x :: i) (x.2 ++ s) r

/-- A literal: a string, or a run of tokens of certain classes.  (A run before a string is ignored.) -/
inductive Literal (ks : List TT) : List Lexeme → Str → List Lexeme → Prop
  | quoted {i j r : List Lexeme} {s v : Str} (h : Run ks i s j) (hq : Quoted j v r) : Literal ks i v r
  | bare {i r : List Lexeme} {s v : Str} (h : Run ks i s r) (hne : i ≠ r) (hm : NoMore (.quote :: ks) r) (hv : Means s v) :
    Literal ks i v r

/-- Values of definitions, enum members, names of services and imported types. -/
def Value := Literal [.word, .slash]
/-- Paths of imported files. -/
def Path := Literal [.word, .dot, .slash]

/-! ### Types -/

mutual
/-- A type expression and its text, without blanks. -/
inductive TypeE : List Lexeme → Str → List Lexeme → Prop
  | mk {i j r : List Lexeme} {s s' v : Str} (h : Part i s j) (hs : Parts j s' r) (hv : Means (s ++ s') v) : TypeE i v r

/-- A name, `[]` before a type, or a map. -/
inductive Part : List Lexeme → Str → List Lexeme → Prop
  | name (w : Str) (i : List Lexeme) (hw : w ∉ ["map".toList, "stream".toList, "struct".toList]) : Part ((.word, w) :: i) w i
  | list (a b : Str) {i r : List Lexeme} {v : Str} (ht : TypeE i v r) : Part ((.openBracket, a) :: (.closeBracket, b) :: i) (a ++ b ++ v) r
  | map {i r : List Lexeme} {v : Str} (ht : MapE i v r) : Part i v r

/-- Any number of parts. -/
inductive Parts : List Lexeme → Str → List Lexeme → Prop
  | nil (i : List Lexeme) : Parts i [] i
  | cons {i j r : List Lexeme} {s s' : Str} (h : Part i s j) (hs : Parts j s' r) : Parts i (s ++ s') r

/-- `map<...>`. -/
inductive MapE : List Lexeme → Str → List Lexeme → Prop
  | mk {i r : List Lexeme} {s v : Str} (h : Angle i s r) (hv : Means ("map".toList ++ s) v) : MapE ((.word, "map".toList) :: i) v r

/-- `<...>`, which may be reduced to `>`. -/
inductive Angle : List Lexeme → Str → List Lexeme → Prop
  | blank (b : Str) {i r : List Lexeme} {s : Str} (h : Angle i s r) : Angle ((.whitespace, b) :: i) s r
  | close (c : Str) (r : List Lexeme) : Angle ((.closeAngle, c) :: r) [] r
  | list (a : Str) {i j r : List Lexeme} {s v s' : Str} (h : Items i s j) (hv : Means (a ++ s) v) (h' : Angle j s' r) :
    Angle ((.openAngle, a) :: i) (v ++ s') r

/-- Types, commas and bars, up to a closing `>`, which is part of the text. -/
inductive Items : List Lexeme → Str → List Lexeme → Prop
  | close (c : Str) (r : List Lexeme) : Items ((.closeAngle, c) :: r) c ((.closeAngle, c) :: r)
  | blank (b : Str) {i r : List Lexeme} {s : Str} (h : Items i s r) : Items ((.whitespace, b) :: i) s r
  | sep (x : Lexeme) {i r : List Lexeme} {s : Str} (hx : x.1 ∈ [.comma, .bar]) (h : Items i s r) : Items (x :: i) (x.2 ++ s) r
  | type {i j r : List Lexeme} {v s : Str} (ht : TypeE i v j) (h : Items j s r) : Items i (v ++ s) r
end

/-! ### Lines of declarations -/

/-- `key.key.key` of a `+` line. -/
inductive KeyRest : List Lexeme → Str → List Lexeme → Prop
  | nil (i : List Lexeme) : KeyRest i [] i
  | word (w : Str) {i r : List Lexeme} {s : Str} (h : KeyRest i s r) : KeyRest ((.word, w) :: i) (w ++ s) r
  | dot (d w : Str) {i r : List Lexeme} {s : Str} (h : KeyRest i s r) : KeyRest ((.dot, d) :: (.word, w) :: i) (d ++ w ++ s) r

/-- The value of a `+` line: a string, or everything up to a blank or the end of the line. -/
inductive MetaVal : List Lexeme → Str → List Lexeme → Prop
  | quoted {i r : List Lexeme} {v : Str} (h : Quoted i v r) : MetaVal i v r
  | bare (x : Lexeme) (c : List Lexeme) {r : List Lexeme} {v : Str} (hq : x.1 ≠ .quote)
      (hc : ∀ y ∈ x :: c, y.1 ∉ [.whitespace, .newLine]) (hr : r = [] ∨ ∃ k w t, r = (k, w) :: t ∧ k ∈ [.whitespace, .newLine])
      (hv : Means ((x :: c).flatMap (·.2)) v) : MetaVal (x :: c ++ r) v r

/-- `+ key = value`. -/
inductive MetaLine : List Lexeme → Str × Str → List Lexeme → Prop
  | mk (p e w : Str) (g1 g2 g3 : List Lexeme) {i j r : List Lexeme} {s k v : Str} (h1 : Gap g1) (hk : KeyRest i s (g2 ++ (.equal, e) :: (g3 ++ j)))
      (hv : Means (w ++ s) k) (h2 : Gap g2) (h3 : Gap g3) (h : MetaVal j v r) :
    MetaLine ((.plusSign, p) :: (g1 ++ (.word, w) :: i)) (k, v) r

/-- `+` lines. -/
inductive Metas : List Lexeme → List (Str × Str) → List Lexeme → Prop
  | stop {i : List Lexeme} (h : NoMore [.newLine, .whitespace, .hash, .plusSign] i) : Metas i [] i
  | noise {i j r : List Lexeme} {ms : List (Str × Str)} (hn : Noise i j) (h : Metas j ms r) : Metas i ms r
  | line {i j r : List Lexeme} {m : Str × Str} {ms : List (Str × Str)} (hm : MetaLine i m j) (h : Metas j ms r) : Metas i (m :: ms) r

/-- `- path` lines after `import`. -/
inductive ImportLines : List Lexeme → List Str → List Lexeme → Prop
  | stop {i : List Lexeme} (h : NoMore [.newLine, .whitespace, .hash, .minusSign] i) : ImportLines i [] i
  | noise {i j r : List Lexeme} {ps : List Str} (hn : Noise i j) (h : ImportLines j ps r) : ImportLines i ps r
  | line (m : Str) (g : List Lexeme) {i j r : List Lexeme} {p : Str} {ps : List Str} (hg : Gap g) (hp : Path i p j) (h : ImportLines j ps r) :
    ImportLines ((.minusSign, m) :: (g ++ i)) (p :: ps) r

/-- `- Name` lines after `import path`. -/
inductive ImportMembers : List Lexeme → List Str → List Lexeme → Prop
  | stop {i : List Lexeme} (h : NoMore [.newLine, .whitespace, .hash, .minusSign] i) : ImportMembers i [] i
  | noise {i j r : List Lexeme} {ps : List Str} (hn : Noise i j) (h : ImportMembers j ps r) : ImportMembers i ps r
  | line (m : Str) (g : List Lexeme) {i j r : List Lexeme} {p : Str} {ps : List Str} (hg : Gap g) (hp : Value i p j) (h : ImportMembers j ps r) :
    ImportMembers ((.minusSign, m) :: (g ++ i)) (p :: ps) r

/-- `= value` of an enum member. -/
inductive MemberValue : List Lexeme → Option Str → List Lexeme → Prop
  | none (i : List Lexeme) : MemberValue i none i
  | some (e : Str) (g1 g2 : List Lexeme) {i r : List Lexeme} {v : Str} (h1 : Gap g1) (h2 : Gap g2) (hv : Value i v r) :
    MemberValue (g1 ++ (.equal, e) :: (g2 ++ i)) (some v) r

/-- `- NAME` and `- NAME = value` lines of an enum. -/
inductive EnumRows : List Lexeme → List FieldEntry → List Lexeme → Prop
  | stop {i : List Lexeme} (h : NoMore [.newLine, .whitespace, .hash, .minusSign] i) : EnumRows i [] i
  | noise {i j r : List Lexeme} {ms : List FieldEntry} (hn : Noise i j) (h : EnumRows j ms r) : EnumRows i ms r
  | row (m n doc : Str) (g : List Lexeme) {i j r : List Lexeme} {v : Option Str} {ms : List FieldEntry} (hg : Gap g) (hv : MemberValue i v j)
      (h : EnumRows j ms r) :
    EnumRows ((.minusSign, m) :: (g ++ (.word, n) :: i)) ({ doc := doc, name := n, value := v, optional := false, metas := [] } :: ms) r

/-- `?`. -/
inductive Mark : List Lexeme → Bool → List Lexeme → Prop
  | yes (q : Str) (i : List Lexeme) : Mark ((.questionMark, q) :: i) true i
  | no {i : List Lexeme} (h : NoMore [.questionMark] i) : Mark i false i

/-- `- name?: type` lines of a struct, each with its `+` lines. -/
inductive FieldRows : List Lexeme → List FieldEntry → List Lexeme → Prop
  | stop {i : List Lexeme} (h : NoMore [.newLine, .whitespace, .hash, .minusSign] i) : FieldRows i [] i
  | noise {i j r : List Lexeme} {fs : List FieldEntry} (hn : Noise i j) (h : FieldRows j fs r) : FieldRows i fs r
  | row (m n c doc : Str) (g1 g2 : List Lexeme) {i j k l r : List Lexeme} {v : Str} {o : Bool} {ms : List (Str × Str)} {fs : List FieldEntry}
      (h1 : Gap g1) (ho : Mark i o ((.colon, c) :: (g2 ++ j))) (h2 : Gap g2) (ht : TypeE j v k) (hm : Metas k ms l) (h : FieldRows l fs r) :
    FieldRows ((.minusSign, m) :: (g1 ++ (.word, n) :: i))
      ({ doc := doc, name := n, value := some v, optional := o, metas := ms } :: fs) r

/-! ### Methods -/

/-- Annotations: `@name`, `@name:word`, `@name:"text"`.  The token after a text is ignored, and so is one after the colon that is
neither a word nor a quote. -/
inductive Anns : List Lexeme → List (Str × Option Str) → List Lexeme → Prop
  | nil (i : List Lexeme) : Anns i [] i
  | plain (a n : Str) {i r : List Lexeme} {as : List (Str × Option Str)} (hc : NoMore [.colon] i) (h : Anns i as r) :
    Anns ((.at_, a) :: (.word, n) :: i) ((n, none) :: as) r
  | word (a n c w : Str) {i r : List Lexeme} {as : List (Str × Option Str)} (h : Anns i as r) :
    Anns ((.at_, a) :: (.word, n) :: (.colon, c) :: (.word, w) :: i) ((n, some w) :: as) r
  | text (a n c : Str) {i j r : List Lexeme} {v : Str} {as : List (Str × Option Str)} (hq : Quoted i v j) (h : Anns j.tail as r) :
    Anns ((.at_, a) :: (.word, n) :: (.colon, c) :: i) ((n, some v) :: as) r
  | empty (a n c : Str) {i r : List Lexeme} {as : List (Str × Option Str)} (hi : NoMore [.word, .quote] i) (h : Anns i.tail as r) :
    Anns ((.at_, a) :: (.word, n) :: (.colon, c) :: i) ((n, none) :: as) r

/-- The arguments after `(`, up to and with `)`.  Commas and bars are optional; the token after `(Name)` is ignored. -/
inductive ArgRows : List Lexeme → List ArgEntry → List Lexeme → Prop
  | close (c : Str) (i : List Lexeme) : ArgRows ((.closeParen, c) :: i) [] i
  | skip (x : Lexeme) {i r : List Lexeme} {as : List ArgEntry} (hx : x.1 ∈ [.whitespace, .comma, .bar]) (h : ArgRows i as r) :
    ArgRows (x :: i) as r
  | whole (w c : Str) (i : List Lexeme) : ArgRows ((.word, w) :: (.closeParen, c) :: i) [.whole w] i.tail
  | one (n c : Str) (g : List Lexeme) {i j k r : List Lexeme} {o : Bool} {v : Str} {as : List ArgEntry} (ho : Mark i o ((.colon, c) :: (g ++ j)))
      (hg : Gap g) (ht : TypeE j v k) (h : ArgRows k as r) : ArgRows ((.word, n) :: i) (.one (some n) (some v) o :: as) r

/-- `(...)`, possibly after the word `stream`. -/
inductive Args : List Lexeme → List ArgEntry → List Lexeme → Prop
  | plain (p : Str) {i r : List Lexeme} {as : List ArgEntry} (h : ArgRows i as r) : Args ((.openParen, p) :: i) as r
  | stream (p : Str) (g : List Lexeme) {i r : List Lexeme} {as : List ArgEntry} (hg : Gap g) (h : ArgRows i as r) :
    Args ((.word, "stream".toList) :: (g ++ (.openParen, p) :: i)) as r

/-- `=> (...)` and `=> stream (...)`. -/
inductive Outputs : List Lexeme → Bool → List ArgEntry → List Lexeme → Prop
  | none (i : List Lexeme) : Outputs i false [] i
  | plain (a : Str) (g1 g2 : List Lexeme) {i r : List Lexeme} {as : List ArgEntry} (h1 : Gap g1) (h2 : Gap g2)
      (hs : NoMore [.word] i) (h : Args i as r) : Outputs (g1 ++ (.rocket, a) :: (g2 ++ i)) false as r
  | stream (a : Str) (g1 g2 g3 : List Lexeme) {i r : List Lexeme} {as : List ArgEntry} (h1 : Gap g1) (h2 : Gap g2) (h3 : Gap g3) (h : Args i as r) :
    Outputs (g1 ++ (.rocket, a) :: (g2 ++ (.word, "stream".toList) :: (g3 ++ i))) true as r

/-- `| Name | Name`. -/
inductive MoreErrors : List Lexeme → List Str → List Lexeme → Prop
  | nil (i : List Lexeme) : MoreErrors i [] i
  | cons (b e : Str) (g1 g2 : List Lexeme) {i r : List Lexeme} {es : List Str} (h1 : Gap g1) (h2 : Gap g2) (h : MoreErrors i es r) :
    MoreErrors (g1 ++ (.bar, b) :: (g2 ++ (.word, e) :: i)) (e :: es) r

/-- `errors Name | Name`.  Another word in this place is ignored. -/
inductive Errs : List Lexeme → List Str → List Lexeme → Prop
  | none (i : List Lexeme) : Errs i [] i
  | other (w : Str) (g : List Lexeme) (i : List Lexeme) (hg : Gap g) (hw : w ≠ "errors".toList) : Errs (g ++ (.word, w) :: i) [] i
  | some (e : Str) (g1 g2 : List Lexeme) {i r : List Lexeme} {es : List Str} (h1 : Gap g1) (h2 : Gap g2) (h : MoreErrors i es r) :
    Errs (g1 ++ (.word, "errors".toList) :: (g2 ++ (.word, e) :: i)) (e :: es) r

/-- The name of a method: `Name` or `stream Name`. -/
inductive MethodName : List Lexeme → Bool → Str → List Lexeme → Prop
  | plain (n : Str) (i : List Lexeme) (hn : n ∉ ["stream".toList, "proxy".toList]) : MethodName ((.word, n) :: i) false n i
  | stream (n : Str) (g i : List Lexeme) (hg : Gap g) : MethodName ((.word, "stream".toList) :: (g ++ (.word, n) :: i)) true n i

/-- A `-` line of a service, after the annotations `anns`. -/
inductive MethodRow (anns : List (Str × Option Str)) : List Lexeme → MethodEntry → List Lexeme → Prop
  | proxy (m n doc : Str) (g1 g2 i : List Lexeme) (h1 : Gap g1) (h2 : Gap g2) :
    MethodRow anns ((.minusSign, m) :: (g1 ++ (.word, "proxy".toList) :: (g2 ++ (.word, n) :: i)))
      { doc := doc, anns := anns, name := n, proxy := true, streamIn := false, inputs := [], streamOut := false, outputs := [], errors := [] } i
  | method (m doc : Str) (g : List Lexeme) {i j k l r : List Lexeme} {n : Str} {si so : Bool} {ins outs : List ArgEntry} {es : List Str}
      (hg : Gap g) (hn : MethodName i si n j) (hi : Args j ins k) (ho : Outputs k so outs l) (he : Errs l es r) :
    MethodRow anns ((.minusSign, m) :: (g ++ i))
      { doc := doc, anns := anns, name := n, proxy := false, streamIn := si, inputs := ins, streamOut := so, outputs := outs, errors := es } r

/-- The lines of a service; annotations belong to the next method. -/
inductive Methods : List (Str × Option Str) → List Lexeme → List MethodEntry → List Lexeme → Prop
  | stop (anns : List (Str × Option Str)) {i : List Lexeme} (h : NoMore [.newLine, .whitespace, .hash, .minusSign, .at_] i) : Methods anns i [] i
  | noise {anns : List (Str × Option Str)} {i j r : List Lexeme} {ms : List MethodEntry} (hn : Noise i j) (h : Methods anns j ms r) :
    Methods anns i ms r
  | ann {anns as : List (Str × Option Str)} {i j r : List Lexeme} {ms : List MethodEntry} (ha : Anns i as j) (h : Methods (anns ++ as) j ms r) :
    Methods anns i ms r
  | row {anns : List (Str × Option Str)} {i j r : List Lexeme} {m : MethodEntry} {ms : List MethodEntry} (hm : MethodRow anns i m j)
      (h : Methods [] j ms r) : Methods anns i (m :: ms) r

/-! ### Errors -/

/-- A number. -/
def AllDigits (s : Str) : Prop := ∀ c ∈ s, c ∈ "0123456789".toList

/-- The message of an error: a word or a string. -/
inductive Message : List Lexeme → Str → List Lexeme → Prop
  | word (w : Str) (i : List Lexeme) : Message ((.word, w) :: i) w i
  | text {i r : List Lexeme} {v : Str} (h : Quoted i v r) : Message i v r

/-- `HTTP 404`. -/
inductive Status : List Lexeme → Option Str → List Lexeme → Prop
  | none (i : List Lexeme) : Status i none i
  | some (n : Str) (g1 g2 i : List Lexeme) (h1 : Gap g1) (h2 : Gap g2) (hn : AllDigits n) :
    Status (g1 ++ (.word, "HTTP".toList) :: (g2 ++ (.word, n) :: i)) (some n) i

/-! ### Documents -/

/-- A declaration and the entries it stands for. -/
inductive Declares : List Lexeme → List Entry → List Lexeme → Prop
  | define (key e doc : Str) (g1 g2 : List Lexeme) {i j r : List Lexeme} {v : Str}
      (hk : key ∈ ["webrpc".toList, "name".toList, "version".toList, "basepath".toList]) (h1 : Gap g1) (h2 : Gap g2)
      (hv : Value i v j) (he : LineEnd j r) :
    Declares ((.word, key) :: (g1 ++ (.equal, e) :: (g2 ++ i)))
      [.define { doc := doc, name := key, value := some v, optional := false, metas := [] }] r
  | imports {i j r : List Lexeme} {ps : List Str} (he : LineEnd i j) (h : ImportLines j ps r) :
    Declares ((.word, "import".toList) :: i) (ps.map fun p => .import_ p []) r
  | import_ (g : List Lexeme) {i j r : List Lexeme} {p : Str} {ms : List Str} (hg : ∀ x ∈ g, x.1 = .whitespace) (hp : Path i p j) (h : ImportMembers j ms r) :
    Declares ((.word, "import".toList) :: (g ++ i)) [.import_ p ms] r
  | error (code name : Str) (g1 g2 g3 : List Lexeme) {i j k r : List Lexeme} {msg : Str} {st : Option Str} (hc : AllDigits code)
      (h1 : Gap g1) (h2 : Gap g2) (h3 : Gap g3) (hm : Message i msg j) (hs : Status j st k) (he : LineEnd k r) :
    Declares ((.word, "error".toList) :: (g1 ++ (.word, code) :: (g2 ++ (.word, name) :: (g3 ++ i))))
      [.error code name (some msg) st] r
  | enum (name c type doc : Str) (g1 g2 : List Lexeme) {i j r : List Lexeme} {ms : List FieldEntry} (h1 : Gap g1) (h2 : Gap g2)
      (he : LineEnd i j) (h : EnumRows j ms r) :
    Declares ((.word, "enum".toList) :: (g1 ++ (.word, name) :: (.colon, c) :: (g2 ++ (.word, type) :: i))) [.enum doc name type ms] r
  | alias (name c doc : Str) (g1 g2 : List Lexeme) {i j r : List Lexeme} {v : Str} {ms : List (Str × Str)} (h1 : Gap g1) (h2 : Gap g2)
      (ht : TypeE i v j) (h : Metas j ms r) :
    Declares ((.word, "type".toList) :: (g1 ++ (.word, name) :: (.colon, c) :: (g2 ++ i))) [.alias doc name v ms] r
  | struct (name doc : Str) (g : List Lexeme) {i r : List Lexeme} {fs : List FieldEntry} (hg : Gap g) (h : FieldRows i fs r) :
    Declares ((.word, "struct".toList) :: (g ++ (.word, name) :: i)) [.struct doc name fs] r
  | service (doc : Str) (g : List Lexeme) {i j k r : List Lexeme} {n : Str} {ms : List MethodEntry} (hg : Gap g) (hn : Value i n j)
      (he : LineEnd j k) (h : Methods [] k ms r) :
    Declares ((.word, "service".toList) :: (g ++ i)) [.service doc n ms] r

/-- A document: declarations, with blanks, line ends and comments around them. -/
inductive Doc : List Lexeme → List Entry → Prop
  | nil : Doc [] []
  | noise {i j : List Lexeme} {es : List Entry} (hn : Noise i j) (h : Doc j es) : Doc i es
  | decl {i j : List Lexeme} {d es : List Entry} (hd : Declares i d j) (h : Doc j es) : Doc i (d ++ es)

end Verif.Spec.Grammar
