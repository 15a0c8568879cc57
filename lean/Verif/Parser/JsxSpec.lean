import Verif.Parser.Jsx
import Verif.Lexer.ScanSpec

/-! # The grammar of JSX elements (for C79)

The rules say how a text begins: `… s r` means that `s` begins with such a thing and that `r` is the text after it.  The flag `q` lets in
what JSX does not have and mole accepts: each rule that needs it says `q = true`.  Names that are keywords are not in the grammar, though
JSX has them (see `keyword_name_violated`). -/

namespace Mole.Parser.Jsx
open Mole.Lexer (IdTables NameAt BlockBody TriviaAt)
open Mole.Lexer.Spec (LineTerm)

/-- White space and `//` comments, in a tag.  (JSX has the other comments too, see `comment_violated`; mole reads them in odd places.) -/
inductive Gap (q : Bool) : List Nat → List Nat → Prop
  | nil {s} : Gap q s s
  | ws {c s r} : Span.White c → Gap q s r → Gap q (c :: s) r
  | line {body t r} : (∀ c ∈ body, ¬LineTerm c) → (∀ c u, t = c :: u → LineTerm c) → Gap q t r →
      Gap q ('/'.toNat :: '/'.toNat :: (body ++ t)) r
  | block {s body t r} : q = true → BlockBody s body t → Gap q t r → Gap q ('/'.toNat :: '*'.toNat :: s) r

/-- White space and comments of both kinds, all that there are. -/
def Triv (s r : List Nat) : Prop := ∃ f, TriviaAt false s f r

variable {E : Type}

/-- A name with this text, which may have hyphens; it is no keyword.  Nothing that could belong to it follows. -/
def IdAt (C : Cfg E) (q : Bool) (v s r : List Nat) : Prop :=
  ∃ src esc, s = src ++ r ∧ NameAt C.scan.tables true src v esc ∧
    Lexer.classify ⟨C.scan.module, C.scan.asyncAwait, C.strict, C.async⟩ v esc = .name ∧
    (q = false → ∀ d, r.head? = some d →
      Lexer.isIdStart C.scan.tables d = false ∧ Lexer.isIdPart C.scan.tables d = false ∧ d ≠ '-'.toNat)

/-- The name of a property: also the words that are keywords only in certain places may do. -/
def PropAt (C : Cfg E) (q : Bool) (v s r : List Nat) : Prop :=
  C.prop v = true ∧ ∃ src esc, s = src ++ r ∧ NameAt C.scan.tables true src v esc ∧
    Lexer.classify ⟨C.scan.module, C.scan.asyncAwait, C.strict, C.async⟩ v esc ∉
      [Lexer.NameTok.keyword, Lexer.NameTok.escapeInKeyword] ∧
    (q = false → ∀ d, r.head? = some d →
      Lexer.isIdStart C.scan.tables d = false ∧ Lexer.isIdPart C.scan.tables d = false ∧ d ≠ '-'.toNat)

/-- `a.b.c` -/
inductive MemberAt (C : Cfg E) (q : Bool) : Name → List Nat → List Nat → Prop
  | id {v s r} : IdAt C q v s r → MemberAt C q (.id v) s r
  | member {o v s t t1 t2 r} : MemberAt C q o s t → Gap q t ('.'.toNat :: t1) → Gap q t1 t2 → PropAt C q v t2 r →
      MemberAt C q (.member o v) s r

/-- The name of an element or attribute; `a:b` if that is allowed. -/
inductive PathAt (C : Cfg E) (q : Bool) : Name → List Nat → List Nat → Prop
  | member {n s r} : MemberAt C q n s r → PathAt C q n s r
  | ns {a b s t t1 t2 r} : C.ns = true → IdAt C q a s t → Gap q t (':'.toNat :: t1) → Gap q t1 t2 → IdAt C q b t2 r →
      PathAt C q (.ns a b) s r

/-- After a `{`: an expression, nothing or `...` and an expression, and the `}`. -/
inductive BoxAt (C : Cfg E) (q : Bool) : J E → List Nat → List Nat → Prop
  | expr {e s t r} : (q = false → ∀ u, ¬Triv s ('}'.toNat :: u) ∧ ¬Triv s ('.'.toNat :: '.'.toNat :: '.'.toNat :: u)) →
      C.expr s = some (e, t) → Triv t ('}'.toNat :: r) → BoxAt C q (.box e) s r
  | empty {s r} : Triv s ('}'.toNat :: r) → BoxAt C q .boxEmpty s r
  | spread {e s t u r} : Triv s ('.'.toNat :: '.'.toNat :: '.'.toNat :: t) → C.asg t = some (e, u) → Triv u ('}'.toNat :: r) →
      BoxAt C q (.spread e) s r

/-- A text between tags: white space as it is, or what the lexer makes of a text (C16), up to a `{` or `<`. -/
inductive TextAt (C : Cfg E) : List Nat → List Nat → List Nat → Prop
  | ws {w r} : w ≠ [] → (∀ c ∈ w, Span.White c) → (∃ u, r = '{'.toNat :: u ∨ r = '<'.toNat :: u) → TextAt C w (w ++ r) r
  | text {v w c s r} : (∀ c ∈ w, Span.White c) → ¬Span.White c → c ∉ ['{'.toNat, '}'.toNat, '<'.toNat] →
      Lexer.readJSXTxt C.ents w (c :: s) = some (.ok (.txt v r)) → TextAt C v (w ++ c :: s) r

mutual
/-- An element, from its `<` on. -/
inductive ElemAt (C : Cfg E) (q : Bool) : J E → List Nat → List Nat → Prop
  /-- `<a …/>` -/
  | closed {n as s s1 s2 s3 s4 s5 r} : Gap q s s1 → PathAt C q n s1 s2 → DropAt C q s2 s3 → AttrsAt C q as s3 s4 →
      Gap q s4 ('/'.toNat :: s5) → s5.head? ≠ some '/'.toNat → Gap q s5 ('>'.toNat :: r) →
      ElemAt C q (.elem (some n) as [] none) ('<'.toNat :: s) r
  /-- `<a …> … </b>`, with the same name in both tags -/
  | pair {n n' as ks s s1 s2 s3 s4 s5 s6 r} : Gap q s s1 → PathAt C q n s1 s2 → DropAt C q s2 s3 → AttrsAt C q as s3 s4 →
      Gap q s4 ('>'.toNat :: s5) → KidsAt C q ks s5 s6 → CloseAt C q (some n') s6 r → n.path = n'.path →
      ElemAt C q (.elem (some n) as ks (some (some n'))) ('<'.toNat :: s) r
  /-- `<> … </>` -/
  | fragment {ks s s1 s2 r} : Gap q s ('>'.toNat :: s1) → KidsAt C q ks s1 s2 → CloseAt C q none s2 r →
      ElemAt C q (.elem none [] ks (some none)) ('<'.toNat :: s) r

/-- `</a>` or `</>` -/
inductive CloseAt (C : Cfg E) (q : Bool) : Option Name → List Nat → List Nat → Prop
  | name {n s s1 s2 s3 s4 r} : Gap q s ('/'.toNat :: s1) → s1.head? ≠ some '/'.toNat → Gap q s1 s2 → PathAt C q n s2 s3 →
      DropAt C q s3 s4 → Gap q s4 ('>'.toNat :: r) → CloseAt C q (some n) ('<'.toNat :: s) r
  | fragment {s s1 r} : Gap q s ('/'.toNat :: s1) → s1.head? ≠ some '/'.toNat → Gap q s1 ('>'.toNat :: r) →
      CloseAt C q none ('<'.toNat :: s) r

/-- Not in JSX: an element after a name, which is not in the tree. -/
inductive DropAt (C : Cfg E) (q : Bool) : List Nat → List Nat → Prop
  | none {s} : DropAt C q s s
  | elem {e s t r} : q = true → Gap q s t → ElemAt C q e t r → DropAt C q s r

/-- The attributes of a tag. -/
inductive AttrsAt (C : Cfg E) (q : Bool) : List (J E) → List Nat → List Nat → Prop
  | nil {s} : AttrsAt C q [] s s
  | cons {a as s t u r} : Gap q s t → AttrAt C q a t u → AttrsAt C q as u r → AttrsAt C q (a :: as) s r

/-- One of them. -/
inductive AttrAt (C : Cfg E) (q : Bool) : J E → List Nat → List Nat → Prop
  /-- `a` -/
  | bare {n s s1 r} : PathAt C q n s s1 → DropAt C q s1 r → AttrAt C q (.attr n none) s r
  /-- `a="…"`, where only the same quote is not allowed -/
  | str {n v s s1 s2 s3 s4 k r} : PathAt C q n s s1 → DropAt C q s1 s2 → Gap q s2 ('='.toNat :: s3) → Triv s3 (k :: s4) →
      k = '"'.toNat ∨ k = '\''.toNat → s4 = v ++ k :: r → k ∉ v → AttrAt C q (.attr n (some (.str v))) s r
  /-- `a={…}`; `a={}` and `a={...b}` are not in JSX -/
  | box {n b s s1 s2 s3 s4 r} : PathAt C q n s s1 → DropAt C q s1 s2 → Gap q s2 ('='.toNat :: s3) → Triv s3 ('{'.toNat :: s4) →
      BoxAt C q b s4 r → (q = false → ∃ e, b = .box e) → AttrAt C q (.attr n (some b)) s r
  /-- `a=<b/>`; in JSX too, but here after it the lexer is in a wrong mode (see `element_value_violated`) -/
  | elem {n e s s1 s2 s3 s4 r} : q = true → PathAt C q n s s1 → DropAt C q s1 s2 → Gap q s2 ('='.toNat :: s3) → Triv s3 s4 →
      ElemAt C q e s4 r → AttrAt C q (.attr n (some e)) s r
  /-- not in JSX: `a=` without a value -/
  | missing {n s s1 s2 r} : q = true → PathAt C q n s s1 → DropAt C q s1 s2 → Gap q s2 ('='.toNat :: r) →
      AttrAt C q (.attr n none) s r
  /-- `{...a}` -/
  | spread {e s r} : BoxAt C q (.spread e) s r → AttrAt C q (.spreadAttr e) ('{'.toNat :: s) r

/-- What is between the tags, up to the closing tag. -/
inductive KidsAt (C : Cfg E) (q : Bool) : List (J E) → List Nat → List Nat → Prop
  | nil {s} : KidsAt C q [] s s
  | text {v ks s t r} : TextAt C v s t → KidsAt C q ks t r → KidsAt C q (.text v :: ks) s r
  | box {b ks s t r} : BoxAt C q b s t → KidsAt C q ks t r → KidsAt C q (b :: ks) ('{'.toNat :: s) r
  | elem {e ks s t r} : ElemAt C q e s t → KidsAt C q ks t r → KidsAt C q (e :: ks) s r
end

end Mole.Parser.Jsx
