import Verif.Lexer.Scan
import Verif.Lexer.CommentProps
import Verif.Lexer.NameProps
import Verif.Lexer.NumProps
import Verif.Lexer.StrProps
import Verif.Lexer.Tpl
import Verif.Lexer.PunctProps
import Verif.Lexer.RegexpProps

/-!
# The lexical grammar

What the texts between and of the tokens look like.  The parts are the grammars of the single kinds of tokens: `BlockBody`,
`NameAt`, `NumLit`, `EscapeAt`, `TplAt`, `Longest`, `RegexpBody`.
-/
namespace Mole.Lexer
open Spec

/-- `TriviaAt p s f rest`: before `rest` the text `s` has only white space and comments, and neither starts at `rest`.
`f` tells whether there is a line terminator in the white space directly before `rest` or in the last comment; `p` is the answer
for the text before `s`. -/
inductive TriviaAt : Bool → List Nat → Bool → List Nat → Prop
  | nil {p rest} : (∀ c t, rest = c :: t → ¬Span.White c) →
      (∀ t, rest ≠ '/'.toNat :: '/'.toNat :: t ∧ rest ≠ '/'.toNat :: '*'.toNat :: t) → TriviaAt p rest p rest
  | ws {p p' c t f rest} : Span.White c → (p' = true ↔ p = true ∨ LineTerm c) → TriviaAt p' t f rest →
      TriviaAt p (c :: t) f rest
  /-- a `//` comment ends before the first line terminator or with the source -/
  | line {p body t f rest} : (∀ c ∈ body, ¬LineTerm c) → (∀ c u, t = c :: u → LineTerm c) → TriviaAt false t f rest →
      TriviaAt p ('/'.toNat :: '/'.toNat :: (body ++ t)) f rest
  /-- the other kind ends with its first star and slash -/
  | block {p m s body t f rest} : BlockBody s body t → (m = true ↔ ∃ c ∈ body, LineTerm c) → TriviaAt m t f rest →
      TriviaAt p ('/'.toNat :: '*'.toNat :: s) f rest

/-- `StrLit super tpl q s vs oct rest`: after an opening quote `q` the text `s` has a string with the code points `vs`; `rest`
follows the closing quote.  `oct`: there is a legacy octal escape.  With `tpl` no escape may start with an octal digit. -/
inductive StrLit (super tpl : Bool) (q : Nat) : List Nat → List Nat → Bool → List Nat → Prop
  | close (rest) : StrLit super tpl q (q :: rest) [] false rest
  | char {c s vs oct rest} : c ≠ q → c ≠ '\\'.toNat → ¬StrTerm super c → StrLit super tpl q s vs oct rest →
      StrLit super tpl q (c :: s) (c :: vs) oct rest
  | cont {s t vs oct rest} : LineTermSeq s t → StrLit super tpl q t vs oct rest →
      StrLit super tpl q ('\\'.toNat :: s) vs oct rest
  | esc {s t v vs o oct rest} : EscapeAt s v t → (tpl = true → ∀ c w u, s = c :: u → ¬OctDigit c w) →
      (o = true ↔ LegacyOctal s) → StrLit super tpl q t vs oct rest →
      StrLit super tpl q ('\\'.toNat :: s) (v :: vs) (o || oct) rest

/-- `Lexeme C a tok txt rest`: `txt`, followed by `rest`, is a token `tok`. -/
inductive Lexeme (C : ScanCfg) (a : Ask) : Tok → List Nat → List Nat → Prop
  /-- the end of the source -/
  | eof : Lexeme C a .eof [] []
  /-- a name or keyword, after which no part of a name follows -/
  | name {txt rest n e} : NameAt C.tables false txt n e →
      (∀ d, rest.head? = some d → isIdStart C.tables d = false ∧ isIdPart C.tables d = false) →
      classify ⟨C.module, C.asyncAwait, a.strict, a.async⟩ n e ≠ .escapeInKeyword →
      Lexeme C a (.name (classify ⟨C.module, C.asyncAwait, a.strict, a.async⟩ n e) n e) txt rest
  /-- `#` and a name -/
  | pvt {txt rest n e} : NameAt C.tables false txt n e →
      (∀ d, rest.head? = some d → isIdStart C.tables d = false ∧ isIdPart C.tables d = false) →
      classify ⟨C.module, C.asyncAwait, a.strict, a.async⟩ n e = .name → C.prv = true →
      Lexeme C a (.pvt n e) ('#'.toNat :: txt) rest
  /-- `#` and another word; these are errors of the parser -/
  | pvtWord {txt rest n e k} : NameAt C.tables false txt n e →
      (∀ d, rest.head? = some d → isIdStart C.tables d = false ∧ isIdPart C.tables d = false) →
      classify ⟨C.module, C.asyncAwait, a.strict, a.async⟩ n e = k → k ≠ .name → k ≠ .escapeInKeyword →
      Lexeme C a (.pvtWord k n e) ('#'.toNat :: txt) rest
  /-- a number, after which neither a name nor a further part of it follows -/
  | num {k txt rest} : NumLit (C.sep = true) (C.bigint = true) (a.strict = false) k txt →
      (∀ d t, txt ≠ d :: '_'.toNat :: t) →
      (∀ c, rest.head? = some c → isIdStart C.tables c = false ∧ ¬Continues k c) → Lexeme C a .num txt rest
  /-- a string; when it has no code points the token has the text between the quotes -/
  | str {q body rest vs oct v} : q = '"'.toNat ∨ q = '\''.toNat →
      StrLit C.super a.template q (body ++ q :: rest) vs oct rest →
      (vs ≠ [] → v = vs.map appendRune) → (vs = [] → v = body) → Lexeme C a (.str v oct) (q :: body ++ [q]) rest
  /-- a part of a template -/
  | tpl {head fin txt rest vs} : (head = false → a.template = true) →
      TplAt false (txt ++ rest) vs fin rest → 0xFFFD ∉ vs →
      Lexeme C a (.tpl head fin (vs.map appendRune) none) ((if head then '`'.toNat else '}'.toNat) :: txt) rest
  /-- a part of a template with an illegal escape, a tag may accept it -/
  | tplBad {head fin body rest v e} : (head = false → a.template = true) →
      Lexeme C a (.tpl head fin v (some e)) ((if head then '`'.toNat else '}'.toNat) :: (body ++
        (if fin then ['`'.toNat] else ['$'.toNat, '{'.toNat]))) rest
  /-- a punctuator, the longest one possible -/
  | punct {p rest} : Longest { C.punct with regexpAhead := a.regexp } p (p.text ++ rest) rest → Enabled C.punct p →
      (p = .braceR → a.template = false) →
      (p = .dot → ∀ c, rest.head? = some c → ¬Dec c) → Lexeme C a (.punct p) p.text rest
  /-- a regular expression, where one may stand: its pattern and flags.  No part of a name follows, but the code takes a
  backslash directly after the slash for none. -/
  | regexp {p fl fs e rest} : a.regexp = true → RegexpBody true 0 p → Part C.tables false fl fs e →
      fl.head? ≠ some '\\'.toNat →
      (∀ d, rest.head? = some d → (fl = [] ∧ d = '\\'.toNat) ∨ (isIdStart C.tables d = false ∧ isIdPart C.tables d = false)) →
      (C.regexp.check = true → ∀ f ∈ fs, LegalFlag C.regexp f) →
      Lexeme C a (.regexp p fs) ('/'.toNat :: (p ++ '/'.toNat :: fl)) rest

/-- The source is cut into white space with comments and tokens, alternatingly; beside each token, whether it counts as standing on a
new line. -/
inductive Tiles (C : ScanCfg) : List Ask → List (Tok × Bool) → List Nat → List Nat → Prop
  | nil {s} : Tiles C [] [] s s
  | cons {a as tok nl toks txt s s' rest} : TriviaAt false s nl (txt ++ s') → Lexeme C a tok txt s' → Tiles C as toks s' rest →
      Tiles C (a :: as) ((tok, nl) :: toks) s rest

end Mole.Lexer
