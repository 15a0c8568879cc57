import Verif.Lexer.Name

/-!
# Model of the checks on names that are bound

parser.go:3258-3324 (`prohibitedNames`, `isProhibitedName`, `identStrict`, `ident`), with the places that bind a name:
3190-3215 (variables), 3603-3627, 3672-3723 and 3755-3800 (patterns), 2900-2915 (`namesInPattern`), 1795-1840 (`catch`),
2545-2575 and 2760-2767 (names of functions), 2864-2873 (parameters), 1086-1097 (names of classes), 868-878, 955-1010
and 1039-1052 (imports).  The lexer's part is `Lexer.classify` (lexer.go:630-654).

Left out: parameters of arrow functions, which are expressions first (C30), and TypeScript.
-/
namespace Mole.Parser.Bind
open Lexer (str classify NameTok)

/-- Where a name is bound. -/
inductive Pos where
  /-- `var x`, `let x`, `const x`, also inside of a pattern -/
  | var
  /-- `var { x } = …` -/
  | varShort
  /-- `catch (x)` -/
  | catch_
  /-- `catch ({ x })` -/
  | catchShort
  /-- a parameter of a function or method -/
  | param
  /-- the name of a function -/
  | fn
  /-- the name of a class -/
  | cls
  /-- `import x from …` -/
  | importDefault
  /-- `import * as x from …`, `import { a as x } from …` -/
  | importAs
  /-- `import { x } from …` -/
  | importShort
  deriving DecidableEq, Repr

/-- What matters about the place.  For a parameter, `async` and `gen` are those of its function; for all others those
of the function around. -/
structure Place where
  pos : Pos
  /-- `let` or `const` -/
  lexical : Bool
  /-- the code is strict where the name is read: `LM_STRICT` and `SPK_STRICT` -/
  strict : Bool
  /-- the body of the function that is named, or has the parameter, begins with `"use strict"` -/
  useStrict : Bool
  /-- the function around is async: `SPK_ASYNC` -/
  async : Bool
  /-- the same of the scope `OuterFn` gives -/
  outerAsync : Bool
  /-- `LM_ASYNC` -/
  lexAsync : Bool
  /-- the function around is a generator -/
  gen : Bool
  /-- `FEAT_MODULE` -/
  module : Bool
  /-- `FEAT_ASYNC_AWAIT` -/
  asyncAwait : Bool
  /-- the function that is named is written as an expression, is async, is a generator -/
  expr : Bool
  ownAsync : Bool
  ownGen : Bool

/-- parser.go:3258-3269. -/
def prohibitedNames : List String :=
  ["yield", "implements", "interface", "let", "const", "package", "protected", "public", "static", "import"]

/-- parser.go:3272-3285 `isProhibitedName`, without `field`: `strict` and `async` are of the scope, `withStrict` and
`forceStrict` are put together with `strict` by the caller. -/
def isProhibited (strict lVal async : Bool) (name : String) : Bool :=
  (strict && prohibitedNames.contains name) || ((strict && lVal) && (name == "eval" || name == "arguments")) ||
  (async && name == "await")

/-- lexer.go:630-654, in the mode the name is read in; that of a class is strict (parser.go:1070). -/
def Place.tok (p : Place) (name : String) (esc : Bool) : NameTok :=
  classify ⟨p.module, p.asyncAwait, p.strict || p.pos == .cls, p.lexAsync⟩ (str name) esc

/-- token.go:38-45 `IsKw`. -/
def isKw : NameTok → Bool
  | .keyword | .strictKeyword | .await => true
  | .name | .escapeInKeyword => false

/-- parser.go:3287-3316 `identStrict`: `none` is an error, otherwise whether the node is marked as a keyword. -/
def ident (p : Place) (async force : Bool) (name : String) (esc : Bool) : Option Bool :=
  let t := p.tok name esc
  if t = .keyword ∨ t = .escapeInKeyword then none
  else if isProhibited (p.strict || force) false async name then none
  else if !p.strict && p.lexical && !esc && (name == "let" || name == "const") then none
  else some (isKw t)

/-- parser.go:3755-3800 `propName` on a name: as `ident`. -/
def propName (p : Place) (name : String) (esc : Bool) : Option Bool :=
  let t := p.tok name esc
  if t = .escapeInKeyword then none
  else if !p.strict && p.lexical && !esc && (name == "let" || name == "const") then none
  else some (isKw t || isProhibited p.strict false p.async name)

/-- Is the binding accepted? -/
def accepts (p : Place) (name : String) (esc : Bool) : Bool :=
  match p.pos with
  | .var => match ident p p.async false name esc with
    -- 3193 `collectNames`, which reports keywords, and 3201
    | some kw => !kw && !isProhibited p.strict true p.async name
    | none => false
  | .varShort => match propName p name esc with
    | some kw => !kw && !isProhibited p.strict true p.async name
    | none => false
  | .catch_ => match ident p p.async false name esc with
    -- 1822: the error of `collectNames` is dropped, and there are no names then
    | some kw => kw || !isProhibited p.strict true p.async name
    | none => false
  | .catchShort => match propName p name esc with
    | some kw => kw || !isProhibited p.strict true p.async name
    | none => false
  | .param => match ident p p.async false name esc with
    | some kw => !kw && !isProhibited (p.strict || p.useStrict) true p.async name
    | none => false
  | .fn =>
    -- 2541-2545: the scope asked is not the current one in code that is not strict
    let async := if p.strict then p.async else p.outerAsync
    match ident p async false name esc with
    -- 2763: strict as the scope asked, not as the body
    | some _ => !isProhibited ((p.strict || p.useStrict) && p.strict) true async name
    | none => false
  | .cls => (ident p p.async true name esc).isSome
  | .importDefault => p.tok name esc == .name && (ident p p.async false name esc).isSome
  | .importAs => (ident p p.async false name esc).isSome
  | .importShort =>
    -- 726-734 `identWithKw`, 1000-1006
    !isKw (p.tok name esc) && (ident p p.async false name esc).isSome

/-! ## The language

ECMA-262 12.7.2, 13.1.1, 14.3.1.1, 15.1.1, 15.7.1: which names may be bound. -/

/-- Reserved everywhere. -/
def reservedWords : List String :=
  ["break", "case", "catch", "class", "const", "continue", "debugger", "default", "delete", "do", "else", "enum",
    "export", "extends", "false", "finally", "for", "function", "if", "import", "in", "instanceof", "new", "null",
    "return", "super", "switch", "this", "throw", "true", "try", "typeof", "var", "void", "while", "with"]

/-- Not to be bound in strict code. -/
def strictWords : List String :=
  ["implements", "interface", "let", "package", "private", "protected", "public", "static", "yield", "eval", "arguments"]

/-- Is the code strict, for the name? Classes and modules always are, and a function is if its body says so. -/
def Place.isStrict (p : Place) : Bool :=
  match p.pos with
  | .param | .fn => p.strict || p.useStrict
  | .cls | .importDefault | .importAs | .importShort => true
  | _ => p.strict

/-- Does the name belong to a generator, or to an async function?  That of a function expression belongs to itself. -/
def Place.inGen (p : Place) : Bool := if p.pos = .fn ∧ p.expr = true then p.ownGen else p.gen
def Place.inAsync (p : Place) : Bool := if p.pos = .fn ∧ p.expr = true then p.ownAsync else p.async

/-- May the name be bound? -/
def Legal (p : Place) (name : String) : Prop :=
  name ∉ reservedWords ∧ (p.isStrict = true → name ∉ strictWords) ∧ (p.inGen = true → name ≠ "yield") ∧
  (p.inAsync = true ∨ p.module = true → name ≠ "await") ∧
  (p.lexical = true ∧ (p.pos = .var ∨ p.pos = .varShort) → name ≠ "let")

instance (p : Place) (name : String) : Decidable (Legal p name) := by unfold Legal; infer_instance

end Mole.Parser.Bind
