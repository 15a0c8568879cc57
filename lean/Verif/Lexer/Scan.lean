import Verif.Lexer.Str
import Verif.Lexer.Num
import Verif.Lexer.Name
import Verif.Lexer.Comment
import Verif.Lexer.Punct
import Verif.Lexer.Regexp

/-!
# Model of reading one token

ecma/parser/lexer.go: `readTokWithComment` 330-352 (outside of JSX), `lexTok` 408-429, `readTplSpan` 475-523,
`readNamePvt` 1283-1300, `readRegexp` 989-1079, and the calls that put a token together.
-/
namespace Mole.Lexer

/-- The options of the lexer that do not change while it reads. -/
structure ScanCfg where
  tables : IdTables
  /-- `FEAT_NUM_SEP`, `FEAT_BIGINT` -/
  sep : Bool
  bigint : Bool
  /-- the features of punctuators; its `regexpAhead` is not used -/
  punct : PunctCfg
  regexp : RegexpCfg
  /-- `FEAT_MODULE`, `FEAT_ASYNC_AWAIT` -/
  module : Bool
  asyncAwait : Bool
  /-- `FEAT_JSON_SUPER_SET` -/
  super : Bool
  /-- `FEAT_CLASS_PRV` -/
  prv : Bool

/-- What a call depends on besides the text: the current mode (lexer.go:298-314) and `aheadIsRegexp`
(lexer.go:657-679). -/
structure Ask where
  template : Bool
  strict : Bool
  async : Bool
  regexp : Bool
  deriving DecidableEq, Repr

/-- A token: its value and the text the parser gets. -/
inductive Tok where
  | eof
  /-- names and keywords -/
  | name (kind : NameTok) (text : List Nat) (escaped : Bool)
  | pvt (text : List Nat) (escaped : Bool)
  /-- `#` before a word that is no name -/
  | pvtWord (kind : NameTok) (text : List Nat) (escaped : Bool)
  | num
  | str (text : List Nat) (octal : Bool)
  /-- a span of a template: `head` after the backquote, `fin` before one -/
  | tpl (head fin : Bool) (text : List Nat) (illegalEscape : Option Err)
  | punct (p : Punct)
  | regexp (pattern flags : List Nat)
  deriving DecidableEq, Repr

/-- lexer.go:594-655 `readName(false)`. -/
def readName (C : ScanCfg) (a : Ask) (s : List Nat) : Option (Except Err (NameTok × List Nat × Bool × List Nat)) :=
  match scanName C.tables false s with
  | none => none
  | some (.error e) => some (.error e)
  | some (.ok (n, esc, rest)) =>
    match classify ⟨C.module, C.asyncAwait, a.strict, a.async⟩ n esc with
    | .escapeInKeyword => some (.error .escapeInKeyword)
    | k => some (.ok (k, n, esc, rest))

/-- lexer.go:334-352: the scanner for a token that begins with `c`; all of `s` is left. -/
def readTok (C : ScanCfg) (a : Ask) (s : List Nat) : Option (Except Err (Tok × List Nat)) :=
  match s with
  | [] => some (.ok (.eof, []))
  | c :: t =>
    if isIdStart C.tables c then
      match readName C a s with
      | none => none
      | some (.error e) => some (.error e)
      | some (.ok (k, n, esc, rest)) => some (.ok (.name k n esc, rest))
    else if aheadIsNumStart s then
      match readNum C.tables ⟨C.sep, C.bigint, a.strict⟩ s with
      | .error e => some (.error e)
      | .ok rest => some (.ok (.num, rest))
    else if c = 39 ∨ c = 34 then
      match readStr C.super a.template c t with
      | none => none
      | some (.err e) => some (.error e)
      | some (.ok buf raw octal rest) => some (.ok (.str (strText buf raw) octal, rest))
    else if c = 96 ∨ (a.template = true ∧ c = 125) then
      match tplLoop (t.length + 1) [] none t with
      | none => none
      | some r => match r.err with
        | some e => some (.error e)
        | none => some (.ok (.tpl (c == 96) r.fin r.text r.errEscape, r.rest))
    else if c = 35 then
      if onRune (isIdStart C.tables) t.head? then
        match readName C a t with
        | none => none
        | some (.error e) => some (.error e)
        | some (.ok (k, n, esc, rest)) =>
          match classifyPvt C.prv k with
          | none => some (.error .unexpectedChar)
          | some (.inr ()) => some (.ok (.pvt n esc, rest))
          | some (.inl k) => some (.ok (.pvtWord k n esc, rest))
      else some (.error .unexpectedChar)
    else
      match readSymbol { C.punct with regexpAhead := a.regexp } s with
      | .punct p rest => some (.ok (.punct p, rest))
      | .illegal => some (.error .unexpectedChar)
      | .slash => match readRegexp C.tables C.regexp t with
        | none => none
        | some (.error e) => some (.error e)
        | some (.ok (p, fs, rest)) => some (.ok (.regexp p fs, rest))

/-- lexer.go:408-429 `lexTok`: the next token, whether it counts as standing on a new line, and the text left.
`none`: the call does not end. -/
def lexTok (C : ScanCfg) (a : Ask) (s : List Nat) : Option (Except Err (Tok × Bool × List Nat)) :=
  match lexTrivia (s.length + 1) false s with
  | none => none
  | some (.error e) => some (.error e)
  | some (.ok (nl, s1)) => match readTok C a s1 with
    | none => none
    | some (.error e) => some (.error e)
    | some (.ok (tok, rest)) => some (.ok (tok, nl, rest))

/-- The parser's calls, one after the other: the tokens and the text left. -/
def lexAll (C : ScanCfg) : List Ask → List Nat → Option (Except Err (List (Tok × Bool) × List Nat))
  | [], s => some (.ok ([], s))
  | a :: as, s => match lexTok C a s with
    | none => none
    | some (.error e) => some (.error e)
    | some (.ok (tok, nl, rest)) => match lexAll C as rest with
      | none => none
      | some (.error e) => some (.error e)
      | some (.ok (toks, rest')) => some (.ok ((tok, nl) :: toks, rest'))

end Mole.Lexer
