import Verif.Lexer.Ident
/-!
# Model of the name scanner (ecma/parser/lexer.go:594-655, 1283-1300, 1571-1612)
-/
namespace Mole.Lexer

/-- A string as code points. -/
def str (s : String) : List Nat := s.toList.map Char.toNat

/-- lexer.go:1660 `IsIdStart(rr) || IsIdPart(rr)`. -/
def idChar (T : IdTables) (c : Nat) : Bool := isIdStart T c || isIdPart T c

/-- lexer.go:1600-1612 `readUnicodeEscape(c, true)`: `c` has been read.  The character, whether
it was an escape, and the text left. -/
def readUnicodeEscape (T : IdTables) (c : Nat) (s : List Nat) : Except Err (Nat × Bool × List Nat) :=
  if c = 92 then
    if s.head? = some 117 then
      match readUnicodeEscapeSeq (idChar T) true s.tail with
      | (_, some e, _) => .error e
      | (r, none, rest) => .ok (r, true, rest)
    else .error .expectingUnicodeEscape
  else .ok (c, false, s)

/-- lexer.go:1576-1598 `readIdPart`: the characters (as `utf8.AppendRune` writes them), whether
there was an escape, and the text left.  A character that satisfies the tests is no carriage
return, so `Read` drops one code point. -/
def readIdPart (T : IdTables) (jsx : Bool) :
    Nat → List Nat → Option (Except Err (List Nat × Bool × List Nat))
  | 0, _ => none
  | _ + 1, [] => some (.ok ([], false, []))
  | fuel + 1, c :: t =>
    if isIdStart T c || isIdPart T c || (jsx && c == 45) then
      match readUnicodeEscape T c t with
      | .error e => some (.error e)
      | .ok (r, esc, rest) =>
        if r = 92 then some (.error .expectingUnicodeEscape)
        else
          match readIdPart T jsx fuel rest with
          | none => none
          | some (.error e) => some (.error e)
          | some (.ok (rs, esc', rest')) => some (.ok (appendRune r :: rs, esc || esc', rest'))
    else some (.ok ([], false, c :: t))

/-- lexer.go:594-628: the first part of `readName`.  Called with an identifier start ahead. -/
def scanName (T : IdTables) (jsx : Bool) (s : List Nat) :
    Option (Except Err (List Nat × Bool × List Nat)) :=
  match s with
  | [] => some (.error .unexpectedChar)
  | c :: t =>
    match readUnicodeEscape T c t with
    | .error e => some (.error e)
    | .ok (r, esc, rest) =>
      if r = RE then some (.error .unexpectedChar)
      else
        match readIdPart T jsx (rest.length + 1) rest with
        | none => none
        | some (.error e) => some (.error e)
        | some (.ok (rs, esc', rest')) => some (.ok (appendRune r :: rs, esc || esc', rest'))

/-- token.go:522-534: `Keywords`. -/
def keywords : List (List Nat) :=
  ["break", "case", "catch", "class", "continue", "debugger", "default", "do", "else", "enum",
    "export", "extends", "finally", "for", "function", "if", "import", "new", "return", "super",
    "switch", "this", "throw", "try", "var", "while", "with",
    "void", "null", "true", "false", "typeof", "delete", "instanceof"].map str

/-- token.go:539-541: `StrictKeywords`. -/
def strictKeywords : List (List Nat) :=
  ["let", "const", "static", "implements", "interface", "package", "private", "protected",
    "public", "yield"].map str

/-- `FEAT_MODULE`, `FEAT_ASYNC_AWAIT`, `LM_STRICT`, `LM_ASYNC`. -/
structure NameCfg where
  module : Bool
  asyncAwait : Bool
  strict : Bool
  async : Bool

/-- The kind of token a name becomes. -/
inductive NameTok where
  | keyword | strictKeyword | await | name | escapeInKeyword
  deriving DecidableEq, Repr

/-- lexer.go:630-654: the second part of `readName`. -/
def classify (F : NameCfg) (name : List Nat) (esc : Bool) : NameTok :=
  if keywords.contains name then
    if esc then .escapeInKeyword else .keyword
  else if F.strict && strictKeywords.contains name then .strictKeyword
  else if name == str "await" && (F.module || (F.asyncAwait && F.async)) then
    if esc then .escapeInKeyword else .await
  else .name

/-- What `readNamePvt` (lexer.go:1283-1300) makes of the token `readName` returned; `prv` is
`FEAT_CLASS_PRV`. `none` is an illegal token. -/
def classifyPvt (prv : Bool) (t : NameTok) : Option (NameTok ⊕ Unit) :=
  match t with
  | .escapeInKeyword => none
  | .name => if prv then some (.inr ()) else none
  | t => some (.inl t)

end Mole.Lexer
