import Verif.Lexer.Escape
/-!
# Model of comments and of the trivia between tokens
(ecma/parser/lexer.go:316-332, 408-429, 918-922, 950-982; span/source.go:204-217)
-/
namespace Mole.Lexer

/-- span/source.go:204-217 `SkipSpace` on code points: whether a line terminator was met, and
the text left (`skipSpace_runes` connects it with the byte-level model). -/
def skipSpaceR : List Nat → Bool × List Nat
  | [] => (false, [])
  | c :: t =>
    if Span.isSpace c then
      let (b, r) := skipSpaceR t
      (isLT c || b, r)
    else (false, c :: t)

/-- lexer.go:953-965: the loop of `readMultilineComment`: whether a line terminator was met and
the text left; `error` is the unterminated comment.  The outer `none`: out of fuel. -/
def blockLoop : Nat → Bool → List Nat → Option (Except Err (Bool × List Nat))
  | 0, _, _ => none
  | fuel + 1, multi, s =>
    match rd s with
    | (none, _) => some (.error .unterminatedComment)
    | (some c, t) =>
      if c = 42 then
        if t.head? = some 47 then some (.ok (multi, (rd t).2)) else blockLoop fuel multi t
      else if isLT c then blockLoop fuel true t
      else blockLoop fuel multi t

/-- lexer.go:950-969 `readMultilineComment`, standing on the `*`. -/
def readMultilineComment (s : List Nat) : Option (Except Err (Bool × List Nat)) :=
  let t := (rd s).2
  blockLoop (t.length + 1) false t

/-- lexer.go:973-979: the loop of `readSinglelineComment`. -/
def lineLoopR : List Nat → List Nat
  | [] => []
  | c :: t => if isLT c then c :: t else lineLoopR t

/-- lexer.go:971-982 `readSinglelineComment`, standing on the second `/`. -/
def readSinglelineComment (s : List Nat) : List Nat := lineLoopR (rd s).2

/-- lexer.go:408-429 `lexTok` as far as comments are concerned: white space and comments are
skipped; the result is `afterLineTerm` of the token that follows (or of EOF) and the text at
which it starts.  `prt` is `prt == T_COMMENT && prtExt == true`.  Outside JSX modes a `/`
followed by `/` or `*` is always a comment (readSymbol, lines 918-922).  Outer `none`: out of
fuel. -/
def lexTrivia : Nat → Bool → List Nat → Option (Except Err (Bool × List Nat))
  | 0, _, _ => none
  | fuel + 1, prt, s =>
    match skipSpaceR s with
    | (atm, s1) =>
      match s1 with
      | c :: d :: t =>
        if c = 47 ∧ d = 47 then lexTrivia fuel false (readSinglelineComment (d :: t))
        else if c = 47 ∧ d = 42 then
          match readMultilineComment (d :: t) with
          | none => none
          | some (.error e) => some (.error e)
          | some (.ok (multi, s2)) => lexTrivia fuel multi s2
        else some (.ok (atm || prt, s1))
      | _ => some (.ok (atm || prt, s1))

end Mole.Lexer
