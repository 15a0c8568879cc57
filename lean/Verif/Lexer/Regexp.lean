import Verif.Lexer.Name
/-!
# Model of the regular-expression scanner (ecma/parser/lexer.go:989-1095)
-/
namespace Mole.Lexer

/-- lexer.go:1020-1046: what one ordinary character `c` (no line terminator, no backslash) does
to the list of open brackets and to the flag `rng`.  An error, the end of the body (`none`), or
the new list and flag.  (The error token built at 1041 for a `)` that does not match is dropped
by the code.) -/
def regexpStep (c : Nat) (couples : List Nat) (rng : Bool) (rngLen : Nat) :
    Except Err (Option (List Nat × Bool)) :=
  if (c == 40 || c == 91) && !rng then .ok (some (c :: couples, c == 91))
  else if (c == 41 && !rng) || (c == 93 && decide (rngLen > 0)) then
    match couples with
    | [] => if c == 41 then .error .unterminatedRegexp else .ok (some ([], rng))
    | lhs :: cs =>
      if (c == 41 && lhs == 40) || (c == 93 && lhs == 91) then
        .ok (some (cs, if c == 93 then false else rng))
      else .ok (some (lhs :: cs, rng))
  else if c == 47 && couples.isEmpty then .ok none
  else .ok (some (couples, rng))

/-- lexer.go:992-1052: the loop over the body.  The result is the text left, standing on the
closing slash. -/
def regexpLoop : Nat → List Nat → Bool → Nat → List Nat → Option (Except Err (List Nat))
  | 0, _, _, _, _ => none
  | _ + 1, _, _, _, [] => some (.error .unterminatedRegexp)
  | fuel + 1, couples, rng, rngLen, c :: t =>
    if c = RE then some (.error .unexpectedChar)
    else if isLT c then some (.error .unterminatedRegexp)
    else if c = 92 then
      if t.head? = some 117 then
        match readUnicodeEscapeSeq (fun _ => true) false t.tail with
        | (_, some e, _) => some (.error e)
        | (_, none, rest) => regexpLoop fuel couples rng rngLen rest
      else if onRune isLT t.head? then regexpLoop fuel couples rng rngLen t
      else regexpLoop fuel couples rng rngLen (rd t).2
    else
      match regexpStep c couples rng rngLen with
      | .error e => some (.error e)
      | .ok none => some (.ok (c :: t))
      | .ok (some (couples', rng')) =>
        regexpLoop fuel couples' rng' (if rng' then rngLen + 1 else rngLen) t

/-- `FEAT_CHK_REGEXP_FLAGS` and the features that enable single flags. -/
structure RegexpCfg where
  check : Bool
  hasIndices : Bool
  unicode : Bool
  sticky : Bool
  dotAll : Bool

/-- lexer.go:1081-1095 `isLegalFlag`. -/
def isLegalFlag (F : RegexpCfg) (f : Nat) : Bool :=
  if f = 103 ∨ f = 105 ∨ f = 109 then true
  else if f = 100 then F.hasIndices
  else if f = 117 then F.unicode
  else if f = 121 then F.sticky
  else if f = 115 then F.dotAll
  else false

/-- lexer.go:1731-1734 `aheadIsIdPart(false)`. -/
def aheadIsIdPart (T : IdTables) (s : List Nat) : Bool :=
  onRune (fun c => isIdStart T c && c != 92 || isIdPart T c) s.head?

/-- lexer.go:1056-1073: the flags.  The code checks the bytes of the UTF-8 form; the model checks
code points, which is the same because no byte of a non-ASCII character is a legal flag. -/
def regexpFlags (T : IdTables) (F : RegexpCfg) (s : List Nat) :
    Option (Except Err (List Nat × List Nat)) :=
  if aheadIsIdPart T s then
    match readIdPart T false (s.length + 1) s with
    | none => none
    | some (.error e) => some (.error e)
    | some (.ok (fs, _, rest)) =>
      if F.check && !fs.all (isLegalFlag F) then some (.error .invalidRegexpFlag)
      else some (.ok (fs, rest))
  else some (.ok ([], s))

/-- lexer.go:989-1079 `readRegexp`, after the opening slash: the pattern, the flags, the text
left. -/
def readRegexp (T : IdTables) (F : RegexpCfg) (s : List Nat) :
    Option (Except Err (List Nat × List Nat × List Nat)) :=
  match regexpLoop (s.length + 1) [] false 0 s with
  | none => none
  | some (.error e) => some (.error e)
  | some (.ok r) =>
    match regexpFlags T F r.tail with
    | none => none
    | some (.error e) => some (.error e)
    | some (.ok (fs, rest)) => some (.ok (s.take (s.length - r.length), fs, rest))

end Mole.Lexer
