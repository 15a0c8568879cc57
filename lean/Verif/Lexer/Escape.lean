import Verif.Lexer.Runes
/-!
# Model of the escape-sequence scanner (ecma/parser/lexer.go:1194-1281, 1614-1667)
-/
namespace Mole.Lexer

/-- The error messages the scanners produce (ecma/parser/error.go), by name. -/
inductive Err where
  | badEscapeSeq | codepointOutOfBounds | invalidUnicodeEscape | expectingUnicodeEscape
  | tplLegacyOctal | unterminatedStr | unterminatedTpl | badRune
  | unterminatedComment | unterminatedRegexp | invalidRegexpFlag | unexpectedChar
  | identAfterNumber | invalidNumber | numSepBegin | numSepDup | numSepEnd | numSepInLegacyOctal
  | legacyOctalInStrict | expectNumRadix | escapeInKeyword | unexpectedToken
  | jsxUndefinedEntity
  deriving DecidableEq, Repr

/-- lexer.go:1829-1831 `IsOctalDigit`. -/
def isOctalDigit (c : Nat) : Bool := 48 ≤ c && c ≤ 55

/-- lexer.go:1833-1835 `IsHexDigit`. -/
def isHexDigit (c : Nat) : Bool :=
  (48 ≤ c && c ≤ 57) || (65 ≤ c && c ≤ 70) || (97 ≤ c && c ≤ 102)

/-- lexer.go:1837-1839 `IsDecimalDigit`. -/
def isDecimalDigit (c : Nat) : Bool := 48 ≤ c && c ≤ 57

/-- A predicate on a rune that may be EOF (-1, hence in none of the ranges). -/
def onRune (f : Nat → Bool) : Option Nat → Bool
  | none => false
  | some c => f c

/-- Digit value as in Go's `strconv` (letters of either case). -/
def digitVal (c : Nat) : Nat :=
  if c ≤ 57 then c - 48 else if c ≤ 70 then c - 55 else c - 87

/-- Go `strconv.ParseInt(s, base, 32)` on a string of digits of the base: the value and
whether there was an error; empty input is an error with value 0, and an overflow one with
value `2^31 - 1`. -/
def parseInt32 (base : Nat) (ds : List Nat) : Nat × Bool :=
  if ds = [] then (0, true)
  else
    let v := ds.foldl (fun a d => a * base + digitVal d) 0
    if v < 2 ^ 31 then (v, false) else (2 ^ 31 - 1, true)

/-- What an escape scanner returns: the rune (`none` is EOF), the error, the legacy-octal
flag, and the text left. -/
structure EscRes where
  r : Option Nat
  err : Option Err
  octal : Bool
  rest : List Nat
  deriving DecidableEq, Repr

/-- Go `utf8.RuneError`. -/
def RE : Nat := 0xFFFD

/-- lexer.go:1236-1260 `readOctalEscapeSeq`, after the template check: reads on up to `n` more
octal digits. -/
def octalDigits : Nat → List Nat → List Nat × List Nat
  | 0, s => ([], s)
  | _ + 1, [] => ([], [])
  | n + 1, c :: t =>
    if isOctalDigit c then
      let (ds, rest) := octalDigits n t
      (c :: ds, rest)
    else ([], c :: t)

/-- lexer.go:1236-1260 `readOctalEscapeSeq`; `tpl` is `IsMode(LM_TEMPLATE)`.  Returns rune,
error, number of digits, text left.  (`ParseInt` cannot fail on at most three octal digits;
the model keeps the branch.) -/
def readOctalEscapeSeq (tpl : Bool) (first : Nat) (s : List Nat) :
    Nat × Option Err × Nat × List Nat :=
  let zeroToThree : Bool := 48 ≤ first && first ≤ 51
  if tpl then (RE, some .tplLegacyOctal, 0, s)
  else
    let (ds, rest) := octalDigits (if zeroToThree then 2 else 1) s
    let (v, e) := parseInt32 8 (first :: ds)
    if e then (RE, none, ds.length + 1, rest) else (v, none, ds.length + 1, rest)

/-- lexer.go:1262-1274 `readHexEscapeSeq`. -/
def readHexEscapeSeq (s : List Nat) : Nat × Option Err × List Nat :=
  let (h0, s1) := rd s
  let (h1, s2) := rd s1
  match h0, h1 with
  | some a, some b =>
    if !isHexDigit a || !isHexDigit b then (RE, some .badEscapeSeq, s2)
    else
      let (v, e) := parseInt32 16 [a, b]
      if e then (RE, some .badEscapeSeq, s2) else (v, none, s2)
  | _, _ => (RE, some .badEscapeSeq, s2)

/-- lexer.go:1624-1644: the loop of `readCodepoint` and its end; `hex` are the digits read. -/
def codepointLoop (hex : List Nat) : List Nat → Nat × Option Err × List Nat
  | [] => (RE, some .badEscapeSeq, [])
  | c :: t =>
    if c = 125 then
      let (v, e) := parseInt32 16 hex
      if v > 0x10FFFF then (RE, some .codepointOutOfBounds, t)
      else if e then (RE, some .badEscapeSeq, t)
      else (v, none, t)
    else if c = RE || !isHexDigit c then (RE, some .badEscapeSeq, c :: t)
    else codepointLoop (hex ++ [c]) t

/-- lexer.go:1621-1645 `readCodepoint`: consumes the `{` it stands on. -/
def readCodepoint (s : List Nat) : Nat × Option Err × List Nat := codepointLoop [] (rd s).2

/-- lexer.go:1649-1655: the loop of `readHex4Digits`. -/
def hex4Loop : Nat → List Nat → Option (List Nat) × List Nat
  | 0, s => (some [], s)
  | _ + 1, [] => (none, [])
  | n + 1, c :: t =>
    if c = RE || !isHexDigit c then (none, c :: t)
    else
      match hex4Loop n t with
      | (none, rest) => (none, rest)
      | (some ds, rest) => (some (c :: ds), rest)

/-- lexer.go:1647-1667 `readHex4Digits`; `idChar` is `IsIdStart(c) || IsIdPart(c)`. -/
def readHex4Digits (idChar : Nat → Bool) (id : Bool) (s : List Nat) :
    Nat × Option Err × List Nat :=
  match hex4Loop 4 s with
  | (none, rest) => (RE, some .badEscapeSeq, rest)
  | (some ds, rest) =>
    let (v, e) := parseInt32 16 ds
    if e then (RE, some .badEscapeSeq, rest)
    else if id && (!idChar v || v == 92) then (RE, some .invalidUnicodeEscape, rest)
    else (v, none, rest)

/-- lexer.go:1614-1619 `readUnicodeEscapeSeq`. -/
def readUnicodeEscapeSeq (idChar : Nat → Bool) (id : Bool) (s : List Nat) :
    Nat × Option Err × List Nat :=
  if s.head? = some 123 then readCodepoint s else readHex4Digits idChar id s

/-- lexer.go:1194-1233 `readEscapeSeq`; it calls the Unicode scanner with `id = false`, so the
identifier tables do not matter. -/
def readEscapeSeq (tpl : Bool) (s : List Nat) : EscRes :=
  match rd s with
  | (none, t) => ⟨none, none, false, t⟩
  | (some c, t) =>
    if c = 98 then ⟨some 8, none, false, t⟩
    else if c = 102 then ⟨some 12, none, false, t⟩
    else if c = 110 then ⟨some 10, none, false, t⟩
    else if c = 114 then ⟨some 13, none, false, t⟩
    else if c = 116 then ⟨some 9, none, false, t⟩
    else if c = 118 then ⟨some 11, none, false, t⟩
    else if isOctalDigit c then
      match readOctalEscapeSeq tpl c t with
      | (r, e, i, rest) => ⟨some r, e, r != 0 || i != 1, rest⟩
    else if c = 120 then
      match readHexEscapeSeq t with
      | (r, e, rest) => ⟨some r, e, false, rest⟩
    else if c = 117 then
      match readUnicodeEscapeSeq (fun _ => true) false t with
      | (r, e, rest) => ⟨some r, e, false, rest⟩
    else ⟨some c, none, false, t⟩

/-- Go `utf8.AppendRune` seen as code points: surrogates and values above U+10FFFF are written
as U+FFFD. -/
def appendRune (r : Nat) : Nat :=
  if (0xD800 ≤ r && r ≤ 0xDFFF) || r > 0x10FFFF then RE else r

end Mole.Lexer
