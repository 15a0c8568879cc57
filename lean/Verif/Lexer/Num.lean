import Verif.Lexer.Ident
/-!
# Model of the numeric-literal scanners (ecma/parser/lexer.go:1303-1564)

None of these functions ever reads a carriage return, so `Read` drops one code point.  A
scanner returns the text left, or the message of the illegal token.
-/
namespace Mole.Lexer

/-- What the scanners look at: `FEAT_NUM_SEP`, `FEAT_BIGINT`, `LM_STRICT`. -/
structure NumCfg where
  sep : Bool
  bigint : Bool
  strict : Bool

abbrev NumRes := Except Err (List Nat)

/-- The digit loops of lexer.go:1402-1421, 1438-1462, 1484-1507, 1529-1549: read while a digit
or `_`; `onSep i last` is the error reported at a `_`, if any, after `i` characters the last of
which is `last`.  Result: how many characters were read, the last, and the text left.
Simplification: binary's test for an identifier start on leaving the loop is made after it. -/
def digitLoop (isD : Nat → Bool) (onSep : Nat → Option Nat → Option Err) :
    Nat → Option Nat → List Nat → Except Err (Nat × Option Nat × List Nat)
  | i, last, [] => .ok (i, last, [])
  | i, last, c :: t =>
    if isD c || c == 95 then
      if c = 95 then
        match onSep i last with
        | some e => .error e
        | none => digitLoop isD onSep (i + 1) (some c) t
      else digitLoop isD onSep (i + 1) (some c) t
    else .ok (i, last, c :: t)

/-- lexer.go:1407-1416, what `readDecimalDigits` does at a `_`. -/
def decSep (F : NumCfg) (i : Nat) (last : Option Nat) : Option Err :=
  if F.sep = false then some .invalidNumber
  else if i = 0 then some .numSepBegin
  else if last = some 95 then some .numSepDup else none

/-- lexer.go:1398-1432 `readDecimalDigits`. -/
def readDecimalDigits (T : IdTables) (F : NumCfg) (opt : Bool) (s : List Nat) : NumRes :=
  match digitLoop isDecimalDigit (decSep F) 0 none s with
  | .error e => .error e
  | .ok (i, last, rest) =>
    if last = some 95 then .error .numSepEnd
    else if i = 0 ∧ opt = false then
      if onRune (isIdStart T) rest.head? then .error .identAfterNumber else .error .invalidNumber
    else .ok rest

/-- lexer.go:1381-1388 `bigintSuffix`: `none` is "an illegal token". -/
def bigintSuffix (F : NumCfg) (s : List Nat) : Option (List Nat) :=
  if s.head? = some 110 then (if F.bigint then some s.tail else none) else some s

/-- lexer.go:1368-1379: the end of `readDecimalNum`; `plain` is `first != '.' && !float && !exp`. -/
def numEnd (T : IdTables) (F : NumCfg) (plain : Bool) (s : List Nat) : NumRes :=
  match (if plain then bigintSuffix F s else some s) with
  | none => .error .identAfterNumber
  | some s => if onRune (isIdStart T) s.head? then .error .identAfterNumber else .ok s

/-- lexer.go:1390-1396 `readExpPart`, after the `e`. -/
def readExpPart (T : IdTables) (F : NumCfg) (s : List Nat) : NumRes :=
  if s.head? = some 43 ∨ s.head? = some 45 then readDecimalDigits T F false s.tail
  else readDecimalDigits T F false s

/-- lexer.go:1360-1366. -/
def numExp (T : IdTables) (F : NumCfg) (plain : Bool) (s : List Nat) : NumRes :=
  if s.head? = some 101 ∨ s.head? = some 69 then
    match readExpPart T F s.tail with
    | .error e => .error e
    | .ok s => numEnd T F false s
  else numEnd T F plain s

/-- lexer.go:1344-1358. -/
def numFrac (T : IdTables) (F : NumCfg) (first : Nat) (s : List Nat) : NumRes :=
  if first ≠ 46 ∧ s.head? = some 46 ∨ first = 46 then
    let float := s.head? == some 46
    match readDecimalDigits T F true (if float then s.tail else s) with
    | .error e => .error e
    | .ok s => numExp T F (first != 46 && !float) s
  else numExp T F (first != 46) s

/-- lexer.go:1331-1379 `readDecimalNum`. -/
def readDecimalNum (T : IdTables) (F : NumCfg) (first : Nat) (s : List Nat) : NumRes :=
  if first ≠ 46 ∧ first ≠ 48 then
    if s.head? ≠ some 101 ∧ s.head? ≠ some 69 ∧ s.head? ≠ some 110 ∧
        onRune (isIdStart T) s.head? = true then .error .identAfterNumber
    else
      match readDecimalDigits T F true s with
      | .error e => .error e
      | .ok s => numFrac T F first s
  else numFrac T F first s

/-- lexer.go:1441-1451 and 1532-1541, what the radix loops do at a `_`; 1487-1498 with
`legacy`. -/
def radixSep (F : NumCfg) (legacy : Bool) (i : Nat) (last : Option Nat) : Option Err :=
  if F.sep = false then some .identAfterNumber
  else if i = 0 then some .numSepBegin
  else if legacy then some .numSepInLegacyOctal
  else if last = some 95 then some .numSepDup else none

/-- lexer.go:1434-1478 `readBinaryNum`, from the `b`. -/
def readBinaryNum (T : IdTables) (F : NumCfg) (s : List Nat) : NumRes :=
  match digitLoop (fun c => c == 48 || c == 49) (radixSep F false) 0 none s.tail with
  | .error e => .error e
  | .ok (i, last, s) =>
    if onRune (isIdStart T) s.head? = true ∧ ¬ (s.head? = some 110 ∧ F.bigint = true) then
      .error .identAfterNumber
    else if last = some 95 then .error .numSepEnd
    else if i = 0 then .error .expectNumRadix
    else numEnd T F true s

/-- lexer.go:1480-1523 `readOctalNum`: `i` is 1 for a legacy octal literal; from the `o`, or
the first digit after the `0`. -/
def readOctalNum (T : IdTables) (F : NumCfg) (i : Nat) (s : List Nat) : NumRes :=
  let legacy := i == 1
  match digitLoop isOctalDigit (radixSep F legacy) i none s.tail with
  | .error e => .error e
  | .ok (i, last, s) =>
    if last = some 95 then .error .numSepEnd
    else if i = 0 then .error .expectNumRadix
    else numEnd T F (!legacy) s

/-- lexer.go:1525-1564 `readHexNum`, from the `x`. -/
def readHexNum (T : IdTables) (F : NumCfg) (s : List Nat) : NumRes :=
  match digitLoop isHexDigit (radixSep F false) 0 none s.tail with
  | .error e => .error e
  | .ok (i, last, s) =>
    if i = 0 then .error .expectNumRadix
    else if last = some 95 then .error .numSepBegin
    else numEnd T F true s

/-- lexer.go:1303-1329 `readNum`; the empty text is unreachable (`aheadIsNumStart`). -/
def readNum (T : IdTables) (F : NumCfg) : List Nat → NumRes
  | [] => .error .invalidNumber
  | c :: s =>
    let nc := s.head?
    if c = 48 then
      if nc = some 98 ∨ nc = some 66 then readBinaryNum T F s
      else if nc = some 111 ∨ nc = some 79 then readOctalNum T F 0 s
      else if nc = some 120 ∨ nc = some 88 then readHexNum T F s
      else if onRune isDecimalDigit nc then
        if onRune isOctalDigit nc then
          if F.strict then .error .legacyOctalInStrict else readOctalNum T F 1 s
        else .error .invalidNumber
      else readDecimalNum T F c s
    else readDecimalNum T F c s

/-- lexer.go:1737-1743 `aheadIsNumStart`. -/
def aheadIsNumStart (s : List Nat) : Bool :=
  onRune isDecimalDigit s.head? || (s.head? == some 46 && onRune isDecimalDigit (ahead2nd s))

end Mole.Lexer
