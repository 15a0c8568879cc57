import Verif.Lexer.Escape
/-!
# Model of the punctuator scanner (ecma/parser/lexer.go:706-948)

The calls of `PushMode`, `PopMode` and the parenthesis counter in the first cases do not affect
the token; the mode stack is modelled in `Verif.Lexer.Mode`.
-/
namespace Mole.Lexer

/-- The punctuators among the values of token.go:156-328. -/
inductive Punct where
  | braceL
  | braceR
  | parenL
  | parenR
  | bracketL
  | bracketR
  | semi
  | comma
  | colon
  | dot
  | dotTri
  | hook
  | optChain
  | nullish
  | assignNullish
  | add
  | inc
  | assignAdd
  | sub
  | dec
  | assignSub
  | assign
  | arrow
  | eq
  | eqS
  | lt
  | lte
  | lsh
  | assignLsh
  | gt
  | gte
  | rsh
  | rshU
  | assignRsh
  | assignRshU
  | mul
  | assignMul
  | pow
  | assignPow
  | bitOr
  | assignBitOr
  | «or»
  | assignOr
  | bitAnd
  | assignBitAnd
  | «and»
  | assignAnd
  | mod
  | assignMod
  | «not»
  | ne
  | neS
  | bitNot
  | bitXor
  | assignBitXor
  | div
  | assignDiv
  | «at»
  deriving DecidableEq, Repr

/-- Their names in token.go:348-516, as code points. -/
def Punct.text : Punct → List Nat
  | .braceL => [123]  -- {
  | .braceR => [125]  -- }
  | .parenL => [40]  -- (
  | .parenR => [41]  -- )
  | .bracketL => [91]  -- [
  | .bracketR => [93]  -- ]
  | .semi => [59]  -- ;
  | .comma => [44]  -- ,
  | .colon => [58]  -- :
  | .dot => [46]  -- .
  | .dotTri => [46, 46, 46]  -- ...
  | .hook => [63]  -- ?
  | .optChain => [63, 46]  -- ?.
  | .nullish => [63, 63]  -- ??
  | .assignNullish => [63, 63, 61]  -- ??=
  | .add => [43]  -- +
  | .inc => [43, 43]  -- ++
  | .assignAdd => [43, 61]  -- +=
  | .sub => [45]  -- -
  | .dec => [45, 45]  -- --
  | .assignSub => [45, 61]  -- -=
  | .assign => [61]  -- =
  | .arrow => [61, 62]  -- =>
  | .eq => [61, 61]  -- ==
  | .eqS => [61, 61, 61]  -- ===
  | .lt => [60]  -- <
  | .lte => [60, 61]  -- <=
  | .lsh => [60, 60]  -- <<
  | .assignLsh => [60, 60, 61]  -- <<=
  | .gt => [62]  -- >
  | .gte => [62, 61]  -- >=
  | .rsh => [62, 62]  -- >>
  | .rshU => [62, 62, 62]  -- >>>
  | .assignRsh => [62, 62, 61]  -- >>=
  | .assignRshU => [62, 62, 62, 61]  -- >>>=
  | .mul => [42]  -- *
  | .assignMul => [42, 61]  -- *=
  | .pow => [42, 42]  -- **
  | .assignPow => [42, 42, 61]  -- **=
  | .bitOr => [124]  -- |
  | .assignBitOr => [124, 61]  -- |=
  | .or => [124, 124]  -- ||
  | .assignOr => [124, 124, 61]  -- ||=
  | .bitAnd => [38]  -- &
  | .assignBitAnd => [38, 61]  -- &=
  | .and => [38, 38]  -- &&
  | .assignAnd => [38, 38, 61]  -- &&=
  | .mod => [37]  -- %
  | .assignMod => [37, 61]  -- %=
  | .not => [33]  -- !
  | .ne => [33, 61]  -- !=
  | .neS => [33, 61, 61]  -- !==
  | .bitNot => [126]  -- ~
  | .bitXor => [94]  -- ^
  | .assignBitXor => [94, 61]  -- ^=
  | .div => [47]  -- /
  | .assignDiv => [47, 61]  -- /=
  | .«at» => [64]  -- @

/-- What `readSymbol` looks at besides the text: features, modes, whether a regular expression
may start here (lexer.go:657-679), and the two tables about `<<` in TypeScript. -/
structure PunctCfg where
  pow : Bool
  spread : Bool
  bindingRest : Bool
  optExpr : Bool
  nullish : Bool
  logicAssign : Bool
  decorator : Bool
  ts : Bool
  tsTypArg : Bool
  regexpAhead : Bool
  lshHere : Bool
  maybeLshHere : Bool

inductive PunctRes where
  /-- a punctuator and the text left -/
  | punct (p : Punct) (rest : List Nat)
  /-- a comment or regular expression, read by the scanner for it -/
  | slash
  /-- an illegal token -/
  | illegal
  deriving DecidableEq, Repr

/-- `AheadIsCh`. -/
def ahead (c : Nat) (s : List Nat) : Bool := s.head? == some c

open Punct PunctRes in
/-- lexer.go:711-935: the switch of `readSymbol`; `s` is the text after the character `c`.
None of the characters read is a carriage return, so `Read` drops one code point. -/
def symSwitch (F : PunctCfg) (c : Nat) (s : List Nat) : PunctRes :=
  if c = 123 then punct braceL s
  else if c = 125 then punct braceR s
  else if c = 40 then punct parenL s
  else if c = 41 then punct parenR s
  else if c = 91 then punct bracketL s
  else if c = 93 then punct bracketR s
  else if c = 59 then punct semi s
  else if c = 44 then punct comma s
  else if c = 58 then punct colon s
  else if c = 46 then
    if ahead 46 s && ahead 46 s.tail then punct dotTri s.tail.tail else punct dot s
  else if c = 63 then
    if ahead 46 s && !onRune isDecimalDigit (ahead2nd s) then punct optChain s.tail
    else if ahead 63 s then
      if ahead 61 s.tail then punct assignNullish s.tail.tail else punct nullish s.tail
    else punct hook s
  else if c = 43 then
    if ahead 43 s then punct inc s.tail
    else if ahead 61 s then punct assignAdd s.tail else punct add s
  else if c = 45 then
    if ahead 45 s then punct dec s.tail
    else if ahead 61 s then punct assignSub s.tail else punct sub s
  else if c = 61 then
    if ahead 62 s then punct arrow s.tail
    else if ahead 61 s && ahead 61 s.tail then punct eqS s.tail.tail
    else if ahead 61 s then punct eq s.tail else punct assign s
  else if c = 60 then
    if ahead 61 s then punct lte s.tail
    else if ahead 60 s then
      if !onRune Span.isSpace (ahead2nd s) && (F.ts || F.tsTypArg) then
        if F.lshHere then punct lt s else if !F.maybeLshHere then punct lt s else illegal
      else if ahead 61 s.tail then punct assignLsh s.tail.tail else punct lsh s.tail
    else punct lt s
  else if c = 62 then
    if ahead 61 s then punct gte s.tail
    else if !F.tsTypArg && ahead 62 s then
      if ahead 62 s.tail then
        if ahead 61 s.tail.tail then punct assignRshU s.tail.tail.tail
        else punct rshU s.tail.tail
      else if ahead 61 s.tail then punct assignRsh s.tail.tail else punct rsh s.tail
    else punct gt s
  else if c = 42 then
    if ahead 42 s then
      if F.pow = false then illegal
      else if ahead 61 s.tail then punct assignPow s.tail.tail else punct pow s.tail
    else if ahead 61 s then punct assignMul s.tail else punct mul s
  else if c = 124 then
    if ahead 124 s then
      if ahead 61 s.tail then punct assignOr s.tail.tail else punct or s.tail
    else if ahead 61 s then punct assignBitOr s.tail else punct bitOr s
  else if c = 38 then
    if ahead 38 s then
      if ahead 61 s.tail then punct assignAnd s.tail.tail else punct and s.tail
    else if ahead 61 s then punct assignBitAnd s.tail else punct bitAnd s
  else if c = 37 then
    if ahead 61 s then punct assignMod s.tail else punct mod s
  else if c = 33 then
    if ahead 61 s then
      if ahead 61 s.tail then punct neS s.tail.tail else punct ne s.tail
    else punct not s
  else if c = 126 then punct bitNot s
  else if c = 94 then
    if ahead 61 s then punct assignBitXor s.tail else punct bitXor s
  else if c = 47 then
    if ahead 47 s then slash
    else if ahead 42 s then slash
    else if F.regexpAhead then slash
    else if ahead 61 s then punct assignDiv s.tail else punct div s
  else if c = 64 then
    if F.decorator then punct «at» s else illegal
  else illegal

/-- lexer.go:937-945: punctuators of features that are off. -/
def gate (F : PunctCfg) : PunctRes → PunctRes
  | .punct .dotTri s =>
    if F.spread = false || F.bindingRest = false then .illegal else .punct .dotTri s
  | .punct .optChain s => if F.optExpr = false then .illegal else .punct .optChain s
  | .punct .nullish s => if F.nullish = false then .illegal else .punct .nullish s
  | .punct .assignNullish s => if F.logicAssign = false then .illegal else .punct .assignNullish s
  | .punct .assignAnd s => if F.logicAssign = false then .illegal else .punct .assignAnd s
  | .punct .assignOr s => if F.logicAssign = false then .illegal else .punct .assignOr s
  | r => r

/-- lexer.go:706-948 `readSymbol`. -/
def readSymbol (F : PunctCfg) (s : List Nat) : PunctRes :=
  match rd s with
  | (none, _) => .illegal
  | (some c, t) => gate F (symSwitch F c t)

end Mole.Lexer
