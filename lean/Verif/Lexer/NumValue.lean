import Verif.Lexer.NumSpec
/-!
# Model of the conversion of literals to numbers (ecma/parser/astutil.go:32-83)
-/
namespace Mole.Lexer

/-- The value of a digit or letter, as in Go's `strconv` and `math/big`. -/
def digitOf (c : Nat) : Option Nat :=
  if 48 ≤ c ∧ c ≤ 57 then some (c - 48)
  else if 97 ≤ c ∧ c ≤ 122 then some (c - 87)
  else if 65 ≤ c ∧ c ≤ 90 then some (c - 55)
  else none

/-- The loop of Go's `strconv.ParseUint(s, base, 32)`: 0 for an invalid digit, the largest
32-bit number as soon as the value exceeds it. -/
def parseUintLoop (base : Nat) : Nat → List Nat → Nat
  | n, [] => n
  | n, c :: t =>
    match digitOf c with
    | none => 0
    | some d =>
      if d ≥ base then 0
      else if n * base + d > 2 ^ 32 - 1 then 2 ^ 32 - 1
      else parseUintLoop base (n * base + d) t

/-- The value `strconv.ParseUint(s, base, 32)` returns, its error ignored. -/
def parseUint32 (base : Nat) (s : List Nat) : Nat := parseUintLoop base 0 s

/-- The value of `big.Int.SetString(s, base)` on a fresh integer, `none` when it fails. -/
def setStringLoop (base : Nat) : Nat → List Nat → Option Nat
  | n, [] => some n
  | n, c :: t =>
    match digitOf c with
    | none => none
    | some d => if d ≥ base then none else setStringLoop base (n * base + d) t

/-- A number `ParseFloat` returns: an integer converted exactly, or what `strconv.ParseFloat`
(not modelled) makes of a text. -/
inductive FloatVal where
  | nat (n : Nat)
  | strconv (text : List Nat)
  deriving DecidableEq, Repr

/-- Does the text start with `0` and the letter, in either case? -/
def has0 (lo up : Nat) (t : List Nat) : Bool :=
  t.head? == some 48 && (t.tail.head? == some lo || t.tail.head? == some up)

/-- astutil.go:61-83 `ParseFloat`. -/
def parseFloat (t : List Nat) : FloatVal :=
  let t := t.filter (· != 95)
  if has0 120 88 t then .nat (parseUint32 16 (t.drop 2))
  else if has0 111 79 t then .nat (parseUint32 8 (t.drop 2))
  else if has0 98 66 t then .nat (parseUint32 2 (t.drop 2))
  else if t.head? = some 48 ∧ t.length > 1 then
    .nat (parseUint32 8 (t.dropWhile (· == 48)))
  else .strconv t

/-- astutil.go:32-59 `ParseBigint`; `none` when `SetString` fails (the big integer is then
undefined). An empty text fails as well. -/
def parseBigint (t : List Nat) : Option Nat :=
  let t := t.dropLast.filter (· != 95)
  let set (base : Nat) (s : List Nat) : Option Nat := if s = [] then none else setStringLoop base 0 s
  if has0 120 88 t then set 16 (t.drop 2)
  else if has0 111 79 t then set 8 (t.drop 2)
  else if has0 98 66 t then set 2 (t.drop 2)
  else if t.head? = some 48 ∧ t.length > 1 then set 8 (t.dropWhile (· == 48))
  else set 10 t

namespace Spec

/-- Value of a digit character. -/
def digit (c : Nat) : Nat :=
  if c ≤ '9'.toNat then c - '0'.toNat
  else if c ≤ 'Z'.toNat then c - 'A'.toNat + 10
  else c - 'a'.toNat + 10

/-- The number a digit sequence denotes, separators left out. -/
def numeral (base : Nat) : Nat → List Nat → Nat
  | n, [] => n
  | n, c :: t => if c = '_'.toNat then numeral base n t else numeral base (n * base + digit c) t

end Spec
end Mole.Lexer
