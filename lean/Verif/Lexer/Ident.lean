import Verif.Lexer.Escape
/-!
# Identifier characters (ecma/parser/lexer.go:1797-1827)
-/
namespace Mole.Lexer

/-- The part of Go's Unicode tables the identifier tests consult, for code points from U+0080.
Everything below is proved for arbitrary tables. -/
structure IdTables where
  /-- lexer.go:1804-1816: `Upper`, `Lower`, `Title`, `Modi`, `Other_*`, and `Lo` up to 0x2B81D. -/
  start : Nat → Bool
  /-- lexer.go:1821-1826: `Pc`, `Mark`, `Nd`, `Other_ID_Continue`, and 0x200C, 0x200D. -/
  part : Nat → Bool

/-- lexer.go:1797-1818 `IsIdStart`.  Below U+0080 the Unicode tables named there add nothing to
the explicit ranges. -/
def isIdStart (T : IdTables) (c : Nat) : Bool :=
  if c < 0x80 then
    (97 ≤ c && c ≤ 122) || (65 ≤ c && c ≤ 90) || c == 36 || c == 95 || c == 92
  else T.start c

/-- lexer.go:1820-1827 `IsIdPart`.  Below U+0080 the tables add the underscore (`Pc`). -/
def isIdPart (T : IdTables) (c : Nat) : Bool :=
  if c < 0x80 then (48 ≤ c && c ≤ 57) || c == 95 else T.part c || c == 0x200C || c == 0x200D

end Mole.Lexer
