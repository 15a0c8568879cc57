import Verif.Lexer.Num
/-!
# The grammar of numeric literals (ECMA-262, 12.9.3)
-/
namespace Mole.Lexer.Spec

/-- What may stand after the first digit of a digit sequence: more digits, each after at most
one separator. -/
inductive DigitsTail (D : Nat → Prop) (sep : Prop) : List Nat → Prop
  | nil : DigitsTail D sep []
  | digit {d t} : D d → DigitsTail D sep t → DigitsTail D sep (d :: t)
  | sep {d t} : sep → D d → DigitsTail D sep t → DigitsTail D sep ('_'.toNat :: d :: t)

/-- At least one digit, separators only between two digits. -/
def Digits (D : Nat → Prop) (sep : Prop) (s : List Nat) : Prop :=
  ∃ d t, s = d :: t ∧ D d ∧ DigitsTail D sep t

def Dec (c : Nat) : Prop := '0'.toNat ≤ c ∧ c ≤ '9'.toNat
def Oct (c : Nat) : Prop := '0'.toNat ≤ c ∧ c ≤ '7'.toNat
def Bin (c : Nat) : Prop := c = '0'.toNat ∨ c = '1'.toNat
def Hex (c : Nat) : Prop :=
  Dec c ∨ ('a'.toNat ≤ c ∧ c ≤ 'f'.toNat) ∨ ('A'.toNat ≤ c ∧ c ≤ 'F'.toNat)

/-- Forms of literals: decimal integer, with a dot, with an exponent, in another radix, `0`
followed by octal digits, and any with the suffix `n`. -/
inductive NumKind where
  | int | frac | exp | bin | oct | hex | legacy | big
  deriving DecidableEq

/-- The literals allowed when separators, BigInt and (sloppy mode) legacy octals are. -/
inductive NumLit (sep bigint sloppy : Prop) : NumKind → List Nat → Prop
  | zero : NumLit sep bigint sloppy .int ['0'.toNat]
  | int {d t} : Dec d → d ≠ '0'.toNat → DigitsTail Dec sep t → NumLit sep bigint sloppy .int (d :: t)
  | dot {i} : NumLit sep bigint sloppy .int i → NumLit sep bigint sloppy .frac (i ++ ['.'.toNat])
  | frac {i f} : NumLit sep bigint sloppy .int i → Digits Dec sep f →
      NumLit sep bigint sloppy .frac (i ++ '.'.toNat :: f)
  | nofrac {f} : Digits Dec sep f → NumLit sep bigint sloppy .frac ('.'.toNat :: f)
  | exp {k m e sign x} : k = .int ∨ k = .frac → NumLit sep bigint sloppy k m →
      e = 'e'.toNat ∨ e = 'E'.toNat → sign = [] ∨ sign = ['+'.toNat] ∨ sign = ['-'.toNat] →
      Digits Dec sep x → NumLit sep bigint sloppy .exp (m ++ e :: (sign ++ x))
  | bin {b ds} : b = 'b'.toNat ∨ b = 'B'.toNat → Digits Bin sep ds →
      NumLit sep bigint sloppy .bin ('0'.toNat :: b :: ds)
  | oct {b ds} : b = 'o'.toNat ∨ b = 'O'.toNat → Digits Oct sep ds →
      NumLit sep bigint sloppy .oct ('0'.toNat :: b :: ds)
  | hex {b ds} : b = 'x'.toNat ∨ b = 'X'.toNat → Digits Hex sep ds →
      NumLit sep bigint sloppy .hex ('0'.toNat :: b :: ds)
  | big {k i} : bigint → k = .int ∨ k = .bin ∨ k = .oct ∨ k = .hex →
      NumLit sep bigint sloppy k i → NumLit sep bigint sloppy .big (i ++ ['n'.toNat])
  | legacy {ds} : sloppy → Digits Oct False ds →
      NumLit sep bigint sloppy .legacy ('0'.toNat :: ds)

/-- The characters (other than those that start an identifier) that would continue a literal
of the form. -/
def Continues : NumKind → Nat → Prop
  | .int, c => Dec c ∨ c = '.'.toNat
  | .frac, c => Dec c
  | .exp, c => Dec c
  | .bin, c => Bin c
  | .oct, c => Oct c
  | .hex, c => Hex c
  | .legacy, c => Oct c
  | .big, _ => False

end Mole.Lexer.Spec
