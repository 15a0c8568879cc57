/-!
# Specification of escape sequences

Written from ECMA-262 (12.9.4 String Literals and Annex B legacy octal escapes), on code
points, without reference to the model.
-/
namespace Mole.Lexer.Spec

/-- `c` is the hexadecimal digit with value `v`. -/
def HexDigit (c v : Nat) : Prop :=
  (v < 10 ∧ c = '0'.toNat + v) ∨
  (10 ≤ v ∧ v < 16 ∧ (c = 'a'.toNat + (v - 10) ∨ c = 'A'.toNat + (v - 10)))

/-- `c` is the octal digit with value `v`. -/
def OctDigit (c v : Nat) : Prop := v < 8 ∧ c = '0'.toNat + v

/-- The digits `cs` have the values `vs`. -/
inductive HexDigits : List Nat → List Nat → Prop
  | nil : HexDigits [] []
  | cons {c v cs vs} : HexDigit c v → HexDigits cs vs → HexDigits (c :: cs) (v :: vs)

/-- The number written with the digits `vs`, most significant first. -/
def value (base : Nat) : List Nat → Nat
  | [] => 0
  | v :: vs => v * base ^ vs.length + value base vs

/-- The text does not start with an octal digit. -/
def NoOctal (s : List Nat) : Prop := ∀ c v t, s = c :: t → ¬ OctDigit c v

/-- LF, CR, U+2028 or U+2029. -/
def LineTerm (c : Nat) : Prop := c = 0x0a ∨ c = 0x0d ∨ c = 0x2028 ∨ c = 0x2029

/-- `EscapeAt s v rest`: the text `s` (after the backslash) starts with an escape sequence for
the code point `v`, and `rest` follows it. -/
inductive EscapeAt : List Nat → Nat → List Nat → Prop
  | b (rest) : EscapeAt ('b'.toNat :: rest) 0x08 rest
  | f (rest) : EscapeAt ('f'.toNat :: rest) 0x0c rest
  | n (rest) : EscapeAt ('n'.toNat :: rest) 0x0a rest
  | r (rest) : EscapeAt ('r'.toNat :: rest) 0x0d rest
  | t (rest) : EscapeAt ('t'.toNat :: rest) 0x09 rest
  | v (rest) : EscapeAt ('v'.toNat :: rest) 0x0b rest
  /-- `\xHH` -/
  | hex {c1 c2 v1 v2} (rest) : HexDigit c1 v1 → HexDigit c2 v2 →
      EscapeAt ('x'.toNat :: c1 :: c2 :: rest) (v1 * 16 + v2) rest
  /-- `\uHHHH` -/
  | u4 {cs vs} (rest) : HexDigits cs vs → cs.length = 4 →
      EscapeAt ('u'.toNat :: cs ++ rest) (value 16 vs) rest
  /-- `\u{H...}` -/
  | brace {cs vs} (rest) : HexDigits cs vs → cs ≠ [] → value 16 vs ≤ 0x10FFFF →
      EscapeAt ('u'.toNat :: '{'.toNat :: cs ++ '}'.toNat :: rest) (value 16 vs) rest
  /-- one octal digit (this includes `\0`) -/
  | oct1 {c v rest} : OctDigit c v → NoOctal rest → EscapeAt (c :: rest) v rest
  /-- two octal digits, the first at most 3, no third one -/
  | oct2 {c1 v1 c2 v2 rest} : OctDigit c1 v1 → v1 ≤ 3 → OctDigit c2 v2 → NoOctal rest →
      EscapeAt (c1 :: c2 :: rest) (v1 * 8 + v2) rest
  /-- two octal digits, the first at least 4 -/
  | oct2' {c1 v1 c2 v2} (rest) : OctDigit c1 v1 → 4 ≤ v1 → OctDigit c2 v2 →
      EscapeAt (c1 :: c2 :: rest) (v1 * 8 + v2) rest
  /-- three octal digits, the first at most 3 -/
  | oct3 {c1 v1 c2 v2 c3 v3} (rest) : OctDigit c1 v1 → v1 ≤ 3 → OctDigit c2 v2 → OctDigit c3 v3 →
      EscapeAt (c1 :: c2 :: c3 :: rest) ((v1 * 8 + v2) * 8 + v3) rest
  /-- any other character stands for itself -/
  | other {c} (rest) : ¬ LineTerm c → (∀ v, ¬ OctDigit c v) →
      c ∉ ("bfnrtvxu".toList.map Char.toNat) → EscapeAt (c :: rest) c rest

/-- One line terminator sequence at the start of a text: CR LF counts as one. -/
inductive LineTermSeq : List Nat → List Nat → Prop
  | crlf (rest) : LineTermSeq (0x0d :: 0x0a :: rest) rest
  | cr (rest) : (∀ t, rest ≠ 0x0a :: t) → LineTermSeq (0x0d :: rest) rest
  | one {c} (rest) : c = 0x0a ∨ c = 0x2028 ∨ c = 0x2029 → LineTermSeq (c :: rest) rest

/-- Characters that may not stand unescaped in a string; U+2028 and U+2029 may since ES2019
(`super`). -/
def StrTerm (super : Bool) (c : Nat) : Prop :=
  c = 0x0a ∨ c = 0x0d ∨ ((c = 0x2028 ∨ c = 0x2029) ∧ super = false)

/-- `StrAt super q s vs rest`: the text `s` (after the opening quote `q`) is the body of a
string literal with the code points `vs`, up to and including the closing quote, and `rest`
follows. -/
inductive StrAt (super : Bool) (q : Nat) : List Nat → List Nat → List Nat → Prop
  | close (rest) : StrAt super q (q :: rest) [] rest
  | char {c s vs rest} : c ≠ q → c ≠ '\\'.toNat → ¬ StrTerm super c → StrAt super q s vs rest →
      StrAt super q (c :: s) (c :: vs) rest
  | cont {s t vs rest} : LineTermSeq s t → StrAt super q t vs rest →
      StrAt super q ('\\'.toNat :: s) vs rest
  | esc {s t v vs rest} : EscapeAt s v t → StrAt super q t vs rest →
      StrAt super q ('\\'.toNat :: s) (v :: vs) rest

/-- Unicode scalar values: what a decoded source consists of. -/
def Scalar (c : Nat) : Prop := c < 0xD800 ∨ (0xE000 ≤ c ∧ c ≤ 0x10FFFF)

/-- One source character of a template: CR LF and CR stand for LF. -/
inductive TplChar : List Nat → Nat → List Nat → Prop
  | crlf (rest) : TplChar (0x0d :: 0x0a :: rest) 0x0a rest
  | cr (rest) : (∀ t, rest ≠ 0x0a :: t) → TplChar (0x0d :: rest) 0x0a rest
  | char {c} (rest) : c ≠ 0x0d → TplChar (c :: rest) c rest

/-- `TplAt nul s vs fin rest`: the text `s` (after the opening backquote or the `}` of a
substitution) is the body of a template span with the code points `vs`; it ends with a
backquote (`fin`) or with `${`, and `rest` follows.  An escape in a template is no legacy octal
one; with `nul` the escape `\0` is included, as in the language. -/
inductive TplAt (nul : Bool) : List Nat → List Nat → Bool → List Nat → Prop
  | close (rest) : TplAt nul ('`'.toNat :: rest) [] true rest
  | subst (rest) : TplAt nul ('$'.toNat :: '{'.toNat :: rest) [] false rest
  | dollar {s vs fin rest} : (∀ t, s ≠ '{'.toNat :: t) → TplAt nul s vs fin rest →
      TplAt nul ('$'.toNat :: s) ('$'.toNat :: vs) fin rest
  | char {c s t v vs fin rest} : s = c :: t → c ≠ '`'.toNat → c ≠ '$'.toNat → c ≠ '\\'.toNat →
      ∀ {u}, TplChar s v u → TplAt nul u vs fin rest → TplAt nul s (v :: vs) fin rest
  | cont {s t vs fin rest} : LineTermSeq s t → TplAt nul t vs fin rest →
      TplAt nul ('\\'.toNat :: s) vs fin rest
  | esc {s t v vs fin rest} : EscapeAt s v t → (∀ c w u, s = c :: u → ¬ OctDigit c w) →
      TplAt nul t vs fin rest → TplAt nul ('\\'.toNat :: s) (v :: vs) fin rest
  /-- `\0` not before a digit -/
  | nul0 {s vs fin rest} : nul = true → (∀ c t, s = c :: t → ¬ ('0'.toNat ≤ c ∧ c ≤ '9'.toNat)) →
      TplAt nul s vs fin rest → TplAt nul ('\\'.toNat :: '0'.toNat :: s) (0 :: vs) fin rest

/-- The escape is an octal one other than a lone `\0`. -/
def LegacyOctal (s : List Nat) : Prop :=
  ∃ c v t, s = c :: t ∧ OctDigit c v ∧ (v ≠ 0 ∨ ¬ NoOctal t)

end Mole.Lexer.Spec
