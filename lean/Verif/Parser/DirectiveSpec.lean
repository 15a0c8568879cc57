import Verif.Parser.Directive

/-! Directives by ECMA-262 (11.2.1, 11.2.2, 12.9.4.1). -/

namespace Mole.Parser.Directive.Spec

/-- The statement is a string literal and nothing else. -/
def isStr : St → Bool
  | .str _ _ => true
  | .other _ => false

/-- The directive prologue: the longest sequence of such statements at the beginning. -/
def prologue (p : List St) : List St := p.takeWhile isStr

/-- A use strict directive: the characters `use strict` in quotes, with no escape. -/
def useStrict (s : St) : Prop := ∃ lo, s = .str "\"use strict\"" lo ∨ s = .str "'use strict'" lo

/-- A program or function body is strict if the code around it is, or by its prologue. -/
def strictBody (strict : Bool) (p : List St) : Prop := strict = true ∨ ∃ s ∈ prologue p, useStrict s

/-- The statement has a legacy octal escape. -/
def octal : St → Prop
  | .str _ lo => lo = true
  | .other lo => lo = true

/-- After the prologue no statement is only a string literal. -/
def noStray (p : List St) : Prop := ∀ a b c, p = a ++ b :: c → isStr b = false → ∀ s ∈ c, isStr s = false

end Mole.Parser.Directive.Spec
