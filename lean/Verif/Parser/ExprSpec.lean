import Verif.Parser.Expr
/-!
# Specification of expression grouping

From ECMA-262 13.5-13.15: the levels of the binary operators, what it means for a tree to be
grouped as the grammar says, and the tokens a tree stands for.
-/
namespace Mole.Parser.Spec

/-- The level of a binary operator in the grammar, loosest first: `??` and `||` (short-circuit), `&&`,
`|`, `^`, `&`, equality, relational, shift, additive, multiplicative, exponentiation.
TypeScript puts `as` on the relational level. -/
def level : BinOp → Nat
  | .nullish | .or => 1
  | .and => 2
  | .bitOr => 3
  | .bitXor => 4
  | .bitAnd => 5
  | .eq | .ne | .eqS | .neS => 6
  | .lt | .gt | .lte | .gte | .instanceOf | .in_ | .as_ => 7
  | .lsh | .rsh | .rshU => 8
  | .add | .sub => 9
  | .mul | .div | .mod => 10
  | .pow => 11

/-- The tokens a tree stands for, from left to right. -/
def yield : Tree → List Tok
  | .leaf o => [.operand o]
  | .bin op l r => yield l ++ .bin op :: yield r
  | .cond t c a => yield t ++ .hook :: (yield c ++ .colon :: yield a)
  | .assign p l r => yield l ++ .assign p :: yield r

/-- A left operand of `op` that is a binary expression binds tighter, or as tight if `op` groups
to the left. -/
def LeftOk (op : BinOp) : Tree → Prop
  | .bin o _ _ => level op < level o ∨ (level op = level o ∧ op ≠ .pow)
  | .leaf _ => True
  | _ => False

/-- A right operand of `op` that is a binary expression binds tighter, or as tight if `op` groups
to the right (`**`). -/
def RightOk (op : BinOp) : Tree → Prop
  | .bin o _ _ => level op < level o ∨ (level op = level o ∧ op = .pow)
  | .leaf _ => True
  | _ => False

/-- A tree of binary operators grouped as the grammar says. -/
def Grouped : Tree → Prop
  | .leaf _ => True
  | .bin op l r => Grouped l ∧ Grouped r ∧ LeftOk op l ∧ RightOk op r
  | _ => False

/-- A chain `op operand op operand …`. -/
def chain : List (BinOp × Operand) → List Tok
  | [] => []
  | (op, o) :: ps => .bin op :: .operand o :: chain ps

/-- The operator is one under the configuration: `in` not where excluded, `as` in TypeScript, and `>`
not where it closes type arguments. -/
def Enabled (C : ExprCfg) (op : BinOp) : Prop :=
  (op = .in_ → C.notIn = false) ∧ (op = .as_ → C.ts = true) ∧ (op = .gt → C.notGT = false)

/-- The token list does not start with an enabled operator. -/
def NoOp (C : ExprCfg) (s : List Tok) : Prop := ∀ op t, s = .bin op :: t → ¬ Enabled C op

/-- The chains on which the code groups correctly: whenever an operator of level `p` is followed by
a tighter one of level `q`, the next operator looser than `q` is at most as tight as `p`. -/
def Good : List Nat → Prop
  | [] => True
  | p :: ps => Good ps ∧
      match ps with
      | [] => True
      | q :: qs => p < q → ∀ r, qs.find? (fun x => x < q) = some r → r ≤ p

end Mole.Parser.Spec
