/-!
# Model of the expression parser above unary expressions

ecma/parser/parser.go: `binExpr` 5446-5532, `condExpr` 4198-4242, `assignExpr` 4072-4132, with
the operator table of ecma/parser/token.go:443-479.

Simplifications: a complete unary expression (what `unaryExpr` consumes), or the type after `as`,
is one operand token; source ranges, comments and TypeScript's optional-parameter reading of `?`
are left out.
-/
namespace Mole.Parser

/-- token.go:443-479: the tokens between `T_BIN_OP_BEGIN` and `T_BIN_OP_END`, and `as`. -/
inductive BinOp where
  | nullish | lt | gt | lte | gte | eq | ne | eqS | neS | lsh | rsh | rshU
  | bitOr | bitXor | bitAnd | or | and | instanceOf | in_ | as_
  | add | sub | mul | div | mod | pow
  deriving DecidableEq, Repr

/-- token.go:443-512: the `Pcd` column of `TokenKinds`. -/
def BinOp.pcd : BinOp → Nat
  | .nullish => 6
  | .lt | .gt | .lte | .gte => 12
  | .eq | .ne | .eqS | .neS => 11
  | .lsh | .rsh | .rshU => 13
  | .bitOr => 8
  | .bitXor => 9
  | .bitAnd => 10
  | .or => 6
  | .and => 7
  | .instanceOf | .in_ => 12
  | .as_ => 12
  | .add | .sub => 14
  | .mul | .div | .mod => 15
  | .pow => 16

/-- token.go:443-512: the `RightAssoc` column of `TokenKinds`. -/
def BinOp.rightAssoc : BinOp → Bool
  | .pow => true
  | _ => false

/-- What the parser asks of a unary expression: whether it is an `N_EXPR_UNARY`, an arrow
function, and whether `argToParam` and `isSimpleLVal` (parser.go:4124-4130) accept it as the left
side of `=` and of the other assignment operators. -/
structure Operand where
  id : Nat
  unary : Bool
  arrow : Bool
  target : Bool
  opTarget : Bool
  deriving DecidableEq, Repr

/-- The tokens; `assign true` is `=`, `assign false` an operator assignment. -/
inductive Tok where
  | operand (o : Operand)
  | bin (op : BinOp)
  | assign (plain : Bool)
  | hook
  | colon
  | other (n : Nat)
  deriving DecidableEq, Repr

/-- ecma/parser/ast.go: `BinExpr`, `CondExpr`, `AssignExpr`. -/
inductive Tree where
  | leaf (o : Operand)
  | bin (op : BinOp) (l r : Tree)
  | cond (t c a : Tree)
  | assign (plain : Bool) (l r : Tree)
  deriving DecidableEq, Repr

/-- Scope flag `SPK_NOT_IN`, TypeScript, the parameter `notGT`, `FEAT_POW`. -/
structure ExprCfg where
  notIn : Bool
  ts : Bool
  notGT : Bool
  pow : Bool

/-- The errors. -/
inductive ExprErr where
  | mixed | powDisabled | unaryBeforePow | arrow | unexpected | assignToRvalue
  deriving DecidableEq, Repr

/-- token.go:65-76 `IsBin`; `in` and `as` are names by token kind. -/
def isBin (C : ExprCfg) : List Tok → Option BinOp
  | .bin .in_ :: _ => if C.notIn then none else some .in_
  | .bin .as_ :: _ => if C.ts then some .as_ else none
  | .bin op :: _ => some op
  | _ => none

/-- parser.go:5513: `Type() == N_EXPR_UNARY`. -/
def Tree.isUnary : Tree → Bool
  | .leaf o => o.unary
  | _ => false

/-- parser.go:5519: `Type() == N_EXPR_ARROW`. -/
def Tree.isArrow : Tree → Bool
  | .leaf o => o.arrow
  | _ => false

mutual
/-- parser.go:5456-5530: the loop of `binExpr`. -/
def binLoop (C : ExprCfg) : Nat → Tree → Nat → Bool → Bool → List Tok →
    Option (Except ExprErr (Tree × List Tok))
  | 0, _, _, _, _, _ => none
  | fuel + 1, lhs, min, logic, nullish, s =>
    match isBin C s with
    | none => some (.ok (lhs, s))
    | some op =>
      if op.pcd < min ∨ (op = .gt ∧ C.notGT = true) then some (.ok (lhs, s))
      else if (logic = true ∧ op = .nullish) ∨ (nullish = true ∧ (op = .and ∨ op = .or)) then
        some (.error .mixed)
      else if op = .pow ∧ C.pow = false then some (.error .powDisabled)
      else
        match s.tail with
        | .operand o :: s2 =>
          match innerLoop C fuel op.pcd (.leaf o) (logic || op == .and || op == .or)
              (nullish || op == .nullish) s2 with
          | none => none
          | some (.error e) => some (.error e)
          | some (.ok (rhs, s3)) =>
            if lhs.isUnary = true ∧ op = .pow then some (.error .unaryBeforePow)
            else if rhs.isArrow = true then some (.error .arrow)
            else
              binLoop C fuel (.bin op lhs rhs) min (logic || op == .and || op == .or)
                (nullish || op == .nullish) s3
        | _ => some (.error .unexpected)
/-- parser.go:5498-5510: the inner loop; note that it overwrites `pcd`. -/
def innerLoop (C : ExprCfg) : Nat → Nat → Tree → Bool → Bool → List Tok →
    Option (Except ExprErr (Tree × List Tok))
  | 0, _, _, _, _, _ => none
  | fuel + 1, pcd, rhs, logic, nullish, s =>
    match isBin C s with
    | none => some (.ok (rhs, s))
    | some op =>
      if op.pcd > pcd ∨ (op.pcd = pcd ∧ op.rightAssoc = true) then
        match binLoop C fuel rhs op.pcd logic nullish s with
        | none => none
        | some (.error e) => some (.error e)
        | some (.ok (rhs', s')) => innerLoop C fuel op.pcd rhs' logic nullish s'
      else some (.ok (rhs, s))
end

/-- Steps enough for `binExpr` on a text of this length. -/
def binFuel (s : List Tok) : Nat := 2 * s.length + 2

/-- parser.go:5446 `binExpr(nil, 0, false, false, notGT, _)`. -/
def binExpr (C : ExprCfg) (s : List Tok) : Option (Except ExprErr (Tree × List Tok)) :=
  match s with
  | .operand o :: t => binLoop C (binFuel t) (.leaf o) 0 false false t
  | _ => some (.error .unexpected)

/-- parser.go:4124-4130: `argToParam` at depth 1 and `isSimpleLVal` on what `assignExpr` may have
on the left; a binary expression is never a target (for `as`, 5189-5198). -/
def Tree.isTarget (plain : Bool) : Tree → Bool
  | .leaf o => if plain then o.target else o.opTarget
  | _ => false

mutual
/-- parser.go:4198-4242 `condExpr` outside TypeScript. -/
def condExpr (C : ExprCfg) : Nat → List Tok → Option (Except ExprErr (Tree × List Tok))
  | 0, _ => none
  | fuel + 1, s =>
    match binExpr C s with
    | none => none
    | some (.error e) => some (.error e)
    | some (.ok (test, .hook :: s1)) =>
      match assignExpr C fuel s1 with
      | none => none
      | some (.error e) => some (.error e)
      | some (.ok (cons, .colon :: s2)) =>
        match assignExpr C fuel s2 with
        | none => none
        | some (.error e) => some (.error e)
        | some (.ok (alt, s3)) => some (.ok (.cond test cons alt, s3))
      | some (.ok _) => some (.error .unexpected)
    | some (.ok r) => some (.ok r)
/-- parser.go:4072-4132 `assignExpr`. -/
def assignExpr (C : ExprCfg) : Nat → List Tok → Option (Except ExprErr (Tree × List Tok))
  | 0, _ => none
  | fuel + 1, s =>
    match condExpr C fuel s with
    | none => none
    | some (.error e) => some (.error e)
    | some (.ok (lhs, .assign plain :: s1)) =>
      match assignExpr C fuel s1 with
      | none => none
      | some (.error e) => some (.error e)
      | some (.ok (rhs, s2)) =>
        if lhs.isTarget plain then some (.ok (.assign plain lhs rhs, s2))
        else some (.error .assignToRvalue)
    | some (.ok r) => some (.ok r)
end

end Mole.Parser
