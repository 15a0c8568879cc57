import Verif.Walk.Walker
import Verif.Walk.Table

/-! The children a visitor sees: the tree as the accessors of the nodes give it to the visitors. -/

namespace Mole.Walk

variable {α : Type}

/-- The node in a field, e.g. ecma/parser/ast.go 1286-1288. -/
def findOne (name : String) : Slots α → OTree α
  | .nil => .none
  | .one k o rest => if k = name then o else findOne name rest
  | .many _ _ rest => findOne name rest

/-- The nodes in a field, e.g. ecma/parser/ast.go 1290-1292. -/
def findMany (name : String) : Slots α → Trees α
  | .nil => .nil
  | .one _ _ rest => findMany name rest
  | .many k ts rest => if k = name then ts else findMany name rest

/-- ecma/parser/ast.go 865-875 (ParenExpr.Expr): looks through parentheses; as the children have been looked at before,
one step is enough. -/
def unparen : OTree α → OTree α
  | .some (.mk i s) => if i.typ = N_EXPR_PAREN then findOne "Expr" s else .some (.mk i s)
  | .none => .none

/-- The accessors which give one node: ecma/parser/ast.go 865-875 (ParenExpr), ts_ast.go 794-796 (TsTypDec.TypParams), the
others return the field. -/
def getOne (typ : Nat) (name : String) (s : Slots α) : OTree α :=
  if typ = N_EXPR_PAREN then unparen (findOne name s)
  else if typ = N_TS_TYP_DEC ∧ name = "TypParams" then findOne "TypInfo.TypParams" s
  else findOne name s

/-- The accessors which give a list: ecma/parser/ts_ast.go 168-173 (TsRef.Args), the others return the field. -/
def getMany (typ : Nat) (name : String) (s : Slots α) : Trees α :=
  if typ = N_TS_REF ∧ name = "Args" then
    match findOne "ParamsInst" s with
    | .some (.mk _ ps) => findMany "Params" ps
    | .none => .nil
  else findMany name s

/-- The calls `VisitNode(n.X(), "X", ctx)` and `VisitNodes(n, n.X(), "X", ctx)` of a visitor, e.g. ecma/walk/visitor.go 1035-1055. -/
def pick (typ : Nat) (s : Slots α) : List SlotDecl → Slots α
  | [] => .nil
  | d :: ds => if d.many then .many d.name (getMany typ d.name s) (pick typ s ds) else .one d.name (getOne typ d.name s) (pick typ s ds)

/-- The slots of the visitor of a type, ecma/walk/visitor.go 3592-3970. -/
def visitedSlots (typ : Nat) : List SlotDecl :=
  match visitors typ with
  | some r => r.slots
  | none => []

mutual
/-- The tree of the parser as the visitors see it, ecma/walk/visitor.go 1010-3590. -/
def seen : Tree α → Tree α
  | .mk i slots => .mk i (pick i.typ (seenS slots) (visitedSlots i.typ))
/-- The fields of a node, their nodes as the visitors see them. -/
def seenS : Slots α → Slots α
  | .nil => .nil
  | .one k o rest => .one k (seenO o) (seenS rest)
  | .many k ts rest => .many k (seenL ts) (seenS rest)
def seenO : OTree α → OTree α
  | .none => .none
  | .some t => .some (seen t)
def seenL : Trees α → Trees α
  | .nil => .nil
  | .cons o rest => .cons (seenO o) (seenL rest)
end

end Mole.Walk
