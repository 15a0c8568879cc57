import Verif.Walk.Props

/-! Model of the expression evaluator, ecma/exec/vm.go: listeners on the walker of `Mole.Walk`. -/

namespace Mole.Exec

open Mole.Walk

/-! The Go values the evaluator handles, over a type `F` of floating point numbers. -/
mutual
/-- A value of type `interface{}`: `nil`, `bool`, `float64`, `int`, `string`, `[]interface{}`, `map[string]interface{}`, the
builtin `includes` bound to an array (vm.go 395-402; the only function there is, 29-42), or a value of any other
type.  Arrays and maps have no identity in the model. -/
inductive Val (F : Type) where
  | nil
  | bool (b : Bool)
  | num (f : F)
  | int (i : Int)
  | str (s : String)
  | arr (vs : Vals F)
  | obj (fs : Fields F)
  | fn (this : Vals F)
  | other (n : Nat)
/-- The elements of an array. -/
inductive Vals (F : Type) where
  | nil
  | cons (v : Val F) (rest : Vals F)
/-- The entries of a map, with different keys. -/
inductive Fields (F : Type) where
  | nil
  | cons (k : String) (v : Val F) (rest : Fields F)
end

/-- The operations on numbers: `float64` arithmetic and comparison, which Go and JavaScript share, the conversion
to `int`, what Go's strconv and fmt do, and (`jsParse`, `jsFormat`, `ofNat`, `index`) the conversions of JavaScript, which
only the specification uses; `index` is the array index a number denotes, if any. -/
structure Ops (F : Type) where
  add : F → F → F
  sub : F → F → F
  mul : F → F → F
  div : F → F → F
  negate : F → F
  eq : F → F → Bool
  lt : F → F → Bool
  zero : F
  one : F
  nan : F
  isNaN : F → Bool
  toInt : F → Int
  parse : String → Option F
  format : F → String
  sprint : Val F → String
  jsParse : String → F
  jsFormat : F → String
  ofNat : Nat → F
  index : F → Option Nat

variable {F : Type}

def Vals.length : Vals F → Nat
  | .nil => 0
  | .cons _ r => r.length + 1

def Vals.get? : Vals F → Nat → Option (Val F)
  | .nil, _ => none
  | .cons v _, 0 => some v
  | .cons _ r, n + 1 => r.get? n

def Vals.ofList : List (Val F) → Vals F
  | [] => .nil
  | v :: vs => .cons v (Vals.ofList vs)

def Fields.length : Fields F → Nat
  | .nil => 0
  | .cons _ _ r => r.length + 1

/-- Looking up a key in a map. -/
def Fields.get? (k : String) : Fields F → Option (Val F)
  | .nil => none
  | .cons k' v r => if k = k' then some v else r.get? k

mutual
/-- `reflect.DeepEqual` on these values, without its shortcut for arrays and maps that are the same object. -/
def deepEqual (ops : Ops F) : Val F → Val F → Bool
  | .nil, .nil => true
  | .bool a, .bool b => a == b
  | .num a, .num b => ops.eq a b
  | .int a, .int b => a == b
  | .str a, .str b => a == b
  | .arr a, .arr b => deepEquals ops a b
  | .obj a, .obj b => a.length == b.length && deepFields ops a b
  | .other a, .other b => a == b
  | _, _ => false
def deepEquals (ops : Ops F) : Vals F → Vals F → Bool
  | .nil, .nil => true
  | .cons a as, .cons b bs => deepEqual ops a b && deepEquals ops as bs
  | _, _ => false
/-- Every entry of the first map is in the second. -/
def deepFields (ops : Ops F) : Fields F → Fields F → Bool
  | .nil, _ => true
  | .cons k a r, g =>
    (match g.get? k with
    | none => false
    | some b => deepEqual ops a b) && deepFields ops r g
end

/-- vm.go 31-40: the builtin `includes`. -/
def includes (ops : Ops F) (target : Val F) : Vals F → Bool
  | .nil => false
  | .cons v r => if deepEqual ops v target then true else includes ops target r

/-- vm.go 277-287. -/
def toNum (ops : Ops F) : Val F → F
  | .num f => f
  | .str s => match ops.parse s with
    | some f => f
    | none => ops.nan
  | _ => ops.nan

/-- vm.go 289-302. -/
def toStr (ops : Ops F) : Val F → String
  | .num f => ops.format f
  | .str s => s
  | .bool b => if b then "true" else "false"
  | .nil => "<nil>"
  | v => ops.sprint v

/-- vm.go 304-318. -/
def toBool (ops : Ops F) : Val F → Bool
  | .num f => !ops.eq f ops.zero
  | .int i => i != 0
  | .str s => s != ""
  | .bool b => b
  | .nil => false
  | _ => true

/-- vm.go 267-275. -/
def addVal (ops : Ops F) (a b : Val F) : Val F :=
  match a, b with
  | .str _, _ => .str (toStr ops a ++ toStr ops b)
  | _, .str _ => .str (toStr ops a ++ toStr ops b)
  | _, _ => .num (ops.add (toNum ops a) (toNum ops b))

/-- vm.go 351-371 (GetElem) on an array and a property which is not nil; `none` is the panic of indexing with a negative number. -/
def getElem (ops : Ops F) (arr : Vals F) (prop : Val F) : Option (Val F) :=
  let p := toNum ops prop
  if ops.isNaN p || ops.lt p ops.zero then some .nil
  else
    let i := ops.toInt p
    if i > (arr.length : Int) - 1 then some .nil
    else if i < 0 then none
    else arr.get? i.toNat

/-- vm.go 320-334. -/
def getProp (ops : Ops F) (obj prop : Val F) : Option (Val F) :=
  match obj, prop with
  | .nil, _ => some .nil
  | _, .nil => some .nil
  | .arr vs, p => getElem ops vs p
  | .obj fs, p => some ((fs.get? (toStr ops p)).getD .nil)
  | _, _ => some .nil

/-- vm.go 161-167, with 336-349: the property, and if it is nil the builtin of that name. -/
def member (ops : Ops F) (obj prop : Val F) : Option (Val F) :=
  (getProp ops obj prop).map fun v =>
    match v with
    | .nil =>
      match obj, prop with
      | .arr _, .nil => .nil
      | .arr vs, p => if toStr ops p = "includes" then .fn vs else .nil
      | _, _ => .nil
    | v => v

/-- The binary operators, as far as vm.go 182-204 or the specification distinguish them. -/
inductive BinOp where
  | eq | eqS | ne | neS | add | sub | mul | div | and | or
  | lt
  | other (n : Nat)
deriving DecidableEq, Repr

/-- The unary operators. -/
inductive UnOp where
  | not
  | neg
  | other (n : Nat)
deriving DecidableEq, Repr

/-- vm.go 182-204: what is pushed for a binary operator, if anything. -/
def binary (ops : Ops F) (op : BinOp) (l r : Val F) : Option (Val F) :=
  match op with
  | .eq | .eqS => some (.bool (deepEqual ops l r))
  | .ne | .neS => some (.bool (!deepEqual ops l r))
  | .add => some (addVal ops l r)
  | .sub => some (.num (ops.sub (toNum ops l) (toNum ops r)))
  | .mul => some (.num (ops.mul (toNum ops l) (toNum ops r)))
  | .div =>
    if ops.eq (toNum ops r) ops.zero then some (.num ops.nan)
    else some (.num (ops.sub (toNum ops l) (toNum ops r)))
  | .and => some (.bool (toBool ops l && toBool ops r))
  | .or => some (.bool (toBool ops l || toBool ops r))
  | .lt => none
  | .other _ => none

/-- vm.go 216-221. -/
def unary (ops : Ops F) (op : UnOp) (v : Val F) : Val F :=
  match op with
  | .not => .bool (!toBool ops v)
  | _ => .bool false

/-- What the listeners read of a node besides its type and children. -/
inductive ENode (F : Type) where
  | none
  | bool (b : Bool)
  | num (f : F)
  | str (s : String)
  | name (s : String)
  | bin (op : BinOp)
  | unary (op : UnOp)

/-- vm.go 71-80: popping an empty stack gives nil. -/
def pop : List (Val F) → Val F × List (Val F)
  | [] => (.nil, [])
  | v :: s => (v, s)

/-- vm.go 126-128, 234-236: popping a number of values, the last one popped being the first element. -/
def popN : Nat → List (Val F) → List (Val F) → List (Val F) × List (Val F)
  | 0, acc, s => (acc, s)
  | n + 1, acc, s => popN n ((pop s).1 :: acc) (pop s).2

def treesLen {α : Type} : Trees α → Nat
  | .nil => 0
  | .cons _ r => treesLen r + 1

/-- The number of nodes in the list slot of a node. -/
def manyLen {α : Type} : Slots α → Nat
  | .nil => 0
  | .one _ _ r => manyLen r
  | .many _ ts _ => treesLen ts

/-- The slots of a node. -/
def childrenOf {α : Type} : Tree α → Slots α
  | .mk _ s => s

/-- The state of the evaluator: its stack, or `none` after a panic. -/
abbrev Stk (F : Type) := Option (List (Val F))

/-- vm.go 82-245: what the listener for a node type does with the stack.  `err` is never set. -/
def step (ops : Ops F) (vars : String → Val F) (v : View (ENode F)) (s : List (Val F)) : Stk F :=
  let t := v.node.info.typ
  if t = N_LIT_BOOL then
    match v.node.info.data with
    | .bool b => some (.bool b :: s)
    | _ => none
  else if t = N_LIT_NULL then some (.nil :: s)
  else if t = N_NAME then
    match v.node.info.data with
    | .name n =>
      match v.vc with
      | _ :: p :: _ =>
        if p.node.info.typ = N_EXPR_MEMBER ∧ v.key = ⟨"Prop", Option.none⟩ then some (.str n :: s)
        else if n = "undefined" then some (.nil :: s)
        else some (vars n :: s)
      | _ => none
    | _ => none
  else if t = N_LIT_ARR then
    let r := popN (manyLen (childrenOf v.node)) [] s
    some (.arr (Vals.ofList r.1) :: r.2)
  else if t = N_LIT_NUM then
    match v.node.info.data with
    | .num f => some (.num f :: s)
    | _ => none
  else if t = N_LIT_STR then
    match v.node.info.data with
    | .str x => some (.str x :: s)
    | _ => none
  else if t = N_EXPR_MEMBER then
    let p := pop s
    let o := pop p.2
    (member ops o.1 p.1).map (· :: o.2)
  else if t = N_EXPR_BIN then
    match v.node.info.data with
    | .bin op =>
      let r := pop s
      let l := pop r.2
      match binary ops op l.1 r.1 with
      | some x => some (x :: l.2)
      | none => some l.2
    | _ => none
  else if t = N_EXPR_UNARY then
    match v.node.info.data with
    | .unary op => some (unary ops op (pop s).1 :: (pop s).2)
    | _ => none
  else if t = N_EXPR_CALL then
    let r := popN (manyLen (childrenOf v.node)) [] s
    let f := pop r.2
    match f.1 with
    | .fn vs => some (.bool (includes ops (r.1.headD .nil) vs) :: f.2)
    | _ => some (.nil :: f.2)
  else some s

/-- The node types with a listener, all of them after the node. -/
def listened : List Nat :=
  [N_LIT_BOOL, N_LIT_NULL, N_NAME, N_LIT_ARR, N_LIT_NUM, N_LIT_STR, N_EXPR_MEMBER, N_EXPR_BIN, N_EXPR_UNARY, N_EXPR_CALL]

/-- A listener; after a panic nothing happens. -/
def handler (ops : Ops F) (vars : String → Val F) : Handler (ENode F) (Stk F) :=
  fun v u => (u.bind (step ops vars v), false)

/-- vm.go 44-56, 82-245: the walk of the evaluator. -/
def env (ops : Ops F) (vars : String → Val F) : Env (ENode F) (Stk F) where
  visitors := visitors
  listeners := fun e => if e ∈ listened.map afterEvent then [handler ops vars] else []

/-- vm.go 247-255 and 263-265 on a new evaluator: the result of executing a node, `none` is a panic. -/
def exec (ops : Ops F) (vars : String → Val F) (t : Tree (ENode F)) : Option (Val F) :=
  (walk (env ops vars) t (some [])).bind fun c => c.user.map fun s => (pop s).1

/-! ## Expressions -/

mutual
/-- Expressions (ecma/parser/ast.go), as far as the evaluator looks at them; `other` is any other node with its
subexpressions. -/
inductive Expr (F : Type) where
  | bool (b : Bool)
  | null
  | num (f : F)
  | str (s : String)
  | name (s : String)
  | arr (es : Exprs F)
  | member (o : Expr F) (p : Expr F) (computed : Bool)
  | bin (op : BinOp) (l r : Expr F)
  | unary (op : UnOp) (e : Expr F)
  | call (f : Expr F) (as : Exprs F)
  | cond (t c a : Expr F)
  | paren (e : Expr F)
  | this
/-- The elements of an array literal, some of them holes, or the arguments of a call. -/
inductive Exprs (F : Type) where
  | nil
  | cons (e : Expr F) (rest : Exprs F)
  | hole (rest : Exprs F)
end

mutual
/-- The nodes of an expression, with the slots of visitor.go. -/
def toTree : Expr F → Tree (ENode F)
  | .bool b => .mk { typ := N_LIT_BOOL, data := .bool b } .nil
  | .null => .mk { typ := N_LIT_NULL, data := .none } .nil
  | .num f => .mk { typ := N_LIT_NUM, data := .num f } .nil
  | .str s => .mk { typ := N_LIT_STR, data := .str s } .nil
  | .name s => .mk { typ := N_NAME, data := .name s } .nil
  | .arr es => .mk { typ := N_LIT_ARR, data := .none } (.many "Elems" (toTrees es) .nil)
  | .member o p _ => .mk { typ := N_EXPR_MEMBER, data := .none } (.one "Obj" (.some (toTree o)) (.one "Prop" (.some (toTree p)) .nil))
  | .bin op l r => .mk { typ := N_EXPR_BIN, data := .bin op } (.one "Lhs" (.some (toTree l)) (.one "Rhs" (.some (toTree r)) .nil))
  | .unary op e => .mk { typ := N_EXPR_UNARY, data := .unary op } (.one "Arg" (.some (toTree e)) .nil)
  | .call f as => .mk { typ := N_EXPR_CALL, data := .none } (.one "Callee" (.some (toTree f)) (.many "Args" (toTrees as) .nil))
  | .cond t c a => .mk { typ := N_EXPR_COND, data := .none }
      (.one "Test" (.some (toTree t)) (.one "Cons" (.some (toTree c)) (.one "Alt" (.some (toTree a)) .nil)))
  | .paren e => .mk { typ := N_EXPR_PAREN, data := .none } (.one "Expr" (.some (toTree e)) .nil)
  | .this => .mk { typ := N_EXPR_THIS, data := .none } .nil
def toTrees : Exprs F → Trees (ENode F)
  | .nil => .nil
  | .cons e r => .cons (.some (toTree e)) (toTrees r)
  | .hole r => .cons .none (toTrees r)
end

/-- The result of executing an expression. -/
def execExpr (ops : Ops F) (vars : String → Val F) (e : Expr F) : Option (Val F) := exec ops vars (toTree e)

end Mole.Exec
