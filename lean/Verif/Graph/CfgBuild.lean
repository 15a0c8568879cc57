import Verif.Graph.Cfg

/-! # How the graph of a program is built: model of ecma/analysis/ctrlflow.go

Syntax trees, and the handlers called before and after each node.  Every node carries a number that names it.  The stacks of
the analysis are lists, the top first; a handler that finds too little on a stack gives `none` (the code would dereference nil).

Not modelled: `break`, `continue`, `return`, `throw`, labels, `switch`, `try`, `with`, functions, classes, modules, optional
chaining, patterns with defaults, loops without a test or whose test is a literal, holes in arrays and empty statements. -/

namespace Mole.Cfg

/-- The operators that may skip their right operand. -/
inductive LOp
  | and
  | or
  | nul
deriving DecidableEq, Repr

mutual

/-- Expressions, by the way the handlers treat them. -/
inductive Expr
  /-- names, literals other than templates, arrays and objects, `this`, `super` (visitor.go 452-481) -/
  | atom (id : Nat)
  /-- unary operators, `import(…)` -/
  | unary (id : Nat) (e : Expr)
  /-- parentheses, `++`, `--` -/
  | wrap (id : Nat) (e : Expr)
  /-- spread, `yield e`, a chain -/
  | chain (id : Nat) (e : Expr)
  /-- operators that evaluate both operands -/
  | bin (id : Nat) (l r : Expr)
  | logic (id : Nat) (op : LOp) (l r : Expr)
  | cond (id : Nat) (t c a : Expr)
  /-- assignments other than `&&=`, `||=`, `??=`, and properties with a value -/
  | pair (id : Nat) (l r : Expr)
  /-- arrays, objects, sequences, templates -/
  | list (id : Nat) (es : Exprs)
  | call (id : Nat) (f : Expr) (es : Exprs)
  | new (id : Nat) (f : Expr) (es : Exprs)
  | member (id : Nat) (o p : Expr)
inductive Exprs
  | nil
  | cons (e : Expr) (es : Exprs)

end

/-- Declarators: what is declared and the initial value. -/
inductive Decs
  | nil
  | bare (id : Nat) (e : Expr) (ds : Decs)
  | init (id : Nat) (e v : Expr) (ds : Decs)

/-- The first part of a `for`, or the target of a `for … in` or `for … of`. -/
inductive Init
  | none
  | expr (e : Expr)
  | var (id : Nat) (ds : Decs)

mutual

/-- Statements. -/
inductive Stmt
  | expr (id : Nat) (e : Expr)
  | var (id : Nat) (ds : Decs)
  | block (id : Nat) (ss : Stmts)
  | ifThen (id : Nat) (t : Expr) (c : Stmt)
  | ifElse (id : Nat) (t : Expr) (c a : Stmt)
  | while (id : Nat) (t : Expr) (b : Stmt)
  | doWhile (id : Nat) (b : Stmt) (t : Expr)
  | for (id : Nat) (i : Init) (t : Expr) (u : Option Expr) (b : Stmt)
  /-- `for … in` and `for … of` -/
  | each (id : Nat) (i : Init) (e : Expr) (b : Stmt)
inductive Stmts
  | nil
  | cons (s : Stmt) (ss : Stmts)

end

/-- `len(n.Elems())` and the like. -/
def Exprs.length : Exprs → Nat
  | .nil => 0
  | .cons _ es => es.length + 1

namespace Heap

/-- ctrlflow.go 71-75 (newEnter). -/
def enter (h : Heap) (id : Nat) : Heap × Nat := h.newBlk .basic [.enter id]

/-- ctrlflow.go 77-81 (newExit). -/
def exit (h : Heap) (id : Nat) : Heap × Nat := h.newBlk .basic [.exit id]

/-- `link(X, EK_JMP, ft, EK_JMP, ET_NONE, B, LF_NONE)`, then `link(X, EK_SEQ, ET_NONE, EK_SEQ, ET_NONE, B, _)`. -/
def linkBoth (ω : Order) (h : Heap) (X : Nat) (ft : Tag) (B : Nat) (sep : Bool) : Option Heap :=
  (h.link ω X .jmp ft .jmp {} B {}).bind fun h => h.link ω X .seq {} .seq {} B { sep := sep }

/-- ctrlflow.go 321-331, 355-365. -/
def afterUnary (ω : Order) (h : Heap) (id enter expr : Nat) : Option (Heap × Nat) :=
  let x := h.exit id
  (x.1.link ω enter .seq {} .seq {} expr {}).bind fun h =>
  let prev := h.grp enter expr
  (prev.1.link ω prev.2 .seq {} .seq {} x.2 {}).map fun (h : Heap) => h.grp enter x.2

/-- ctrlflow.go 367-375. -/
def afterWrap (ω : Order) (h : Heap) (id enter expr : Nat) : Option (Heap × Nat) :=
  (h.link ω enter .seq {} .seq {} expr {}).bind fun h =>
  let x := h.exit id
  (x.1.linkBoth ω expr {} x.2 false).map fun (h : Heap) => h.grp enter x.2

/-- ctrlflow.go 612-623. -/
def afterChain (ω : Order) (h : Heap) (id enter expr : Nat) : Option (Heap × Nat) :=
  let x := h.exit id
  (x.1.link ω enter .seq {} .seq {} expr {}).bind fun h =>
  let prev := h.grp enter expr
  (prev.1.linkBoth ω prev.2 {} x.2 false).map fun (h : Heap) => h.grp enter x.2

/-- ctrlflow.go 280-319, for an operator that is not logical. -/
def afterBin (ω : Order) (h : Heap) (id enter lhs rhs : Nat) : Option (Heap × Nat) :=
  (h.link ω enter .seq {} .none {} lhs {}).bind fun h =>
  let l := h.grp enter lhs
  (l.1.link ω l.2 .seq {} .seq {} rhs {}).bind fun h =>
  let (h, vn) := h.newGroup (h.blk l.2).ins
  let h := h.setBlk vn { h.blk vn with outs := (h.blk rhs).outs }
  let x := h.exit id
  (x.1.link ω vn .seq {} .seq {} x.2 {}).map fun (h : Heap) => h.grp vn x.2

/-- ctrlflow.go 280-319, for a logical operator; `stmt`: the parent is an expression statement. -/
def afterLogic (ω : Order) (h : Heap) (stmt : Bool) (op : LOp) (id enter lhs rhs : Nat) : Option (Heap × Nat) :=
  (h.link ω enter .seq {} .none {} lhs {}).bind fun h =>
  let l := h.grp enter lhs
  (l.1.newJmpOut ω l.2 (if op = .and then { f := true } else { t := true })).bind fun h =>
  (h.link ω l.2 .seq {} .seq {} rhs {}).bind fun h =>
  (if op = .and then some h else h.link ω l.2 .jmp { f := true } .seq {} rhs {}).bind fun h =>
  let (h, vn) := h.newGroup (h.blk l.2).ins
  let h := h.addOutlets vn (h.emap (h.blk rhs).outs)
  let h := h.addOutlets vn (h.xOut l.2)
  let x := h.exit id
  (if stmt then x.1.link ω vn .jmp { t := true, f := true } .jmp {} x.2 {} else some x.1).bind fun h =>
  (h.link ω vn .seq {} .seq {} x.2 {}).map fun (h : Heap) => h.grp vn x.2

/-- ctrlflow.go 333-353. -/
def afterCond (ω : Order) (h : Heap) (id enter test cons alt : Nat) : Option (Heap × Nat) :=
  let x := h.exit id
  (x.1.newJmpOut ω test { f := true }).bind fun h =>
  (h.link ω enter .seq {} .seq {} test {}).bind fun h =>
  let prev := h.grp enter test
  (prev.1.link ω prev.2 .seq {} .seq {} cons {}).bind fun h =>
  (h.link ω prev.2 .jmp { t := true } .seq {} cons {}).bind fun h =>
  (h.link ω prev.2 .jmp { f := true } .seq {} alt {}).bind fun h =>
  let vn := h.grp prev.2 cons
  let h := vn.1.addOutlets vn.2 (vn.1.xOut alt)
  (h.linkBoth ω vn.2 {} x.2 true).map fun (h : Heap) => h.grp vn.2 x.2

/-- ctrlflow.go 444-454; also 395-424 with a value, where the block for the end is made a step later. -/
def afterPair (ω : Order) (h : Heap) (id enter lhs rhs : Nat) : Option (Heap × Nat) :=
  let x := h.exit id
  (x.1.link ω enter .seq {} .seq {} lhs {}).bind fun h =>
  (h.link ω lhs .seq {} .seq {} rhs {}).bind fun h =>
  (h.linkBoth ω rhs {} x.2 false).map fun (h : Heap) => h.grp enter x.2

/-- ctrlflow.go 111-128 (popExprsAndLink): the loop.  `st` is the stack below the block `tt`. -/
def linkBack (ω : Order) (h : Heap) : Nat → List Nat → Nat → Option (Heap × List Nat × Nat)
  | 0, st, tt => some (h, st, tt)
  | n + 1, th :: st, tt => (h.linkBoth ω th {} tt false).bind fun h => linkBack ω h n st th
  | _ + 1, [], _ => none

/-- ctrlflow.go 111-128 (popExprsAndLink): the rest of the stack, and the first and last block. -/
def popLink (ω : Order) (h : Heap) : Nat → List Nat → Option (Heap × List Nat × Option (Nat × Nat))
  | 0, st => some (h, st, none)
  | n + 1, tail :: st => (linkBack ω h n st tail).map fun r => (r.1, r.2.1, some (r.2.2, tail))
  | _ + 1, [] => none

/-- ctrlflow.go 377-393, 426-442, 536-553, 625-645. -/
def afterList (ω : Order) (h : Heap) (id enter : Nat) (es : Option (Nat × Nat)) : Option (Heap × Nat) :=
  let x := h.exit id
  match es with
  | none => (x.1.link ω enter .seq {} .seq {} x.2 {}).map fun (h : Heap) => h.grp enter x.2
  | some (head, tail) =>
    (x.1.link ω enter .seq {} .seq {} head {}).bind fun h =>
    (h.linkBoth ω tail {} x.2 false).map fun (h : Heap) => h.grp enter x.2

/-- ctrlflow.go 456-482, for a call that is not optional. -/
def afterCall (ω : Order) (h : Heap) (id enter fn : Nat) (es : Option (Nat × Nat)) : Option (Heap × Nat) :=
  let x := h.exit id
  (x.1.link ω enter .seq {} .seq {} fn {}).bind fun h =>
  (match es with
    | none => h.link ω fn .seq {} .seq {} x.2 {}
    | some (head, tail) => (h.link ω fn .seq {} .seq {} head {}).bind fun h => h.linkBoth ω tail {} x.2 false).map fun (h : Heap) =>
  let vn := h.grp enter x.2
  (vn.1.addOutlets vn.2 (vn.1.xJmp fn), vn.2)

/-- ctrlflow.go 484-510. -/
def afterNew (ω : Order) (h : Heap) (id enter fn : Nat) (es : Option (Nat × Nat)) : Option (Heap × Nat) :=
  let x := h.exit id
  (x.1.link ω enter .seq {} .seq {} fn {}).bind fun h =>
  let prev := h.grp enter fn
  (match es with
    | none => prev.1.linkBoth ω prev.2 {} x.2 false
    | some (head, tail) => (prev.1.linkBoth ω prev.2 {} head false).bind fun h => h.linkBoth ω tail {} x.2 false).map fun (h : Heap) =>
  h.grp enter x.2

/-- ctrlflow.go 512-534, for an access that is not optional. -/
def afterMember (ω : Order) (h : Heap) (id enter obj prop : Nat) : Option (Heap × Nat) :=
  let x := h.exit id
  (x.1.link ω enter .seq {} .seq {} obj {}).bind fun h =>
  (h.linkBoth ω obj { t := true, f := true } prop false).bind fun h =>
  (h.linkBoth ω prop { t := true, f := true } x.2 false).map fun (h : Heap) =>
  let vn := h.grp enter x.2
  let h := vn.1.addOutlets vn.2 (vn.1.xJmp obj)
  (h.addOutlets vn.2 (h.xJmp prop), vn.2)

/-- ctrlflow.go 782-793. -/
def afterExprStmt (ω : Order) (h : Heap) (id enter expr : Nat) : Option (Heap × Nat) :=
  (h.link ω enter .seq {} .seq {} expr { join := true }).bind fun h =>
  let prev := h.grp enter expr
  let x := prev.1.exit id
  (x.1.linkBoth ω prev.2 { t := true, f := true } x.2 false).map fun (h : Heap) => h.grp enter x.2

/-- ctrlflow.go 795-818: a declarator; `prev` is the block of the statement it belongs to. -/
def afterDec (ω : Order) (h : Heap) (id enter name : Nat) (init : Option Nat) (prev : Nat) : Option (Heap × Nat) :=
  (h.link ω enter .seq {} .seq {} name {}).bind fun h =>
  let x := h.exit id
  (match init with
    | some v => (x.1.link ω name .seq {} .seq {} v {}).bind fun h => h.linkBoth ω v {} x.2 false
    | none => x.1.link ω name .seq {} .seq {} x.2 {}).bind fun (h : Heap) =>
  let vn := h.grp enter x.2
  (vn.1.link ω prev .seq {} .seq {} vn.2 {}).map fun (h : Heap) => h.grp prev vn.2

/-- ctrlflow.go 820-830, 840-844. -/
def afterBlock (ω : Order) (h : Heap) (id prev : Nat) : Option (Heap × Nat) :=
  let x := h.exit id
  (x.1.link ω prev .seq {} .seq {} x.2 {}).map fun (h : Heap) => h.grp prev x.2

/-- ctrlflow.go 832-838. -/
def afterProg (ω : Order) (h : Heap) (id prev : Nat) : Option (Heap × Nat) :=
  let x := h.exit id
  (x.1.linkBoth ω prev {} x.2 false).map fun (h : Heap) => h.grp prev x.2

/-- ctrlflow.go 846-883. -/
def afterIf (ω : Order) (h : Heap) (id enter test cons : Nat) (alt : Option Nat) : Option (Heap × Nat) :=
  (h.link ω enter .seq {} .none {} test {}).bind fun h =>
  let t := h.grp enter test
  (t.1.newJmpOut ω t.2 { f := true }).bind fun h =>
  (h.link ω t.2 .seq {} .seq {} cons {}).bind fun h =>
  (h.link ω t.2 .jmp { t := true } .seq {} cons {}).bind fun h =>
  (match alt with
    | some a => h.link ω t.2 .jmp { f := true } .seq {} a {}
    | none => some h).bind fun (h : Heap) =>
  let (h, vn) := h.newGroup (h.blk enter).ins
  let h := h.addOutlets vn (h.xJmp t.2)
  let h := h.addOutlets vn (h.xOut cons)
  let h := match alt with
    | some a => h.addOutlets vn (h.xOut a)
    | none => h
  let x := h.exit id
  (x.1.linkBoth ω vn { t := true, f := true } x.2 alt.isSome).map fun (h : Heap) => h.grp vn x.2

/-- ctrlflow.go 972-1008, for a test that is not a literal and a body without `continue`. -/
def afterWhile (ω : Order) (h : Heap) (id enter test body : Nat) : Option (Heap × Nat) :=
  (h.newJmpOut ω test { f := true }).bind fun h =>
  (h.newJmpIn ω test { loop := true }).bind fun h =>
  (h.link ω enter .seq {} .seq {} test {}).bind fun h =>
  (h.link ω test .seq {} .seq {} body {}).bind fun h =>
  (h.link ω test .jmp { t := true } .seq {} body {}).bind fun h =>
  (h.link ω body .jmp { loop := true } .jmp { loop := true } test {}).bind fun h =>
  (h.link ω body .seq {} .seq {} test {}).bind fun h =>
  (h.markLoop ω body).bind fun h =>
  let (h, vn) := h.newGroup (h.blk enter).ins
  let h := h.addOutlets vn (h.xJmp test)
  let h := h.addOutlets vn (h.xOut body)
  let x := h.exit id
  (x.1.linkBoth ω vn {} x.2 false).map fun (h : Heap) => h.grp vn x.2

/-- ctrlflow.go 957-966, 984-987 (also 1039-1044): the group for what hangs after a test and after what it guards. -/
def grpHalf (h : Heap) (enter test body : Nat) : Heap × Nat :=
  let (h, vn) := h.newGroup (h.blk enter).ins
  let h := h.addOutlets vn (h.xJmp test)
  (h.addOutlets vn (h.xOut body), vn)

/-- ctrlflow.go 901-909: from what comes before the loop to its test, by way of the first part if there is one. -/
def linkInit (ω : Order) (h : Heap) (enter : Nat) (init : Option Nat) (test : Nat) : Option Heap :=
  match init with
  | none => h.link ω enter .seq {} .none {} test {}
  | some i => (h.link ω enter .seq {} .none {} i {}).bind fun h => h.link ω i .seq {} .seq {} test {}

/-- ctrlflow.go 910, 920-938: from the test to the body, to the update if there is one, and back. -/
def linkRound (ω : Order) (h : Heap) (test : Nat) (update : Option Nat) (body : Nat) : Option Heap :=
  (h.link ω test .seq {} .seq {} body {}).bind fun h =>
  match update with
  | none => (h.link ω body .seq {} .seq {} test {}).bind fun h => h.markLoop ω body
  | some u =>
    (h.link ω body .seq {} .seq {} u {}).bind fun h =>
    (h.link ω u .seq {} .seq {} test {}).bind fun h =>
    h.markLoop ω u

/-- ctrlflow.go 884-970, for a test that is there and not a literal and a body without `continue`. -/
def afterFor (ω : Order) (h : Heap) (id enter : Nat) (init : Option Nat) (test : Nat) (update : Option Nat) (body : Nat) : Option (Heap × Nat) :=
  (h.newJmpOut ω test { f := true }).bind fun h =>
  (h.newJmpIn ω test { loop := true }).bind fun h =>
  (h.linkInit ω enter init test).bind fun h =>
  (h.linkRound ω test update body).bind fun h =>
  let v := h.grpHalf enter test body
  let x := v.1.exit id
  (x.1.linkBoth ω v.2 {} x.2 false).map fun (h : Heap) => h.grp v.2 x.2

/-- ctrlflow.go 1021-1028: the links between the parts of a `do … while`. -/
def linkDo (ω : Order) (h : Heap) (enter test body : Nat) : Option Heap :=
  (h.newJmpIn ω body { loop := true }).bind fun h =>
  (h.link ω enter .seq {} .none {} body {}).bind fun h =>
  (h.link ω body .seq {} .seq {} test {}).bind fun h =>
  (h.link ω test .seq {} .seq {} body {}).bind fun h =>
  (h.markLoop ω test).bind fun h =>
  (h.link ω test .jmp { t := true } .jmp {} body {}).map fun h =>
  h.markJmpLoop { t := true } (h.emap (h.blk test).outs)

/-- ctrlflow.go 1010-1048, for a test that is not a literal and a body without `continue`. -/
def afterDo (ω : Order) (h : Heap) (id enter test body : Nat) : Option (Heap × Nat) :=
  (h.newJmpOut ω test { f := true }).bind fun h =>
  (h.linkDo ω enter test body).bind fun h =>
  let v := h.grpHalf enter test body
  let x := v.1.exit id
  (x.1.link ω test .jmp {} .jmp {} x.2 {}).bind fun h =>
  (h.link ω v.2 .seq {} .seq {} x.2 {}).map fun (h : Heap) => h.grp v.2 x.2

/-- ctrlflow.go 1050-1072, for a body without `continue`. -/
def afterEach (ω : Order) (h : Heap) (id enter lhs rhs body : Nat) : Option (Heap × Nat) :=
  (h.newJmpIn ω lhs { loop := true }).bind fun h =>
  (h.link ω enter .seq {} .seq {} lhs {}).bind fun h =>
  (h.link ω lhs .seq {} .seq {} rhs {}).bind fun h =>
  (h.newJmpOut ω rhs { f := true }).bind fun h =>
  (h.link ω rhs .seq {} .seq {} body {}).bind fun h =>
  (h.markLoop ω body).bind fun h =>
  (h.link ω body .jmp { loop := true } .jmp { loop := true } lhs {}).bind fun h =>
  let x := h.exit id
  (x.1.link ω rhs .jmp { f := true } .seq {} x.2 {}).map fun (h : Heap) => h.grp enter x.2

end Heap

/-- ctrlflow.go 13-21 (AnalysisCtx), as far as it is used here. -/
structure Ctx where
  heap : Heap
  exprs : List Nat
  stmts : List Nat

namespace Ctx

/-- ctrlflow.go 182-190, 231-245: what is pushed before an expression. -/
def pushExpr (c : Ctx) (nodes : List Node) : Ctx :=
  let b := c.heap.newBlk .basic nodes
  { c with heap := b.1, exprs := b.2 :: c.exprs }

/-- ctrlflow.go 202-230: what is done before a statement.  `branch`: its parent is an `if` or a loop. -/
def pushStmt (ω : Order) (c : Ctx) (branch : Bool) (id : Nat) : Option Ctx :=
  let b := c.heap.enter id
  if branch then some { c with heap := b.1, stmts := b.2 :: c.stmts }
  else
    match c.stmts with
    | prev :: st =>
      (b.1.link ω prev .seq {} .seq {} b.2 {}).map fun h =>
        let g := h.grp prev b.2
        { c with heap := g.1, stmts := g.2 :: st }
    | [] => none

/-- Replaces the expressions on top of the stack by the result of a handler. -/
def expr1 (c : Ctx) (f : Heap → Nat → Nat → Option (Heap × Nat)) : Option Ctx :=
  match c.exprs with
  | a :: e :: st => (f c.heap e a).map fun r => { c with heap := r.1, exprs := r.2 :: st }
  | _ => none

def expr2 (c : Ctx) (f : Heap → Nat → Nat → Nat → Option (Heap × Nat)) : Option Ctx :=
  match c.exprs with
  | b :: a :: e :: st => (f c.heap e a b).map fun r => { c with heap := r.1, exprs := r.2 :: st }
  | _ => none

def expr3 (c : Ctx) (f : Heap → Nat → Nat → Nat → Nat → Option (Heap × Nat)) : Option Ctx :=
  match c.exprs with
  | d :: b :: a :: e :: st => (f c.heap e a b d).map fun r => { c with heap := r.1, exprs := r.2 :: st }
  | _ => none

def exprs0 (ω : Order) (c : Ctx) (n : Nat) (f : Heap → Nat → Option (Nat × Nat) → Option (Heap × Nat)) : Option Ctx :=
  (c.heap.popLink ω n c.exprs).bind fun r =>
  match r.2.1 with
  | e :: st => (f r.1 e r.2.2).map fun r => { c with heap := r.1, exprs := r.2 :: st }
  | _ => none

def exprs1 (ω : Order) (c : Ctx) (n : Nat) (f : Heap → Nat → Nat → Option (Nat × Nat) → Option (Heap × Nat)) : Option Ctx :=
  (c.heap.popLink ω n c.exprs).bind fun r =>
  match r.2.1 with
  | a :: e :: st => (f r.1 e a r.2.2).map fun r => { c with heap := r.1, exprs := r.2 :: st }
  | _ => none

end Ctx

mutual

/-- The visit of an expression (visitor.go, the functions named after each node).  `stmt`: its parent is an expression statement. -/
def Expr.build (ω : Order) : Expr → Bool → Ctx → Option Ctx
  | .atom id, _, c => some (c.pushExpr [.atom id])
  | .unary id e, _, c => (e.build ω false (c.pushExpr [.enter id])).bind fun c => c.expr1 fun h => h.afterUnary ω id
  | .wrap id e, _, c => (e.build ω false (c.pushExpr [.enter id])).bind fun c => c.expr1 fun h => h.afterWrap ω id
  | .chain id e, _, c => (e.build ω false (c.pushExpr [.enter id])).bind fun c => c.expr1 fun h => h.afterChain ω id
  | .bin id l r, _, c =>
    (l.build ω false (c.pushExpr [.enter id])).bind fun c => (r.build ω false c).bind fun c => c.expr2 fun h => h.afterBin ω id
  | .logic id op l r, stmt, c =>
    (l.build ω false (c.pushExpr [.enter id])).bind fun c => (r.build ω false c).bind fun c => c.expr2 fun h => h.afterLogic ω stmt op id
  | .cond id t k a, _, c =>
    (t.build ω false (c.pushExpr [.enter id])).bind fun c => (k.build ω false c).bind fun c => (a.build ω false c).bind fun c =>
      c.expr3 fun h => h.afterCond ω id
  | .pair id l r, _, c =>
    (l.build ω false (c.pushExpr [.enter id])).bind fun c => (r.build ω false c).bind fun c => c.expr2 fun h => h.afterPair ω id
  | .list id es, _, c => (es.build ω (c.pushExpr [.enter id])).bind fun c => c.exprs0 ω es.length fun h => h.afterList ω id
  | .call id f es, _, c =>
    (f.build ω false (c.pushExpr [.enter id])).bind fun c => (es.build ω c).bind fun c => c.exprs1 ω es.length fun h => h.afterCall ω id
  | .new id f es, _, c =>
    (f.build ω false (c.pushExpr [.enter id])).bind fun c => (es.build ω c).bind fun c => c.exprs1 ω es.length fun h => h.afterNew ω id
  | .member id o p, _, c =>
    (o.build ω false (c.pushExpr [.enter id])).bind fun c => (p.build ω false c).bind fun c => c.expr2 fun h => h.afterMember ω id

/-- ctx.go 148-155 (VisitNodes). -/
def Exprs.build (ω : Order) : Exprs → Ctx → Option Ctx
  | .nil, c => some c
  | .cons e es, c => (e.build ω false c).bind (es.build ω)

end

/-- The visit of declarators. -/
def Decs.build (ω : Order) : Decs → Ctx → Option Ctx
  | .nil, c => some c
  | .bare id e ds, c =>
    (e.build ω false (c.pushExpr [.enter id])).bind fun c =>
    match c.exprs, c.stmts with
    | n :: b :: es, prev :: st => (c.heap.afterDec ω id b n none prev).bind fun r => ds.build ω { heap := r.1, exprs := es, stmts := r.2 :: st }
    | _, _ => none
  | .init id e v ds, c =>
    (e.build ω false (c.pushExpr [.enter id])).bind fun c => (v.build ω false c).bind fun c =>
    match c.exprs, c.stmts with
    | i :: n :: b :: es, prev :: st => (c.heap.afterDec ω id b n (some i) prev).bind fun r => ds.build ω { heap := r.1, exprs := es, stmts := r.2 :: st }
    | _, _ => none

/-- Whether there is something. -/
def Init.some : Init → Bool
  | .none => false
  | _ => true

/-- The visit of the first part of a `for`: the block of a declaration is moved to the other stack (ctrlflow.go 820-830). -/
def Init.build (ω : Order) : Init → Ctx → Option Ctx
  | .none, c => Option.some c
  | .expr e, c => e.build ω false c
  | .var id ds, c =>
    (c.pushStmt ω true id).bind fun c => (ds.build ω c).bind fun c =>
    match c.stmts with
    | prev :: st => (c.heap.afterBlock ω id prev).map fun r => { heap := r.1, exprs := r.2 :: c.exprs, stmts := st }
    | _ => Option.none

/-- The visit of an expression that may be missing. -/
def buildOpt (ω : Order) : Option Expr → Ctx → Option Ctx
  | none, c => some c
  | some e, c => e.build ω false c

/-- `popExpr`, if there is something to be popped. -/
def popIf (b : Bool) (es : List Nat) : Option (Option Nat × List Nat) :=
  if b then
    match es with
    | x :: es => some (some x, es)
    | [] => none
  else some (none, es)

mutual

/-- The visit of a statement.  `branch`: its parent is an `if` or a loop. -/
def Stmt.build (ω : Order) : Stmt → Bool → Ctx → Option Ctx
  | .expr id e, branch, c =>
    (c.pushStmt ω branch id).bind fun c => (e.build ω true c).bind fun c =>
    match c.exprs, c.stmts with
    | x :: es, b :: st => (c.heap.afterExprStmt ω id b x).map fun r => { heap := r.1, exprs := es, stmts := r.2 :: st }
    | _, _ => none
  | .var id ds, branch, c =>
    (c.pushStmt ω branch id).bind fun c => (ds.build ω c).bind fun c =>
    match c.stmts with
    | prev :: st => (c.heap.afterBlock ω id prev).map fun r => { c with heap := r.1, stmts := r.2 :: st }
    | _ => none
  | .block id ss, branch, c =>
    (c.pushStmt ω branch id).bind fun c => (ss.build ω c).bind fun c =>
    match c.stmts with
    | prev :: st => (c.heap.afterBlock ω id prev).map fun r => { c with heap := r.1, stmts := r.2 :: st }
    | _ => none
  | .ifThen id t k, branch, c =>
    (c.pushStmt ω branch id).bind fun c => (t.build ω false c).bind fun c => (k.build ω true c).bind fun c =>
    match c.exprs, c.stmts with
    | x :: es, k :: b :: st => (c.heap.afterIf ω id b x k none).map fun r => { heap := r.1, exprs := es, stmts := r.2 :: st }
    | _, _ => none
  | .ifElse id t k a, branch, c =>
    (c.pushStmt ω branch id).bind fun c => (t.build ω false c).bind fun c => (k.build ω true c).bind fun c => (a.build ω true c).bind fun c =>
    match c.exprs, c.stmts with
    | x :: es, a :: k :: b :: st => (c.heap.afterIf ω id b x k (some a)).map fun r => { heap := r.1, exprs := es, stmts := r.2 :: st }
    | _, _ => none
  | .while id t s, branch, c =>
    (c.pushStmt ω branch id).bind fun c => (t.build ω false c).bind fun c => (s.build ω true c).bind fun c =>
    match c.exprs, c.stmts with
    | x :: es, s :: b :: st => (c.heap.afterWhile ω id b x s).map fun r => { heap := r.1, exprs := es, stmts := r.2 :: st }
    | _, _ => none
  | .doWhile id s t, branch, c =>
    (c.pushStmt ω branch id).bind fun c => (s.build ω true c).bind fun c => (t.build ω false c).bind fun c =>
    match c.exprs, c.stmts with
    | x :: es, s :: b :: st => (c.heap.afterDo ω id b x s).map fun r => { heap := r.1, exprs := es, stmts := r.2 :: st }
    | _, _ => none
  | .for id i t u s, branch, c =>
    (c.pushStmt ω branch id).bind fun c => (i.build ω c).bind fun c => (t.build ω false c).bind fun c => (buildOpt ω u c).bind fun c =>
    (s.build ω true c).bind fun c => (popIf u.isSome c.exprs).bind fun p =>
    match p.2, c.stmts with
    | x :: es, s :: b :: st =>
      (popIf i.some es).bind fun q => (c.heap.afterFor ω id b q.1 x p.1 s).map fun r => { heap := r.1, exprs := q.2, stmts := r.2 :: st }
    | _, _ => none
  | .each id i e s, branch, c =>
    (c.pushStmt ω branch id).bind fun c => (i.build ω c).bind fun c => (e.build ω false c).bind fun c => (s.build ω true c).bind fun c =>
    match c.exprs, c.stmts with
    | r :: l :: es, s :: b :: st => (c.heap.afterEach ω id b l r s).map fun r => { heap := r.1, exprs := es, stmts := r.2 :: st }
    | _, _ => none

def Stmts.build (ω : Order) : Stmts → Ctx → Option Ctx
  | .nil, c => some c
  | .cons s ss, c => (s.build ω false c).bind (ss.build ω)

end

/-- The graph under construction before a program is visited: its head (graph.go 637-650, ctrlflow.go 23-35). -/
def Ctx.start : Ctx :=
  let b := Heap.empty.newBlk .start []
  { heap := b.1, exprs := [], stmts := [b.2] }

/-- The head of the graph (graph.go 637-650). -/
def headBlock : Nat := (Heap.empty.newBlk .start []).2

/-- The analysis of a program whose root is named `id`. -/
def analyse (ω : Order) (id : Nat) (ss : Stmts) : Option Heap :=
  (Ctx.start.pushStmt ω false id).bind fun c => (ss.build ω c).bind fun c =>
  match c.stmts with
  | prev :: _ => (c.heap.afterProg ω id prev).map fun r => r.1
  | _ => none

end Mole.Cfg
