import Verif.Graph.CfgBuild

/-! # What a program does when it runs (C64)

A specification that does not mention graphs.  A run is recorded by the atoms it evaluates, in order.  What an atom evaluates
to, and what an operator computes, is left open: every value is possible.  Only the difference between values that count as
true, as false, or as absent (`null`, `undefined`) matters for what is evaluated next. -/

namespace Mole.Cfg

/-- What matters of a value. -/
inductive Val
  | truthy
  | falsy
  | nullish
deriving DecidableEq, Repr

/-- Whether the left operand's value decides the result of `&&`, `||`, `??`. -/
def LOp.stops : LOp → Val → Prop
  | .and, v => v ≠ .truthy
  | .or, v => v = .truthy
  | .nul, v => v ≠ .nullish

mutual

/-- `e.eval ns v`: evaluating `e` to the end may evaluate the atoms `ns` and give a value like `v`. -/
def Expr.eval : Expr → List Nat → Val → Prop
  | .atom i, ns, _ => ns = [i]
  | .unary _ e, ns, _ => ∃ v, e.eval ns v
  | .wrap _ e, ns, _ => ∃ v, e.eval ns v
  | .chain _ e, ns, _ => ∃ v, e.eval ns v
  | .bin _ l r, ns, _ => ∃ n1 n2, ns = n1 ++ n2 ∧ (∃ v, l.eval n1 v) ∧ ∃ v, r.eval n2 v
  | .logic _ op l r, ns, v => (op.stops v ∧ l.eval ns v) ∨ ∃ n1 n2, ns = n1 ++ n2 ∧ (∃ u, ¬ op.stops u ∧ l.eval n1 u) ∧ r.eval n2 v
  | .cond _ t c a, ns, v => ∃ n1 n2, ns = n1 ++ n2 ∧ ((t.eval n1 .truthy ∧ c.eval n2 v) ∨ ((∃ u, u ≠ .truthy ∧ t.eval n1 u) ∧ a.eval n2 v))
  | .pair _ l r, ns, _ => ∃ n1 n2, ns = n1 ++ n2 ∧ (∃ v, l.eval n1 v) ∧ ∃ v, r.eval n2 v
  | .list _ es, ns, _ => es.eval ns
  | .call _ f es, ns, _ => ∃ n1 n2, ns = n1 ++ n2 ∧ (∃ v, f.eval n1 v) ∧ es.eval n2
  | .new _ f es, ns, _ => ∃ n1 n2, ns = n1 ++ n2 ∧ (∃ v, f.eval n1 v) ∧ es.eval n2
  | .member _ o p, ns, _ => ∃ n1 n2, ns = n1 ++ n2 ∧ (∃ v, o.eval n1 v) ∧ ∃ v, p.eval n2 v

def Exprs.eval : Exprs → List Nat → Prop
  | .nil, ns => ns = []
  | .cons e es, ns => ∃ n1 n2, ns = n1 ++ n2 ∧ (∃ v, e.eval n1 v) ∧ es.eval n2

end

mutual

/-- `e.part ns`: evaluating `e` may have evaluated the atoms `ns` so far. -/
def Expr.part : Expr → List Nat → Prop
  | .atom i, ns => ns = [] ∨ ns = [i]
  | .unary _ e, ns => e.part ns
  | .wrap _ e, ns => e.part ns
  | .chain _ e, ns => e.part ns
  | .bin _ l r, ns => l.part ns ∨ ∃ n1 n2, ns = n1 ++ n2 ∧ (∃ v, l.eval n1 v) ∧ r.part n2
  | .logic _ op l r, ns => l.part ns ∨ ∃ n1 n2, ns = n1 ++ n2 ∧ (∃ u, ¬ op.stops u ∧ l.eval n1 u) ∧ r.part n2
  | .cond _ t c a, ns => t.part ns ∨ ∃ n1 n2, ns = n1 ++ n2 ∧ ((t.eval n1 .truthy ∧ c.part n2) ∨ ((∃ u, u ≠ .truthy ∧ t.eval n1 u) ∧ a.part n2))
  | .pair _ l r, ns => l.part ns ∨ ∃ n1 n2, ns = n1 ++ n2 ∧ (∃ v, l.eval n1 v) ∧ r.part n2
  | .list _ es, ns => es.part ns
  | .call _ f es, ns => f.part ns ∨ ∃ n1 n2, ns = n1 ++ n2 ∧ (∃ v, f.eval n1 v) ∧ es.part n2
  | .new _ f es, ns => f.part ns ∨ ∃ n1 n2, ns = n1 ++ n2 ∧ (∃ v, f.eval n1 v) ∧ es.part n2
  | .member _ o p, ns => o.part ns ∨ ∃ n1 n2, ns = n1 ++ n2 ∧ (∃ v, o.eval n1 v) ∧ p.part n2

def Exprs.part : Exprs → List Nat → Prop
  | .nil, ns => ns = []
  | .cons e es, ns => e.part ns ∨ ∃ n1 n2, ns = n1 ++ n2 ∧ (∃ v, e.eval n1 v) ∧ es.part n2

end

/-- Declarations: the name (or pattern), then the initial value. -/
def Decs.exec : Decs → List Nat → Prop
  | .nil, ns => ns = []
  | .bare _ e ds, ns => ∃ n1 n2, ns = n1 ++ n2 ∧ (∃ v, e.eval n1 v) ∧ ds.exec n2
  | .init _ e i ds, ns => ∃ n1 n2 n3, ns = n1 ++ n2 ++ n3 ∧ (∃ v, e.eval n1 v) ∧ (∃ v, i.eval n2 v) ∧ ds.exec n3

def Decs.part : Decs → List Nat → Prop
  | .nil, ns => ns = []
  | .bare _ e ds, ns => e.part ns ∨ ∃ n1 n2, ns = n1 ++ n2 ∧ (∃ v, e.eval n1 v) ∧ ds.part n2
  | .init _ e i ds, ns => e.part ns ∨ (∃ n1 n2, ns = n1 ++ n2 ∧ (∃ v, e.eval n1 v) ∧ i.part n2) ∨
      ∃ n1 n2 n3, ns = n1 ++ n2 ++ n3 ∧ (∃ v, e.eval n1 v) ∧ (∃ v, i.eval n2 v) ∧ ds.part n3

/-- A loop that ends: as long as the test holds the body is run, then the test again. -/
inductive Loop (test : List Nat → Val → Prop) (body : List Nat → Prop) : List Nat → Prop
  | stop {ns : List Nat} {v : Val} : v ≠ .truthy → test ns v → Loop test body ns
  | again {n1 n2 n3 : List Nat} : test n1 .truthy → body n2 → Loop test body n3 → Loop test body (n1 ++ n2 ++ n3)

/-- A loop so far. -/
inductive LoopPart (test : List Nat → Val → Prop) (body : List Nat → Prop) (testPart bodyPart : List Nat → Prop) : List Nat → Prop
  | test {ns : List Nat} : testPart ns → LoopPart test body testPart bodyPart ns
  | body {n1 n2 : List Nat} : test n1 .truthy → bodyPart n2 → LoopPart test body testPart bodyPart (n1 ++ n2)
  | again {n1 n2 n3 : List Nat} : test n1 .truthy → body n2 → LoopPart test body testPart bodyPart n3 → LoopPart test body testPart bodyPart (n1 ++ n2 ++ n3)

/-- A loop whose body is run before the test. -/
inductive DoLoop (test : List Nat → Val → Prop) (body : List Nat → Prop) : List Nat → Prop
  | stop {n1 n2 : List Nat} {v : Val} : body n1 → v ≠ .truthy → test n2 v → DoLoop test body (n1 ++ n2)
  | again {n1 n2 n3 : List Nat} : body n1 → test n2 .truthy → DoLoop test body n3 → DoLoop test body (n1 ++ n2 ++ n3)

/-- Such a loop so far. -/
inductive DoLoopPart (test : List Nat → Val → Prop) (body : List Nat → Prop) (testPart bodyPart : List Nat → Prop) : List Nat → Prop
  | body {ns : List Nat} : bodyPart ns → DoLoopPart test body testPart bodyPart ns
  | test {n1 n2 : List Nat} : body n1 → testPart n2 → DoLoopPart test body testPart bodyPart (n1 ++ n2)
  | again {n1 n2 n3 : List Nat} : body n1 → test n2 .truthy → DoLoopPart test body testPart bodyPart n3 → DoLoopPart test body testPart bodyPart (n1 ++ n2 ++ n3)

/-- The first part of a `for`. -/
def Init.exec : Init → List Nat → Prop
  | .none, ns => ns = []
  | .expr e, ns => ∃ v, e.eval ns v
  | .var _ ds, ns => ds.exec ns

def Init.part : Init → List Nat → Prop
  | .none, ns => ns = []
  | .expr e, ns => e.part ns
  | .var _ ds, ns => ds.part ns

/-- An expression that may be missing, for its effects. -/
def Opt.exec : Option Expr → List Nat → Prop
  | none, ns => ns = []
  | some e, ns => ∃ v, e.eval ns v

def Opt.part : Option Expr → List Nat → Prop
  | none, ns => ns = []
  | some e, ns => e.part ns

/-- Any number of rounds of `for … in` or `for … of`: the target, then the body. -/
inductive Each (target body : List Nat → Prop) : List Nat → Prop
  | stop : Each target body []
  | again {n1 n2 n3 : List Nat} : target n1 → body n2 → Each target body n3 → Each target body (n1 ++ n2 ++ n3)

/-- Such rounds so far. -/
inductive EachPart (target body targetPart bodyPart : List Nat → Prop) : List Nat → Prop
  | target {ns : List Nat} : targetPart ns → EachPart target body targetPart bodyPart ns
  | body {n1 n2 : List Nat} : target n1 → bodyPart n2 → EachPart target body targetPart bodyPart (n1 ++ n2)
  | again {n1 n2 n3 : List Nat} : target n1 → body n2 → EachPart target body targetPart bodyPart n3 → EachPart target body targetPart bodyPart (n1 ++ n2 ++ n3)

mutual

/-- `s.exec ns`: running `s` to the end may evaluate the atoms `ns`. -/
def Stmt.exec : Stmt → List Nat → Prop
  | .expr _ e, ns => ∃ v, e.eval ns v
  | .var _ ds, ns => ds.exec ns
  | .block _ ss, ns => ss.exec ns
  | .ifThen _ t c, ns => (∃ n1 n2, ns = n1 ++ n2 ∧ t.eval n1 .truthy ∧ c.exec n2) ∨ ∃ u, u ≠ .truthy ∧ t.eval ns u
  | .ifElse _ t c a, ns => ∃ n1 n2, ns = n1 ++ n2 ∧ ((t.eval n1 .truthy ∧ c.exec n2) ∨ ((∃ u, u ≠ .truthy ∧ t.eval n1 u) ∧ a.exec n2))
  | .while _ t b, ns => Loop t.eval (fun ms => b.exec ms) ns
  | .doWhile _ b t, ns => DoLoop t.eval (fun ms => b.exec ms) ns
  | .for _ i t u b, ns => ∃ n1 n2, ns = n1 ++ n2 ∧ i.exec n1 ∧ Loop t.eval (fun ms => ∃ m1 m2, ms = m1 ++ m2 ∧ b.exec m1 ∧ Opt.exec u m2) n2
  | .each _ i e b, ns => ∃ n1 n2, ns = n1 ++ n2 ∧ (∃ v, e.eval n1 v) ∧ Each i.exec (fun ms => b.exec ms) n2

def Stmts.exec : Stmts → List Nat → Prop
  | .nil, ns => ns = []
  | .cons s ss, ns => ∃ n1 n2, ns = n1 ++ n2 ∧ s.exec n1 ∧ ss.exec n2

end

mutual

/-- `s.part ns`: running `s` may have evaluated the atoms `ns` so far. -/
def Stmt.part : Stmt → List Nat → Prop
  | .expr _ e, ns => e.part ns
  | .var _ ds, ns => ds.part ns
  | .block _ ss, ns => ss.part ns
  | .ifThen _ t c, ns => t.part ns ∨ ∃ n1 n2, ns = n1 ++ n2 ∧ t.eval n1 .truthy ∧ c.part n2
  | .ifElse _ t c a, ns => t.part ns ∨ ∃ n1 n2, ns = n1 ++ n2 ∧ ((t.eval n1 .truthy ∧ c.part n2) ∨ ((∃ u, u ≠ .truthy ∧ t.eval n1 u) ∧ a.part n2))
  | .while _ t b, ns => LoopPart t.eval b.exec t.part (fun ms => b.part ms) ns
  | .doWhile _ b t, ns => DoLoopPart t.eval b.exec t.part (fun ms => b.part ms) ns
  | .for _ i t u b, ns => i.part ns ∨ ∃ n1 n2, ns = n1 ++ n2 ∧ i.exec n1 ∧
      LoopPart t.eval (fun ms => ∃ m1 m2, ms = m1 ++ m2 ∧ b.exec m1 ∧ Opt.exec u m2) t.part
        (fun ms => b.part ms ∨ ∃ m1 m2, ms = m1 ++ m2 ∧ b.exec m1 ∧ Opt.part u m2) n2
  | .each _ i e b, ns => e.part ns ∨ ∃ n1 n2, ns = n1 ++ n2 ∧ (∃ v, e.eval n1 v) ∧ EachPart i.exec b.exec i.part (fun ms => b.part ms) n2

def Stmts.part : Stmts → List Nat → Prop
  | .nil, ns => ns = []
  | .cons s ss, ns => s.part ns ∨ ∃ n1 n2, ns = n1 ++ n2 ∧ s.exec n1 ∧ ss.part n2

end

/-! ## The programs meant -/

/-- What an expression is at its top, as far as precedence is concerned. -/
inductive Cls
  | plain
  | log (op : LOp)
deriving DecidableEq, Repr

def Expr.cls : Expr → Cls
  | .logic _ op _ _ => .log op
  | _ => .plain

/-- The operands an operator may have without parentheses: `a && b` may be an operand of `||`, nothing else may be mixed. -/
def LOp.takes : LOp → Cls → Bool
  | _, .plain => true
  | .and, .log .and => true
  | .or, .log .and => true
  | .or, .log .or => true
  | .nul, .log .nul => true
  | _, _ => false

mutual

/-- Trees as the grammar makes them, where an operand that binds less tightly stands in parentheses.  One restriction goes beyond
the grammar: a test is not `a ?? b` (without parentheses). -/
def Expr.ok : Expr → Bool
  | .atom _ => true
  | .unary _ e => e.cls == .plain && e.ok
  | .wrap _ e => e.ok
  | .chain _ e => e.ok
  | .bin _ l r => l.cls == .plain && r.cls == .plain && l.ok && r.ok
  | .logic _ op l r => op.takes l.cls && op.takes r.cls && l.ok && r.ok
  | .cond _ t c a => t.cls != .log .nul && t.ok && c.ok && a.ok
  | .pair _ l r => l.cls == .plain && l.ok && r.ok
  | .list _ es => es.ok
  | .call _ f es => f.cls == .plain && f.ok && es.ok
  | .new _ f es => f.ok && es.ok
  | .member _ o p => o.ok && p.ok

def Exprs.ok : Exprs → Bool
  | .nil => true
  | .cons e es => e.ok && es.ok

end

def Decs.ok : Decs → Bool
  | .nil => true
  | .bare _ e ds => e.cls == .plain && e.ok && ds.ok
  | .init _ e i ds => e.cls == .plain && e.ok && i.ok && ds.ok

/-- An expression that leaves no jump hanging: not `a && b`, `a || b`, `a ?? b` (without parentheses). -/
def Init.ok : Init → Bool
  | .none => true
  | .expr e => e.cls == .plain && e.ok
  | .var _ ds => ds.ok

def Opt.ok : Option Expr → Bool
  | none => true
  | some e => e.cls == .plain && e.ok

mutual

/-- The statements meant.  Two restrictions go beyond the grammar: in the head of a `for` the first and last part are not logical
operations and the test is not `a || b` or `a ?? b` (without parentheses); there is no `for … in` and no `for … of`. -/
def Stmt.ok : Stmt → Bool
  | .expr _ e => e.ok
  | .var _ ds => ds.ok
  | .block _ ss => ss.ok
  | .ifThen _ t c => t.cls != .log .nul && t.ok && c.ok
  | .ifElse _ t c a => t.cls != .log .nul && t.ok && c.ok && a.ok
  | .while _ t b => t.cls != .log .nul && t.ok && b.ok
  | .doWhile _ b t => t.cls != .log .nul && t.ok && b.ok
  | .for _ i t u b => i.ok && t.cls != .log .nul && t.cls != .log .or && t.ok && Opt.ok u && b.ok
  | .each _ _ _ _ => false

def Stmts.ok : Stmts → Bool
  | .nil => true
  | .cons s ss => s.ok && ss.ok

end

end Mole.Cfg
