import Verif.Parser.Jump
/-!
# C24, C27, C58: where jumps have a target

ECMA-262, 14.8.1, 14.9.1, 14.10, 14.12.1, 14.13.1 and 15.7.1.  A statement is judged in its context: the
labels, loops and switches around it in the same function.
-/
namespace Mole.Parser.Sym.Spec

/-- What is around a statement in its function (or static block). -/
structure Ctx where
  /-- Labels in force: name, labelled statement, whether that is a loop. -/
  labels : List (Nat × Nat × Bool) := []
  /-- Loops around, innermost first. -/
  loops : List Nat := []
  /-- In a loop or switch. -/
  brk : Bool := false
  /-- In a function. -/
  fn : Bool := false

def Ctx.lookup (c : Ctx) (l : Nat) : Option (Nat × Bool) := c.labels.lookup l

/-- A loop, perhaps under further labels. -/
def iter : Stmt → Bool
  | .loop .. => true
  | .label _ _ b => iter b
  | _ => false

def both (a b : Option (List Tgt)) : Option (List Tgt) :=
  match a, b with
  | some x, some y => some (x ++ y)
  | _, _ => none

/-- The number of default clauses. -/
def defaults : Clauses → Nat
  | .nil => 0
  | .cons d _ r => (if d then 1 else 0) + defaults r

mutual
/-- The targets of the jumps in a valid statement, in order; `none` if it is not valid. -/
def valid (c : Ctx) : Stmt → Option (List Tgt)
  | .expr => some []
  | .ret => if c.fn then some [] else none
  | .block b => valids c b
  | .if1 s => valid c s
  | .if2 s a => both (valid c s) (valid c a)
  | .loop n b => valid { c with loops := n :: c.loops, brk := true } b
  | .with_ b => valid c b
  | .switch_ cs => if defaults cs ≤ 1 then validc { c with brk := true } cs else none
  | .try_ b h f => both (valids c b) (both (valids c h) (valids c f))
  | .label l n b =>
    match c.lookup l with
    | some _ => none
    | none => valid { c with labels := (l, n, iter b) :: c.labels } b
  | .brk none => if c.brk then some [.brk none] else none
  | .brk (some l) => (c.lookup l).map fun t => [.brk (some t.1)]
  | .cont none => c.loops.head?.map fun n => [.cont n]
  | .cont (some l) =>
    match c.lookup l with
    | some (n, true) => some [.cont n]
    | _ => none
  | .fn b => valids { fn := true } b
  | .cls ms => validm ms

def valids (c : Ctx) : Stmts → Option (List Tgt)
  | .nil => some []
  | .cons s r => both (valid c s) (valids c r)

def validc (c : Ctx) : Clauses → Option (List Tgt)
  | .nil => some []
  | .cons _ b r => both (valids c b) (validc c r)

def validm : Members → Option (List Tgt)
  | .nil => some []
  | .static b r => both (valids {} b) (validm r)
  | .method b r => both (valids { fn := true } b) (validm r)
end

/-- A label stands in the statement outside any block, loop body, switch or function of it. -/
def bare : Stmt → Bool
  | .label .. => true
  | .if1 s => bare s
  | .if2 s a => bare s || bare a
  | .with_ b => bare b
  | _ => false

mutual
/-- No `if` with an `else` has a bare label in its first branch. -/
def tidy : Stmt → Bool
  | .if2 s a => !bare s && tidy s && tidy a
  | .block b | .fn b => tidys b
  | .if1 s | .loop _ s | .with_ s | .label _ _ s => tidy s
  | .switch_ cs => tidyc cs
  | .try_ b c f => tidys b && tidys c && tidys f
  | .cls ms => tidym ms
  | _ => true

def tidys : Stmts → Bool
  | .nil => true
  | .cons s r => tidy s && tidys r

def tidyc : Clauses → Bool
  | .nil => true
  | .cons _ b r => tidys b && tidyc r

def tidym : Members → Bool
  | .nil => true
  | .static b r | .method b r => tidys b && tidym r
end

mutual
/-- None of the four things the parser lets pass: an unlabelled `break` that is inside a `try` block but
in no loop or switch, a `continue` to the label of something that is not a loop, a `return` in a static block
and in no function, a label or a `default` given twice.  `t`: inside a `try` block; `st`: inside a class. -/
def fair (c : Ctx) (t st : Bool) : Stmt → Bool
  | .expr => true
  | .ret => !st || c.fn
  | .block b => fairs c t st b
  | .if1 s => fair c t st s
  | .if2 s a => fair c t st s && fair c t st a
  | .loop n b => fair { c with loops := n :: c.loops, brk := true } t st b
  | .with_ b => fair c t st b
  | .switch_ cs => decide (defaults cs ≤ 1) && fairc { c with brk := true } t st cs
  | .try_ b h f => fairs c true st b && fairs c t st h && fairs c t st f
  | .label l n b => (c.lookup l).isNone && fair { c with labels := (l, n, iter b) :: c.labels } t st b
  | .brk none => !t || c.brk
  | .cont (some l) =>
    match c.lookup l with
    | some (_, false) => false
    | _ => true
  | .brk (some _) | .cont none => true
  | .fn b => fairs { fn := true } false st b
  | .cls ms => fairm ms

def fairs (c : Ctx) (t st : Bool) : Stmts → Bool
  | .nil => true
  | .cons s r => fair c t st s && fairs c t st r

def fairc (c : Ctx) (t st : Bool) : Clauses → Bool
  | .nil => true
  | .cons _ b r => fairs c t st b && fairc c t st r

def fairm : Members → Bool
  | .nil => true
  | .static b r => fairs {} false true b && fairm r
  | .method b r => fairs { fn := true } false true b && fairm r
end

end Mole.Parser.Sym.Spec
