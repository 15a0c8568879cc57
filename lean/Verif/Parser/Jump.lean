import Verif.Parser.SymScope
/-!
# Model of statements that jump: break, continue, return, labels, switch

ecma/parser/parser.go: `withStmt` 1728-1757, `tryStmt` 1772-1862, `retStmt` 1896-1928, `labelStmt`
1940-1972, `brkStmt` 1975-2012, `contStmt` 2015-2051, `switchStmt` 2054-2110, `switchCase` 2112-2145,
`ifStmt` 2148-2194, `doWhileStmt` 2197-2244, `whileStmt` 2247-2289, `forStmt` 2292-2480, `blockStmt`
3064-3095; the scopes of functions (2583) and classes (1146).

The statement is given as a tree, so tokens are not modelled; the parser's decisions about it are.
Loops and labelled statements carry the identity (`n`) of the node the parser allocates.  Expressions are
empty except for the functions and classes in them, which appear as statements of their own.  A missing
`catch` or `finally` is an empty one; both leave the table of open scopes as it was.
-/
namespace Mole.Parser.Sym

mutual
/-- Statements. -/
inductive Stmt where
  | expr
  | ret
  | block (b : Stmts)
  | if1 (c : Stmt)
  | if2 (c a : Stmt)
  | loop (n : Nat) (b : Stmt)
  | with_ (b : Stmt)
  | switch_ (cs : Clauses)
  | try_ (b c f : Stmts)
  | label (l n : Nat) (b : Stmt)
  | brk (l : Option Nat)
  | cont (l : Option Nat)
  | fn (b : Stmts)
  | cls (ms : Members)

inductive Stmts where
  | nil
  | cons (s : Stmt) (r : Stmts)

/-- The clauses of a `switch`; `d` marks `default`. -/
inductive Clauses where
  | nil
  | cons (d : Bool) (b : Stmts) (r : Clauses)

/-- Static blocks and methods. -/
inductive Members where
  | nil
  | static (b : Stmts) (r : Members)
  | method (b : Stmts) (r : Members)
end

/-- What a jump is recorded to go to: the labelled statement, nothing (unlabelled `break`), the loop. -/
inductive Tgt where
  | brk (n : Option Nat)
  | cont (n : Nat)
  deriving DecidableEq, Repr

/-- The parts of `Parser` (parser.go:26-76) used here: the symbol table and `loopStk`. -/
structure JS where
  tab : Tab
  loops : List Nat

/-- The state after, and the targets of the jumps in the order of the source. -/
abbrev Res := Except SErr (JS × List Tgt)

/-- Go on unless there was an error. -/
def seq (r : Res) (k : JS → Res) : Res :=
  match r with
  | .error e => .error e
  | .ok (j, ts) => match k j with
    | .error e => .error e
    | .ok (j', us) => .ok (j', ts ++ us)

/-- `EnterScope(fn, false, true)` and `AddKind`. -/
def enterJ (j : JS) (fn : Bool) (extra : List Flag) : Res :=
  match exec j.tab (.enter fn false true extra) with
  | none => .error .panic
  | some t => .ok ({ j with tab := t }, [])

/-- `LeaveScope`. -/
def leaveJ (j : JS) : Res :=
  match j.tab.leave with
  | none => .error .panic
  | some t => .ok ({ j with tab := t }, [])

/-- parser.go:150-152 `pushLoopStk`. -/
def pushLoop (j : JS) (n : Nat) : JS := { j with loops := n :: j.loops }

/-- parser.go:154-156 `popLoopStk`; slicing an empty stack panics. -/
def popLoop (j : JS) : Res :=
  match j.loops with
  | [] => .error .panic
  | _ :: ls => .ok ({ j with loops := ls }, [])

/-- parser.go:1951-1957: the label is new in this scope's map, and put there. -/
def setLabel (j : JS) (l n : Nat) : Res :=
  match j.tab.chain with
  | [] => .error .panic
  | s :: up =>
    if (s.labels l).isSome then .error .err
    else .ok ({ j with tab := { j.tab with chain := { s with labels := put s.labels l n } :: up } }, [])

/-- parser.go:1970: `scope.uniqueLabels = make(map[string]Node)`. -/
def clearLabels (j : JS) : Res :=
  match j.tab.chain with
  | [] => .error .panic
  | s :: up => .ok ({ j with tab := { j.tab with chain := { s with labels := fun _ => none } :: up } }, [])

/-- parser.go:1975-2012 `brkStmt`. -/
def brkStmt (j : JS) : Option Nat → Res
  | some l => match getLabel l j.tab.chain with
    | none => .error .err
    | some n => .ok (j, [.brk (some n)])
  | none => match j.tab.chain with
    | [] => .error .panic
    | s :: _ =>
      if !s.kind .loopDirect && !s.kind .loopIndirect && !s.kind .switch && !s.kind .switchIndirect then
        .error .err
      else .ok (j, [.brk none])

/-- parser.go:2015-2051 `contStmt`; indexing an empty stack panics. -/
def contStmt (j : JS) : Option Nat → Res
  | some l => match getLabel l j.tab.chain with
    | none => .error .err
    | some n => .ok (j, [.cont n])
  | none => match j.tab.chain with
    | [] => .error .panic
    | s :: _ =>
      if !s.kind .loopDirect && !s.kind .loopIndirect then .error .err
      else match j.loops with
        | [] => .error .panic
        | n :: _ => .ok (j, [.cont n])

/-- parser.go:1896-1928 `retStmt`.  `pushRetsStk` (parser.go:183-187) is not here: it panics in a static block outside of functions (C77). -/
def retStmt (j : JS) : Res :=
  match j.tab.chain with
  | [] => .error .panic
  | s :: _ => if !s.kind .func && !s.kind .funcIndirect then .error .err else .ok (j, [])

mutual
/-- parser.go:336-459 `stmt`. -/
def stm (j : JS) : Stmt → Res
  | .expr => .ok (j, [])
  | .ret => retStmt j
  | .block b => seq (enterJ j false []) fun j => seq (stms j b) leaveJ
  | .if1 c => stm j c
  | .if2 c a => seq (stm j c) fun j => stm j a
  | .loop n b => seq (enterJ (pushLoop j n) false [.loopDirect]) fun j =>
      seq (stm j b) fun j => seq (leaveJ j) popLoop
  | .with_ b => stm j b
  | .switch_ cs => seq (enterJ j false [.switch]) fun j => seq (clauses j false cs) leaveJ
  | .try_ b c f =>
    seq (seq (enterJ j false [.try_]) fun j => seq (stms j b) leaveJ) fun j =>
    seq (seq (enterJ j false [.catch_]) fun j => seq (stms j c) leaveJ) fun j =>
    seq (enterJ j false []) fun j => seq (stms j f) leaveJ
  | .label l n b => seq (setLabel j l n) fun j => seq (stm j b) clearLabels
  | .brk l => brkStmt j l
  | .cont l => contStmt j l
  | .fn b => seq (enterJ j true []) fun j => seq (stms j b) leaveJ
  | .cls ms => seq (enterJ j true [.strict, .cls]) fun j => seq (members j ms) leaveJ

/-- parser.go:2989-3062 `stmts`. -/
def stms (j : JS) : Stmts → Res
  | .nil => .ok (j, [])
  | .cons s r => seq (stm j s) fun j => stms j r

/-- parser.go:2078-2102: the clauses, with `metDefault`. -/
def clauses (j : JS) (met : Bool) : Clauses → Res
  | .nil => .ok (j, [])
  | .cons d b r => if d && met then .error .err else seq (stms j b) fun j => clauses j d r

/-- parser.go:1177-1290 `classBody`: a static block is `blockStmt(true, SPK_NONE)`, a method a function. -/
def members (j : JS) : Members → Res
  | .nil => .ok (j, [])
  | .static b r => seq (seq (enterJ j false []) fun j => seq (stms j b) leaveJ) fun j => members j r
  | .method b r => seq (seq (enterJ j true []) fun j => seq (stms j b) leaveJ) fun j => members j r
end

end Mole.Parser.Sym
