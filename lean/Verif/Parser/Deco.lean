/-!
# Model of the decorators that wait for their class or member

ecma/parser/parser.go: `hangingDecorators` 44, `stmt` 416-422 and 449-455, `classDec` 1077-1084, `classBody` 1195-1233, `field` 1698-1704,
`method` 6355-6361, `stmts` 2993-3050; ecma/parser/ts.go: `newTypInfo` 39-44.  Decorators are switched on.

Simplifications: of a program only the statements, classes, members, decorators and function bodies are there, in the order of the
source.  Decorators one right behind another are one; there is no class and no function in them.  Decorators of parameters, which do
not wait, and those before a statement that is the body of another one without braces are left out, and so are other errors.
-/
namespace Mole.Parser.Deco

/-- A member is a field, a method or a static block. -/
inductive Kind where
  | field | method | static
  deriving DecidableEq, Repr

/-- A list of statements (`deco`, `clsDec`, `stmt`), of members (`deco`, `mem`, `semi`), or of what is inside a statement or member
(`cls`, `blk`). -/
inductive T where
  | nil
  /-- Decorators, and what is behind them. -/
  | deco (d : Nat) (next : T)
  /-- A class declaration, exported or not. -/
  | clsDec (id : Nat) (members next : T)
  /-- Any other statement, `parts` being what is inside. -/
  | stmt (parts next : T)
  | mem (k : Kind) (id : Nat) (parts next : T)
  /-- A `;` between members. -/
  | semi (next : T)
  /-- A class expression. -/
  | cls (id : Nat) (members rest : T)
  /-- A block or the body of a function. -/
  | blk (stmts rest : T)
  deriving DecidableEq, Repr

/-- What has been attached: a class or member, and its decorators. -/
abbrev Log := List (Nat × Nat)

inductive Out where
  | ok (hang : Option Nat) (log : Log) | err | panic
  deriving DecidableEq, Repr

/-- One after another. -/
def Out.then (x : Out) (f : Option Nat → Out) : Out :=
  match x with
  | .ok h l => match f h with
    | .ok h2 l2 => .ok h2 (l ++ l2)
    | y => y
  | y => y

/-- classDec 1078-1084 (and the others): `ti.decorators = p.hangingDecorators; p.hangingDecorators = nil`. -/
def attach (id : Nat) (h : Option Nat) : Out :=
  match h with
  | some d => .ok none [(id, d)]
  | none => .ok none []

/-- field 1698-1704, method 6355-6361, classBody 1218-1233: at the end of a member.  Without TypeScript a field and a static block have
no type information (ts.go 39-44), which the first takes for granted. -/
def attachMem (ts : Bool) (k : Kind) (id : Nat) (h : Option Nat) : Out :=
  match h, k, ts with
  | none, _, _ => .ok none []
  | some _, .field, false => .panic
  | some _, .static, false => .err
  | some d, _, _ => attach id (some d)

/-- parser.go 449-455: at the end of a statement nothing must be waiting. -/
def checkHang (h : Option Nat) : Out :=
  match h with
  | none => .ok none []
  | some _ => .err

/-- parser.go: `stmts` 2990, `stmt` 416-455, `classDec` 1077-1084, `classBody` 1195-1233, `field` 1698-1704, `method` 6355-6361, with the
decorators that wait.  A class takes them at its beginning, a member at its end. -/
def run (ts : Bool) (h : Option Nat) : T → Out
  | .nil => .ok h []
  | .deco d next => run ts (some d) next
  | .clsDec id ms next =>
    (attach id h).then fun _ => (run ts none ms).then fun h1 => (checkHang h1).then fun _ => run ts none next
  | .stmt parts next => (run ts h parts).then fun h1 => (checkHang h1).then fun _ => run ts none next
  | .mem k id parts next => (run ts h parts).then fun h1 => (attachMem ts k id h1).then fun _ => run ts none next
  | .semi next => run ts h next
  | .cls id ms rest => (attach id h).then fun _ => (run ts none ms).then fun h1 => run ts h1 rest
  | .blk ss rest => (run ts h ss).then fun h1 => run ts h1 rest

/-- The program. -/
def parse (ts : Bool) (t : T) : Out := run ts none t

end Mole.Parser.Deco
