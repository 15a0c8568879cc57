/-!
# Model of the check on overload signatures

ecma/parser/parser.go: `lastTsFnSig` 37, `fnDec` 2687-2701 and 2837-2845, `method` 6320-6349, `nameOfNode` 6399-6426; ecma/parser/ts.go:
`tsIsFnSigValid` 1906-1914, `tsIsFnImplValid` 1916-1927.  TypeScript is switched on.

Simplifications: of a program only the functions and methods are there, in the order of the source, each with those inside its
parameters and its body; everything else (classes, blocks, function expressions, arrow functions) is `other`.  Names and the texts of
strings and numbers are numbers.  The other reasons to refuse a program are left out.
-/
namespace Mole.Parser.Overload

/-- The node a function or method is named by: `name` an identifier (of a function, of a method, or alone between brackets), `pvt` one
with `#`, `lit` a string or a number, `member` a member expression between brackets, `comp` any other expression there. -/
inductive Key where
  | name (n : Nat) | pvt (n : Nat) | lit (n : Nat) | member | comp
  deriving DecidableEq, Repr

/-- What comes next in a list of statements or members, what is inside it, and what is behind it. -/
inductive Prog where
  | nil
  /-- A function declaration with a body; it need have no name behind `export default`. -/
  | fn (id : Option Nat) (inner next : Prog)
  /-- One without; `glued`: the next token is `function`, on another line; `amb`: it is `declare`d. -/
  | fnSig (id : Option Nat) (glued amb : Bool) (inner next : Prog)
  /-- A method with a body. -/
  | meth (key : Key) (inner next : Prog)
  /-- One without; `opt`: with `?`; `abs`: abstract; `amb`: of a class that is `declare`d. -/
  | methSig (key : Key) (opt abs amb : Bool) (inner next : Prog)
  /-- Anything else. -/
  | other (inner next : Prog)
  deriving DecidableEq, Repr

/-- The text of a name. -/
inductive Text where
  | str (n : Nat) | pvt (n : Nat) | empty
  deriving DecidableEq, Repr

/-- parser.go 6399-6426 `nameOfNode`. -/
def nameOfNode : Option Key → Text
  | some (.name n) => .str n
  | some (.lit n) => .str n
  | some (.pvt n) => .pvt n
  | _ => .empty

/-- The node is an identifier, and `val` of it (which has no `#`): the assertion `id.(*Ident)`. -/
def ident : Option Key → Option Nat
  | some (.name n) => some n
  | some (.pvt n) => some n
  | _ => none

/-- `lastTsFnSig`, of which only the name is used. -/
abbrev Sig := Option (Option Key)

inductive Out where
  | ok (s : Sig) | err | panic
  deriving DecidableEq, Repr

/-- ts.go 1906-1914 `tsIsFnSigValid`, called with `fnRef.Id.val` (parser.go 2692): no name is a panic already. -/
def isFnSigValid (s : Sig) (id : Option Nat) : Out :=
  match id with
  | none => .panic
  | some n => match s with
    | none => .ok s
    | some k => match ident k with
      | none => .panic
      | some m => if m = n then .ok s else .err

/-- ts.go 1916-1927 `tsIsFnImplValid`. -/
def isFnImplValid (s : Sig) (id : Option Key) : Out :=
  match s with
  | none => .ok s
  | some k => if nameOfNode k = nameOfNode id then .ok s else if (ident id).isSome then .err else .panic

/-- parser.go 2687-2701, 2837-2845 (fnDec) and 6320-6349 (method), and the lists of statements and members around them. -/
def run (s : Sig) : Prog → Out
  | .nil => .ok s
  | .fn id inner next => match run s inner with
    | .ok s1 => match isFnImplValid s1 (id.map .name) with
      | .ok s2 => run s2 next
      | x => x
    | x => x
  | .fnSig id glued _ inner next => match run s inner with
    | .ok s1 => match if glued then isFnSigValid s1 id else .ok s1 with
      | .ok _ => run (some (id.map .name)) next
      | x => x
    | x => x
  | .meth key inner next => match run s inner with
    | .ok s1 => match isFnImplValid s1 (some key) with
      | .ok s2 => run s2 next
      | x => x
    | x => x
  | .methSig key opt abs _ inner next => match run s inner with
    | .ok s1 =>
      if opt then run s1 next
      else if nameOfNode (some key) = .empty ∧ key ≠ .member then .err
      else if abs then run s1 next
      else run (some (some key)) next
    | x => x
  | .other inner next => match run s inner with
    | .ok s1 => run s1 next
    | x => x

/-- `NewParser`: no signature has been read. -/
def parse (p : Prog) : Out := run none p

end Mole.Parser.Overload
