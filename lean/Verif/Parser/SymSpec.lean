/-!
# Specification of declarations and scopes

ECMA-262 8.2 (lexically and var declared names, early errors of blocks and function bodies) and 9.1
(environments), for `var`, `let`, `const` and parameters.
-/
namespace Mole.Parser.Sym.Spec

/-- What a declaration is. -/
inductive Decl where
  | var | let | const | param
  deriving DecidableEq, Repr

/-- An event in the text: a function or block begins, it ends, a name is declared; `d` tells the
declarations of a text apart. -/
inductive Ev where
  | enter (fn : Bool)
  | leave
  | decl (k : Decl) (x d : Nat)
  deriving Repr

/-- An open function or block: the names declared lexically in it, and those declared by `var` in it or in a
block inside (and its parameters), each with its declaration. -/
structure Frame where
  fn : Bool
  lex : List (Nat × Nat) := []
  vars : List (Nat × Nat) := []
  deriving Repr

/-- The name is declared in the list. -/
def named (x : Nat) (l : List (Nat × Nat)) : Prop := ∃ d, (x, d) ∈ l

instance (x : Nat) (l : List (Nat × Nat)) : Decidable (named x l) :=
  decidable_of_iff (x ∈ l.map Prod.fst) (by simp [named])

/-- The declarations of the name in the list. -/
def decs (x : Nat) (l : List (Nat × Nat)) : List Nat := (l.filter (fun p => p.1 == x)).map Prod.snd

/-- A `var` belongs to its function and to every block on the way; none of them may declare the name
lexically. -/
def hoist (x d : Nat) : List Frame → Option (List Frame)
  | [] => none
  | f :: fs =>
    if named x f.lex then none
    else if f.fn then some ({ f with vars := (x, d) :: f.vars } :: fs)
    else match hoist x d fs with
      | none => none
      | some fs' => some ({ f with vars := (x, d) :: f.vars } :: fs')

/-- A declaration; `none` if the language forbids it. -/
def declare (k : Decl) (x d : Nat) (fs : List Frame) : Option (List Frame) :=
  match k, fs with
  | .var, fs => hoist x d fs
  | .param, f :: fs =>
    if f.fn ∧ ¬ named x f.lex then some ({ f with vars := (x, d) :: f.vars } :: fs) else none
  | _, f :: fs =>
    if named x f.lex ∨ named x f.vars then none
    else some ({ f with lex := (x, d) :: f.lex } :: fs)
  | _, [] => none

def step (fs : List Frame) : Ev → Option (List Frame)
  | .enter fn => some ({ fn } :: fs)
  | .leave => match fs with
    | _ :: f :: fs => some (f :: fs)
    | _ => none
  | .decl k x d => declare k x d fs

/-- The open frames after a text without forbidden declaration. -/
def run : List Frame → List Ev → Option (List Frame)
  | fs, [] => some fs
  | fs, e :: es => match step fs e with
    | none => none
    | some fs' => run fs' es

/-- The declarations of the variable a name denotes: those of the innermost function or block that has it. -/
def resolve (x : Nat) : List Frame → Option (List Nat)
  | [] => none
  | f :: fs =>
    if named x f.lex then some (decs x f.lex)
    else if f.fn ∧ named x f.vars then some (decs x f.vars)
    else resolve x fs

/-- Every `var` stands in its function or in a block directly in it, and parameters at the beginning of
a function. -/
def Proper : List Frame → List Ev → Prop
  | _, [] => True
  | fs, e :: es =>
    (∀ x d, e = .decl .var x d → ∃ f g, fs = f :: g ∧ (f.fn = true ∨ ∃ h k, g = h :: k ∧ h.fn = true)) ∧
    (∀ x d, e = .decl .param x d → ∃ f g, fs = f :: g ∧ f.fn = true ∧ f.lex = []) ∧
    ∀ fs', step fs e = some fs' → Proper fs' es

/-- The top level of a program. -/
def top : List Frame := [{ fn := true }]

end Mole.Parser.Sym.Spec
