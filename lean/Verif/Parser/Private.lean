/-!
# Model of how private names are declared and resolved

ecma/parser/parser.go 25, 247-261, 1184-1288 and 5632-5661, symtab.go 193-202 and 452-462.

A use `o.#x` is recorded with the scope of the class around it; the class may declare the name later, so
the uses are resolved when the program has been read.  Scopes live in a heap here, `up` being the pointer
to the surrounding one, for those left are still looked at.  What does not matter to private names is left
out.  The uses recorded by a TypeScript reading that is given up (`o.#x` in a trial parse) are not modelled.
-/
namespace Mole.Parser.Pvt

/-- symtab.go:124-148 `Scope`: `Up`, `SPK_CLASS` (with a label that tells classes apart), and those keys of
`Refs` that begin with `#`. -/
structure Scope where
  up : Option Nat
  cls : Option Nat
  refs : List Nat
  deriving DecidableEq, Repr

/-- A use of the private name `name`; `scope` is `ref.Scope` (parser.go:5648-5652). -/
structure Use where
  id : Nat
  name : Nat
  scope : Nat
  deriving DecidableEq, Repr

structure St where
  heap : List Scope
  cur : Nat
  dangling : List Use
  deriving DecidableEq, Repr

/-- symtab.go:193-202 `UpperCls`.  The loop ends because `Up` was made earlier; `fuel` counts its rounds. -/
def upperCls (h : List Scope) : (fuel : Nat) → Nat → Option Nat
  | 0, _ => none
  | fuel + 1, i => match h[i]? with
    | none => none
    | some s => if s.cls.isSome then some i else match s.up with
      | none => none
      | some j => upperCls h fuel j

/-- symtab.go:452-462 `BindingOf`: the scope whose `Refs` has the name. -/
def bindingOf (h : List Scope) (name : Nat) : (fuel : Nat) → Nat → Option Nat
  | 0, _ => none
  | fuel + 1, i => match h[i]? with
    | none => none
    | some s => if s.refs.contains name then some i else match s.up with
      | none => none
      | some j => bindingOf h name fuel j

/-- What the parser meets, in the order of the source. -/
inductive Ev where
  /-- `EnterScope`; the label for the body of a class -/
  | enter (cls : Option Nat)
  /-- `LeaveScope` -/
  | leave
  /-- a field or method with a private name has been read -/
  | declare (name : Nat)
  /-- `o.#name` -/
  | use (id name : Nat)
  deriving DecidableEq, Repr

/-- One event; `none` is an error. -/
def step (s : St) : Ev → Option St
  -- symtab.go:522-580 `EnterScope`, parser.go:1145-1146
  | .enter c => some { s with heap := s.heap ++ [⟨some s.cur, c, []⟩], cur := s.heap.length }
  -- symtab.go:582-590 `LeaveScope`
  | .leave => match s.heap[s.cur]? with
    | some ⟨some u, _, _⟩ => some { s with cur := u }
    | _ => none
  -- parser.go:1266-1278: `addLocalBinding(nil, ref, false, name)` on the scope of the class
  | .declare n => match s.heap[s.cur]? with
    | some sc => some { s with heap := s.heap.set s.cur { sc with refs := n :: sc.refs } }
    | none => none
  -- parser.go:5643-5653
  | .use u n => match upperCls s.heap (s.cur + 1) s.cur with
    | none => none
    | some c => some { s with dangling := s.dangling ++ [⟨u, n, c⟩] }

def run (s : St) : List Ev → Option St
  | [] => some s
  | e :: es => match step s e with
    | some s' => run s' es
    | none => none

/-- parser.go:249-256: the class a use is linked to (`RetainBy`), or an error. -/
def resolve (h : List Scope) (u : Use) : Option (Nat × Nat) :=
  match bindingOf h u.name (u.scope + 1) u.scope with
  | some i => match h[i]? with
    | some ⟨_, some c, _⟩ => some (u.id, c)
    | _ => none
  | none => none

/-- parser.go:247-261 `resolvingDanglingPvtRefs`. -/
def resolveAll (h : List Scope) : List Use → Option (List (Nat × Nat))
  | [] => some []
  | u :: us => match resolve h u with
    | some l => match resolveAll h us with
      | some ls => some (l :: ls)
      | none => none
    | none => none

/-- The scope of the program and nothing else. -/
def start : St := ⟨[⟨none, none, []⟩], 0, []⟩

/-- parser.go:212-245: a whole program. -/
def program (es : List Ev) : Option (List (Nat × Nat)) :=
  match run start es with
  | some s => resolveAll s.heap s.dangling
  | none => none

end Mole.Parser.Pvt
