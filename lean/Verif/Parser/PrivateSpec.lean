import Verif.Parser.Private

/-!
# What private names mean

ECMA-262 15.7.1 `AllPrivateIdentifiersValid` and 15.7.14: a private name is declared by the body of a class,
is known in all of that body (also before its declaration, in computed keys, and in classes inside), but not in
the `extends` clause, and an inner class hides the names of an outer one.
-/
namespace Mole.Parser.Pvt.Spec

mutual
/-- A program as far as private names matter. -/
inductive Item where
  /-- `o.#name` -/
  | use (id name : Nat)
  /-- a function, block or anything else with a scope -/
  | scope (body : Items)
  /-- `class … extends heritage { elems }` -/
  | cls (label : Nat) (heritage : Items) (elems : Elems)
inductive Items where
  | nil
  | cons (i : Item) (is : Items)
/-- A class element: what is in it, and the private name it declares, if any. -/
inductive Elems where
  | nil
  | cons (content : Items) (name : Option Nat) (es : Elems)
end

/-- The private names a class declares. -/
def Elems.names : Elems → List Nat
  | .nil => []
  | .cons _ (some n) es => n :: es.names
  | .cons _ none es => es.names

/-- The classes around, innermost first: label and names. -/
abbrev Env := List (Nat × List Nat)

/-- The innermost class that declares the name. -/
def lookup (n : Nat) (env : Env) : Option Nat := (env.find? fun c => c.2.contains n).map Prod.fst

mutual
/-- Each use with the class it refers to; `none` if one refers to nothing. -/
def links (env : Env) : Item → Option (List (Nat × Nat))
  | .use u n => (lookup n env).map fun c => [(u, c)]
  | .scope b => linksAll env b
  | .cls l h es => do
    let a ← linksAll env h
    let b ← linksElems ((l, es.names) :: env) es
    return a ++ b
def linksAll (env : Env) : Items → Option (List (Nat × Nat))
  | .nil => some []
  | .cons i is => do
    let a ← links env i
    let b ← linksAll env is
    return a ++ b
def linksElems (env : Env) : Elems → Option (List (Nat × Nat))
  | .nil => some []
  | .cons c _ es => do
    let a ← linksAll env c
    let b ← linksElems env es
    return a ++ b
end

mutual
/-- The program as the parser meets it. -/
def events : Item → List Ev
  | .use u n => [.use u n]
  | .scope b => .enter none :: eventsAll b ++ [.leave]
  | .cls l h es => eventsAll h ++ .enter (some l) :: eventsElems es ++ [.leave]
def eventsAll : Items → List Ev
  | .nil => []
  | .cons i is => events i ++ eventsAll is
/-- parser.go:1204-1288: an element is read before its name is declared. -/
def eventsElems : Elems → List Ev
  | .nil => []
  | .cons c none es => eventsAll c ++ eventsElems es
  | .cons c (some n) es => eventsAll c ++ .declare n :: eventsElems es
end

end Mole.Parser.Pvt.Spec
