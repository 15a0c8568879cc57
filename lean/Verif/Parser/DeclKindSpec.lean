/-!
# Which declarations of one name may stand in one scope, in TypeScript

The rules of the language, from the chapters "Declaration Merging" and "Ambient declarations" of the
TypeScript handbook, without reference to the code.
-/
namespace Mole.Parser.Sym.Merging

/-- The forms of declaration that make a lexical binding. -/
inductive Decl where
  /-- `let`, `const` -/
  | variable
  /-- a function with a body -/
  | function
  /-- `declare function f(): T` -/
  | ambientFunction
  /-- `class A {}`, or `declare class A {}` -/
  | class_ (ambient : Bool)
  /-- `interface A {}` -/
  | interface
  /-- `type A = T` -/
  | alias
  /-- `enum A {}` -/
  | enum
  /-- `const enum A {}` -/
  | constEnum
  /-- `namespace A {}`; `values` if something in it exists at run time -/
  | namespace_ (values : Bool)
  deriving DecidableEq, Repr

/-- The declaration creates something that exists at run time (a const enum can be used like a value). -/
def Decl.isValue : Decl → Bool
  | .variable | .function | .ambientFunction | .class_ _ | .enum | .constEnum => true
  | .interface | .alias => false
  | .namespace_ values => values

/-- The declaration creates a type. -/
def Decl.isType : Decl → Bool
  | .class_ _ | .interface | .alias | .enum | .constEnum => true
  | .variable | .function | .ambientFunction | .namespace_ _ => false

/-- The pairs the language merges into one entity, in one of the two orders. -/
inductive Merged : Decl → Decl → Prop
  | interfaces : Merged .interface .interface
  | classInterface (a) : Merged (.class_ a) .interface
  | overloads : Merged .ambientFunction .ambientFunction
  | enums : Merged .enum .enum
  | constEnums : Merged .constEnum .constEnum
  | namespaces (v w) : Merged (.namespace_ v) (.namespace_ w)
  | namespaceClass (v a) : Merged (.namespace_ v) (.class_ a)
  | namespaceFunction (v) : Merged (.namespace_ v) .function
  | namespaceAmbient (v) : Merged (.namespace_ v) .ambientFunction
  | namespaceEnum (v) : Merged (.namespace_ v) .enum
  | namespaceConstEnum (v) : Merged (.namespace_ v) .constEnum
  | ambientClass : Merged (.class_ true) .function
  | ambientClass' : Merged (.class_ true) .ambientFunction

/-- Two declarations of one name may stand in one scope: they have nothing in common, or merge. -/
def Compatible (a b : Decl) : Prop :=
  ((a.isValue && b.isValue) = false ∧ (a.isType && b.isType) = false) ∨ Merged a b ∨ Merged b a

end Mole.Parser.Sym.Merging
