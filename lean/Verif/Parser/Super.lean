import Verif.Parser.Symtab

/-!
# Model of the checks on `super` and `new.target`

parser.go:5742-5760 (`super`), 4557-4574 (`checkCallee`), 4456-4474 (`new.target`), and what the scopes are where
they are met: parser.go:1122-1163 (classes), 1200-1330 and 1440-1720 (class elements), 2583-2780 (functions and async
arrow functions), 5790-5860 (arrow functions), 5873-5880 (parentheses), 3064-3095 (blocks), 3770-3780 (computed
keys), 6092-6300 (methods).

A program is kept as far as it matters: the uses of `super` and `new.target`, in the order of the source, and what
is around them that has a scope or a flag of its own.  Left out: everything else the parser checks; TypeScript's
namespaces, interfaces and decorators; a call of a function named `async`, whose scope is never left (see C77).
-/
namespace Mole.Parser.Super
open Sym (Kind Flag)

/-- A use: `super.x`, `super[x]`, `super(…)`, `new super(…)`, `new.target`. -/
inductive Use where
  | dot | index | call | construct | target
  deriving DecidableEq, Repr

mutual
/-- A part of a program that is, or contains, uses. -/
inductive Item where
  | use (u : Use)
  /-- `{ … }`, a loop, `switch`, `try`, `catch`, or an expression in parentheses -/
  | scope (b : Items)
  /-- a function that is neither a method nor an arrow function: parameters and body -/
  | fn (b : Items)
  /-- `(params) => body` -/
  | arrow (params body : Items)
  /-- `async (params) => body` -/
  | asyncArrow (params body : Items)
  /-- `[key]: value` in an object -/
  | prop (key value : Items)
  /-- a method in an object: `late` if there is a `get`, `set`, `async` or `*`, the computed key if any, parameters and body -/
  | method (late : Bool) (key body : Items)
  /-- `class { elems }` -/
  | cls (elems : Elems)
  /-- `class extends heritage { elems }` -/
  | derived (heritage : Items) (elems : Elems)
inductive Items where
  | nil
  | cons (i : Item) (is : Items)
/-- The elements of a class. -/
inductive Elems where
  | nil
  /-- the constructor: parameters and body -/
  | ctor (body : Items) (es : Elems)
  /-- any other method, static or not -/
  | method (late : Bool) (key body : Items) (es : Elems)
  /-- `[key] = value` -/
  | field (key value : Items) (es : Elems)
  /-- `static { … }` -/
  | static (b : Items) (es : Elems)
end

/-- symtab.go:167-175 `AddKind`, `EraseKind`. -/
def add (k : Kind) (f : Flag) : Kind := fun g => k g || g == f
def erase (k : Kind) (f : Flag) : Kind := fun g => k g && g != f

/-- symtab.go:513-590 `EnterScope`: the flags of the new scope. -/
def enter (k : Kind) (fn arrow : Bool) : Kind := Sym.inherit k fn arrow

/-- parser.go:5748-5749. -/
def seesSuper (k : Kind) : Bool := (k .cls || k .clsIndirect || k .method) && !k .propName

/-- parser.go:4466-4468. -/
def seesTarget (k : Kind) : Bool :=
  k .cls || k .clsIndirect || (k .arrow && k .funcIndirect) || (!k .arrow && (k .func || k .funcIndirect))

/-- parser.go:5742-5760, 4564-4567 and 4456-4470: is a use accepted in a scope with these flags?  After `super` a `.`
or `(` is required.  The callee of `new` (4478) is not given to `checkCallee`. -/
def Use.check (k : Kind) : Use → Bool
  | .dot => seesSuper k
  | .index => false
  | .call => seesSuper k && k .ctor && k .clsHasSuper
  | .construct => seesSuper k
  | .target => seesTarget k

/-- parser.go:6156-6157: the scope of a method. -/
def methodScope (k : Kind) : Kind := add (enter k true false) .method

/-- parser.go:1146-1156: the scope of a class. -/
def classScope (k : Kind) (ext : Bool) : Kind :=
  let c := add (add (add (enter k true false) .strict) .strictDir) .cls
  if ext then add c .clsHasSuper else c

/-- parser.go:2583-2586: the scope of an async function; it is entered before it is known to be an arrow function. -/
def asyncScope (k : Kind) : Kind := add (enter k true false) .async

mutual
/-- The flags of the current scope after the item; `none` if the parser reports an error. -/
def Item.run (k : Kind) : Item → Option Kind
  | .use u => if u.check k then some k else none
  | .scope b => do
    let _ ← b.run (enter k false false)
    return k
  | .fn b => do
    let _ ← b.run (enter k true false)
    return k
  | .arrow ps b => do
    -- parser.go:5873-5877, 5800, 5828
    let _ ← ps.run (add (enter k false false) .paren)
    let _ ← b.run (add (enter k true true) .arrow)
    return k
  | .asyncArrow ps b => do
    -- parser.go:2608-2610, 2645
    let k₁ ← ps.run (add (asyncScope k) .formalParams)
    let _ ← b.run (add (erase k₁ .formalParams) .arrow)
    return k
  | .prop key v => do
    -- parser.go:3776-3779
    let k₁ ← key.run (add k .propName)
    v.run (erase k₁ .propName)
  | .method late key b =>
    if late then do
      -- parser.go:6156, 6185-6190
      let k₁ ← key.run (add (methodScope k) .propName)
      let _ ← b.run (erase k₁ .propName)
      return k
    else do
      let k₁ ← key.run (add k .propName)
      let _ ← b.run (methodScope (erase k₁ .propName))
      return erase k₁ .propName
  | .cls es => do
    let _ ← es.run (classScope k false)
    return k
  | .derived h es => do
    -- parser.go:1125-1128
    let k₁ ← h.run (add k .clsExtendSuper)
    let k₂ := erase k₁ .clsExtendSuper
    let _ ← es.run (classScope k₂ true)
    return k₂
def Items.run (k : Kind) : Items → Option Kind
  | .nil => some k
  | .cons i is => do
    let k₁ ← i.run k
    is.run k₁
/-- parser.go:1193-1330 `classBody`, in the scope of the class. -/
def Elems.run (k : Kind) : Elems → Option Kind
  | .nil => some k
  | .ctor b es => do
    -- parser.go:6158-6160
    let _ ← b.run (add (methodScope k) .ctor)
    es.run k
  | .method late key b es =>
    if late then do
      let k₁ ← key.run (add (methodScope k) .propName)
      let _ ← b.run (erase k₁ .propName)
      es.run k
    else do
      let k₁ ← key.run (add k .propName)
      let _ ← b.run (methodScope (erase k₁ .propName))
      es.run (erase k₁ .propName)
  | .field key v es => do
    let k₁ ← key.run (add k .propName)
    let k₂ ← v.run (erase k₁ .propName)
    es.run k₂
  | .static b es => do
    -- parser.go:1712-1713
    let _ ← b.run (enter k false false)
    es.run k
end

/-- The scope a program begins in (parser.go:218-219). -/
def root : Kind := fun f => f == .global

/-- Does the parser accept the uses in a program? -/
def accepts (p : Items) : Bool := (p.run root).isSome

end Mole.Parser.Super
