import Verif.Parser.SymProps
import Verif.Parser.DeclKindSpec

/-!
# The declarations of TypeScript and the symbol table

What each form of declaration passes to `addLocalBinding`.
-/
namespace Mole.Parser.Sym.Merging

/-- The binding each form declares, in strict code: parser.go:1108-1112 (class), 2563-2573 (function),
3204-3208 (variable), ts.go:1865-1868 (alias), 1982-1985 (interface), 2069-2078 (enum), 2231-2234
(namespace).  An import, parser.go:926-930, is below. -/
def Decl.ref : Decl → Nat → Ref
  | .variable, d => { dec := d, bind := .let }
  | .function, d => { dec := d, bind := .let, typ := { fn := true } }
  | .ambientFunction, d => { dec := d, bind := .let, typ := { fn := true, typ := true } }
  | .class_ _, d => { dec := d, bind := .const, typ := { cls := true, typ := true } }
  | .interface, d => { dec := d, bind := .const, typ := { itf := true, typ := true } }
  | .alias, d => { dec := d, bind := .let, typ := { typ := true } }
  | .enum, d => { dec := d, bind := .const, typ := { typ := true, enum := true } }
  | .constEnum, d => { dec := d, bind := .const, typ := { typ := true, constEnum := true } }
  | .namespace_ _, d => { dec := d, bind := .const, typ := { ns := true, typ := true } }

/-- Declarations of one name one after the other in one scope; the number of a declaration is its
place.  The duplicate check is on (it is off for a namespace in a `.d.ts` file, ts.go:2235). -/
def declareSeq (name : Nat) : List Decl → Nat → List Scope → Except SErr (List Scope)
  | [], _, c => .ok c
  | a :: as, d, c => match addLocal c (a.ref d) name true with
    | .ok c' => declareSeq name as (d + 1) c'
    | .error e => .error e

/-- The scope refuses nothing by itself: it is not that of a catch clause, and the name is new. -/
def Fresh (name : Nat) : List Scope → Prop
  | [] => False
  | s :: _ => s.kind .catch_ = false ∧ s.refs name = none

/-- parser.go:924-935: an import declares its name in the first scope (here: the current one, the
program having no other open scope), and the error is dropped: the condition tests an older variable. -/
def declareImport (name : Nat) (d : Nat) (c : List Scope) : Except SErr (List Scope) :=
  match addLocal c { dec := d, bind := .const, typ := { imp := true } } name true with
  | .ok c' => .ok c'
  | .error .err => .ok c
  | .error .panic => .error .panic

/-- symtab.go:452 `DelLocal`. -/
def delLocal (name : Nat) : List Scope → List Scope
  | [] => []
  | s :: up => { s with refs := fun x => if x = name then none else s.refs x } :: up

/-- parser.go:2563-2577 and 2772-2782: a function without a body (the signature of an overload) is
declared like any function, and its name is then deleted again. -/
def declareOverload (strict : Bool) (name : Nat) (d : Nat) (c : List Scope) : Except SErr (List Scope) :=
  match addLocal c (fnRef strict d) name strict with
  | .ok c' => .ok (delLocal name c')
  | .error e => .error e

end Mole.Parser.Sym.Merging
