/-!
# Model of the symbol table

ecma/parser/symtab.go 1-607 and `addLocalBinding`, parser.go:3138-3151.

The open scopes are a list, innermost first, so that `Up` of a scope is the rest of the list; a scope
that has been left is not changed any more.  `Down`, `Node` and `Exports` are left out (`Down` is
never read).  Bit masks whose bits are distinct are sets of flags.  `addr` stands for the pointer.
-/
namespace Mole.Parser.Sym

/-- symtab.go:6-41 `ScopeKind`. -/
inductive Flag where
  | loopDirect | loopIndirect | switch | switchIndirect | strict | strictDir | try_ | tryIndirect
  | catch_ | block | global | interim | func | funcIndirect | arrow | async | generator | paren
  | cls | clsIndirect | clsExtendSuper | clsHasSuper | ctor | lexicalDec | shorthandProp | method
  | notIn | propName | formalParams | abstractCls | tsDeclare | tsModule | tsModuleIndirect
  | tsInterface | tsMayIntrinsic
  deriving DecidableEq, Repr

abbrev Kind := Flag → Bool

/-- symtab.go:45-52 `BindKind`. -/
inductive Bind where
  | none | var | param | let | const | pvtField
  deriving DecidableEq, Repr

/-- symtab.go:56-67 `RefDefType`; all false is `RDT_NONE`. -/
structure Typ where
  fn : Bool := false
  pvt : Bool := false
  cls : Bool := false
  imp : Bool := false
  enum : Bool := false
  constEnum : Bool := false
  itf : Bool := false
  ns : Bool := false
  typ : Bool := false
  deriving DecidableEq, Repr

/-- symtab.go:81-86 `IsPureTyp`. -/
def Typ.isPureTyp (t : Typ) : Bool := t.typ && (!t.cls || !t.enum || !t.constEnum)

/-- symtab.go:88-90 `IsVal`. -/
def Typ.isVal (t : Typ) : Bool := !t.isPureTyp

/-- symtab.go:96-113 `Ref`; `dec` identifies the declaration, `scope` is the number of the scope it
points to (nil until assigned). -/
structure Ref where
  dec : Nat
  bind : Bind
  typ : Typ := {}
  scope : Option Nat := none
  deriving DecidableEq, Repr

/-- symtab.go:123-148 `Scope`. -/
structure Scope where
  addr : Nat
  id : Nat
  kind : Kind
  refs : Nat → Option Ref
  labels : Nat → Option Nat

/-- symtab.go:163-175 `IsKind`, `AddKind`, `EraseKind`. -/
def Scope.addKind (s : Scope) (f : Flag) : Scope := { s with kind := fun g => s.kind g || g == f }
def Scope.eraseKind (s : Scope) (f : Flag) : Scope := { s with kind := fun g => s.kind g && g != f }

/-- A map update. -/
def put {α : Type} (m : Nat → Option α) (k : Nat) (v : α) : Nat → Option α :=
  fun x => if x = k then some v else m x

/-- `IsKind(SPK_FUNC) || IsKind(SPK_GLOBAL)`. -/
def Scope.isFn (s : Scope) : Bool := s.kind .func || s.kind .global

/-- symtab.go:182-191 `UpperFn`. -/
def upperFn : List Scope → Option Scope
  | [] => none
  | s :: up => if s.isFn then some s else upperFn up

/-- `ps.Refs[name] = ref` for `ps` found by `UpperFn`. -/
def putFn (name : Nat) (r : Ref) : List Scope → List Scope
  | [] => []
  | s :: up => if s.isFn then { s with refs := put s.refs name r } :: up else s :: putFn name r up

/-- `s.Refs[name] = ref`. -/
def putCur (name : Nat) (r : Ref) : List Scope → List Scope
  | [] => []
  | s :: up => { s with refs := put s.refs name r } :: up

/-- symtab.go:314-330 `IsCallableClass`. -/
def isCallableClass (a b : Typ) : Bool :=
  if a.fn then b.cls && b.typ else b.fn && (a.cls && a.typ)

/-- symtab.go:389-404 `IsClsAndIft`. -/
def isClsAndItf (a b : Typ) : Bool :=
  if a.cls then b.itf else b.cls && a.itf

/-- symtab.go:281-303 `CheckRefDup` with the helpers 305-450; true if the two may coexist. -/
def checkRefDup (a b : Typ) : Bool :=
  if isCallableClass a b then true
  else if a.fn && a.typ && b.fn && b.typ then true
  else if isClsAndItf a b then true
  else if (a.enum && b.enum) || (a.constEnum && b.constEnum) then true
  else if (a.enum && !b.enum) || (!a.enum && b.enum) then false
  else if a.itf && b.itf then true
  else if a.ns || b.ns then true
  else !(a.typ && b.typ) && !(a.isVal && b.isVal)

/-- A reported error, or a run-time panic. -/
inductive SErr where
  | err | panic
  deriving DecidableEq, Repr

/-- symtab.go:254-258, the test on what the function scope holds: the pointer `Scope` of the old
binding is followed only if the tests before it do not decide; `none` is a nil dereference. -/
def fnClash (dup : Bool) (old : Option Ref) : Option Bool :=
  if !dup then some false else
  match old with
  | none => some false
  | some l =>
    if l.bind = .param then some false
    else if l.bind ≠ .var ∧ l.typ ≠ { fn := true } then some true
    else match l.scope with
      | none => none
      | some i => some (i == 0 && decide (l.typ = { fn := true }))

/-- symtab.go:269-271, the test on what the scope itself holds. -/
def curClash (r : Ref) (old : Option Ref) : Option Bool :=
  match old with
  | none => some false
  | some l =>
    if l.bind ≠ .var ∧ l.bind ≠ .param ∧ l.typ ≠ { fn := true } then
      match l.scope with
      | none => none
      | some i => some (i != 0 || decide (r.bind ≠ .var))
    else some (decide (r.bind ≠ .var))

/-- symtab.go:263-278, after the function scope has been dealt with.  Storing sets `ref.Scope`, also for
the entry of the function scope, which is the same pointer; the early return does not. -/
def addCur (ref : Ref) (name : Nat) (dup : Bool) (old : Option Ref) (s : Scope) (chain : List Scope) :
    Except SErr (List Scope) :=
  let r := { ref with scope := some s.id }
  let stored := putCur name r (if ref.bind = .var then putFn name r chain else chain)
  if !dup then .ok stored else
  match curClash ref old with
  | none => .error .panic
  | some true =>
    if checkRefDup ((old.map Ref.typ).getD {}) ref.typ then
      .ok (if ref.bind = .var then putFn name ref chain else chain)
    else .error .err
  | some false => .ok stored

/-- symtab.go:241-279 `AddLocal` on the first scope of the chain, and parser.go:3138-3151
`addLocalBinding`, which makes `false` an error. -/
def addLocal (chain : List Scope) (ref : Ref) (name : Nat) (dup : Bool) : Except SErr (List Scope) :=
  match chain with
  | [] => .error .panic
  | s :: up =>
    if s.kind .catch_ && (s.refs name).isSome then .error .err
    else if ref.bind = .var then
      match upperFn (s :: up) with
      | none => .error .panic
      | some ps => match fnClash dup (ps.refs name) with
        | none => .error .panic
        | some true =>
          if checkRefDup (((ps.refs name).map Ref.typ).getD {}) ref.typ then .ok (s :: up)
          else .error .err
        | some false => addCur ref name dup (s.refs name) s (s :: up)
    else addCur ref name dup (s.refs name) s (s :: up)

/-- symtab.go:452-462 `BindingOf`. -/
def bindingOf (name : Nat) : List Scope → Option Ref
  | [] => none
  | s :: up => match s.refs name with
    | some r => some r
    | none => bindingOf name up

/-- symtab.go:474-487 `GetLabel`. -/
def getLabel (name : Nat) : List Scope → Option Nat
  | [] => none
  | s :: up => match s.labels name with
    | some l => some l
    | none => if s.kind .func then none else getLabel name up

/-- symtab.go:522-580: the flags of a scope entered under one with flags `c`. -/
def inherit (c : Kind) (fn arrow : Bool) : Kind
  | .func => fn
  | .block => !fn
  | .loopIndirect => !fn && (c .loopDirect || c .loopIndirect)
  | .switchIndirect =>
    !fn && ((c .switch || c .switchIndirect) || (c .try_ || c .tryIndirect))
  | .formalParams => !fn && c .formalParams
  | .generator => !fn && c .generator
  | .async => !fn && c .async
  | .funcIndirect => c .func || c .funcIndirect
  | .clsIndirect => c .cls || c .clsIndirect
  | .clsHasSuper => c .clsHasSuper
  | .strict => c .strict
  | .abstractCls => c .abstractCls
  | .tsDeclare => c .tsDeclare
  | .tsModuleIndirect => c .tsModule || c .tsModuleIndirect
  | .ctor => (!fn || (fn && arrow)) && c .ctor
  | _ => false

/-- symtab.go:489-497 `SymTab`; `table` is the map `Scopes` from numbers to pointers. -/
structure Tab where
  chain : List Scope
  table : Nat → Option Nat
  seed : Nat
  next : Nat

/-- symtab.go:499-509 `NewSymTab` and parser.go:218-219. -/
def Tab.new : Tab :=
  { chain := [{ addr := 0, id := 0, kind := fun f => f == .global, refs := fun _ => none,
                labels := fun _ => none }]
    table := put (fun _ => none) 0 0, seed := 0, next := 1 }

/-- symtab.go:513-590 `EnterScope`; `none` if there is no current scope. -/
def Tab.enter (t : Tab) (fn arrow settled : Bool) : Option Tab :=
  match t.chain with
  | [] => none
  | c :: up =>
    let seed := if settled then t.seed + 1 else t.seed
    let s : Scope :=
      { addr := t.next, id := seed, kind := inherit c.kind fn arrow, refs := fun _ => none,
        labels := if fn then fun _ => none else c.labels }
    some { chain := s :: c :: up, table := put t.table seed t.next, seed, next := t.next + 1 }

/-- symtab.go:592-598 `LeaveScope`; leaving the root dereferences nil. -/
def Tab.leave (t : Tab) : Option Tab :=
  match t.chain with
  | _ :: p :: up => some { t with chain := p :: up, table := put t.table p.id p.addr }
  | _ => none

end Mole.Parser.Sym
