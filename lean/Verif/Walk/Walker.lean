/-! Model of the syntax tree walker, ecma/walk/ctx.go and the shape of the visitors in ecma/walk/visitor.go. -/

namespace Mole.Walk

/-- What the walker reads of a node besides its children.  `newScope` is the answer of its `NewScope()` method
for the node types which have one (ecma/parser/ast.go 1463, `BlockStmt`); `async` is only read by the
model of the parser's scope numbers; `data` is whatever else the listeners read. -/
structure Info (α : Type) where
  typ : Nat
  newScope : Option Bool := none
  async : Bool := false
  data : α

/-! Nodes (ecma/parser/ast.go), with their children in the order the node's visitor asks for them: a slot is
one possibly absent node, or a list of possibly absent nodes (holes of an array literal). -/
mutual
/-- ecma/parser/ast.go: a node and its child slots. -/
inductive Tree (α : Type) where
  | mk (info : Info α) (slots : Slots α)
/-- The slots a visitor visits, one `VisitNode` or `VisitNodes` each. -/
inductive Slots (α : Type) where
  | nil
  | one (key : String) (o : OTree α) (rest : Slots α)
  | many (key : String) (ts : Trees α) (rest : Slots α)
/-- A possibly nil node. -/
inductive OTree (α : Type) where
  | none
  | some (t : Tree α)
/-- A list of possibly nil nodes. -/
inductive Trees (α : Type) where
  | nil
  | cons (o : OTree α) (rest : Trees α)
end

def Tree.info {α : Type} : Tree α → Info α
  | .mk i _ => i

/-- The name of a child: the slot, and for slots with many nodes the index; the code formats the latter as
"slot[index]" (ctx.go 150). -/
structure Key where
  name : String
  idx : Option Nat := none
deriving DecidableEq, Repr

/-- ctx.go 96-102: a visitor context, without the pointers to the walk and to the parent. -/
structure VC (α : Type) where
  node : Tree α
  path : List Key

/-- What a listener is given: the node, its key and the visitor context, from which it reaches the contexts of
the ancestors (`vc`, innermost first, the first is the node's own) and the current scope number. -/
structure View (α : Type) where
  node : Tree α
  key : Key
  vc : List (VC α)
  scope : Nat

/-- visitor.go 951: a listener, which may change the state of whoever registered it and may call `Stop`.  The
model leaves out listeners which change the tree, the set of listeners or the visitors during the walk. -/
abbrev Handler (α σ : Type) := View α → σ → σ × Bool

/-- When a visitor opens a scope: never, before the before-listeners, or after its first slot
(`VisitFnDec`). -/
inductive Push where
  | never
  | before
  | afterFirst
deriving DecidableEq, Repr

/-- The shapes of the generated visitors: `atom` calls the listeners of both events, `inner` visits the slots in between. -/
inductive Shape where
  | atom
  | inner (p : Push)
deriving DecidableEq, Repr

/-- A child slot of a visitor: its key, and whether it is a list. -/
structure SlotDecl where
  name : String
  many : Bool
deriving DecidableEq, Repr

/-- A visitor: the node type it is registered for, the type under whose events it calls the listeners, its
shape and the slots it visits. -/
structure Row where
  typ : Nat
  event : Nat
  shape : Shape
  slots : List SlotDecl
deriving DecidableEq, Repr

/-- ecma/parser/nodetype.go 172: `N_NODE_DEF_END`. -/
def nodeEnd : Nat := 155

/-- visitor.go 161: `N_BEFORE_AFTER_DEF_BEGIN`. -/
def eventBegin : Nat := nodeEnd

/-- visitor.go 449: `N_BEFORE_AFTER_DEF_END`, the length of the tables of visitors and of listeners. -/
def eventEnd : Nat := eventBegin + nodeEnd * 2

/-- visitor.go 976-978 (NodeBeforeEvent). -/
def beforeEvent (t : Nat) : Nat := eventBegin + (nodeEnd - t) * 2 - 1

/-- visitor.go 980-982 (NodeAfterEvent). -/
def afterEvent (t : Nat) : Nat := eventBegin + (nodeEnd - t) * 2

/-- ctx.go 11-26: the part of the walk context which stays the same during a walk. -/
structure Env (α σ : Type) where
  visitors : Nat → Option Row
  listeners : Nat → List (Handler α σ)
  path : Bool := false
  raise : Bool := false

/-- ctx.go 11-26: the part of the walk context which changes: the chain of visitor contexts (innermost first),
the open scopes (innermost first), the next scope number, whether the walk is stopped, and the state of the
listeners. -/
structure Ctx (α σ : Type) where
  vc : List (VC α)
  ids : List Nat
  seed : Nat
  stop : Bool
  user : σ

/-- ctx.go 28-38 (NewWalkCtx). -/
def newCtx {α σ : Type} (root : Tree α) (u : σ) : Ctx α σ :=
  ⟨[⟨root, []⟩], [0], 1, false, u⟩

section
variable {α σ : Type}

/-- ctx.go 56-65 (PushScope); `none` is a panic. -/
def pushScope (c : Ctx α σ) : Option (Ctx α σ) :=
  match c.vc with
  | [] => none
  | v :: _ => if v.node.info.newScope.getD true then some { c with ids := c.seed :: c.ids, seed := c.seed + 1 } else some c

/-- ctx.go 67-75 (PopScope); `none` is a panic. -/
def popScope (c : Ctx α σ) : Option (Ctx α σ) :=
  match c.vc with
  | [] => none
  | v :: _ =>
    if v.node.info.newScope.getD true then
      match c.ids with
      | [] => none
      | _ :: r => some { c with ids := r }
    else some c

/-- ctx.go 77-83 (PushVisitorCtx); `none` is a panic. -/
def pushVC (env : Env α σ) (n : Tree α) (k : Key) (c : Ctx α σ) : Option (Ctx α σ) :=
  match c.vc with
  | [] => none
  | v :: r => some { c with vc := ⟨n, if env.path then v.path ++ [k] else []⟩ :: v :: r }

/-- ctx.go 85-87 (PopVisitorCtx); `none` is a panic. -/
def popVC (c : Ctx α σ) : Option (Ctx α σ) :=
  match c.vc with
  | [] => none
  | _ :: r => some { c with vc := r }

/-- ctx.go 180-194 (CallListener), the loop. -/
def callAll (hs : List (Handler α σ)) (v : View α) (c : Ctx α σ) : Ctx α σ :=
  match hs with
  | [] => c
  | h :: hs =>
    let r := h v c.user
    let c' : Ctx α σ := { c with user := r.1, stop := c.stop || r.2 }
    if c'.stop then c' else callAll hs v c'

/-- ctx.go 180-194 (CallListener): the listeners of an event, with what they see. -/
def call (env : Env α σ) (ev : Nat) (n : Tree α) (k : Key) (c : Ctx α σ) : Option (Ctx α σ) :=
  match c.ids with
  | [] => none
  | id :: _ => some (callAll (env.listeners ev) ⟨n, k, c.vc, id⟩ c)

mutual
/-- ctx.go 139-146 (VisitNode), 169-178 (CallVisitor), and the visitors of visitor.go by their shape; deferred calls are
written where they run. -/
def visitTree (env : Env α σ) (k : Key) : Tree α → Ctx α σ → Option (Ctx α σ)
  | .mk i slots, c =>
    (pushVC env (.mk i slots) k c).bind fun c =>
    (match env.visitors i.typ with
    | none => if env.raise then none else some c
    | some row =>
      match row.shape with
      | .atom =>
        (call env (beforeEvent row.event) (.mk i slots) k c).bind fun c =>
        call env (afterEvent row.event) (.mk i slots) k c
      | .inner .never =>
        (call env (beforeEvent row.event) (.mk i slots) k c).bind fun c =>
        (visitSlots env slots c).bind fun c =>
        call env (afterEvent row.event) (.mk i slots) k c
      | .inner .before =>
        (pushScope c).bind fun c =>
        (call env (beforeEvent row.event) (.mk i slots) k c).bind fun c =>
        (visitSlots env slots c).bind fun c =>
        (call env (afterEvent row.event) (.mk i slots) k c).bind fun c =>
        popScope c
      | .inner .afterFirst =>
        (call env (beforeEvent row.event) (.mk i slots) k c).bind fun c =>
        (visitFn env slots c).bind fun c =>
        call env (afterEvent row.event) (.mk i slots) k c).bind fun c =>
    popVC c
/-- The slots of a visitor, each followed by the test of the stop flag, e.g. visitor.go 1035-1055. -/
def visitSlots (env : Env α σ) : Slots α → Ctx α σ → Option (Ctx α σ)
  | .nil, c => some c
  | .one key o rest, c =>
    (visitO env ⟨key, none⟩ o c).bind fun c => if c.stop then some c else visitSlots env rest c
  | .many key ts rest, c =>
    (visitTrees env key 0 ts c).bind fun c => if c.stop then some c else visitSlots env rest c
/-- visitor.go 1434-1451 (VisitFnDec): the scope is opened after the first slot. -/
def visitFn (env : Env α σ) : Slots α → Ctx α σ → Option (Ctx α σ)
  | .nil, c => (pushScope c).bind popScope
  | .one key o rest, c =>
    (visitO env ⟨key, none⟩ o c).bind fun c =>
    if c.stop then some c else
      (pushScope c).bind fun c => (visitSlots env rest c).bind popScope
  | .many key ts rest, c =>
    (visitTrees env key 0 ts c).bind fun c =>
    if c.stop then some c else
      (pushScope c).bind fun c => (visitSlots env rest c).bind popScope
/-- ctx.go 140-142: VisitNode does nothing for nil. -/
def visitO (env : Env α σ) (k : Key) : OTree α → Ctx α σ → Option (Ctx α σ)
  | .none, c => some c
  | .some t, c => visitTree env k t c
/-- ctx.go 148-155 (VisitNodes). -/
def visitTrees (env : Env α σ) (key : String) (i : Nat) : Trees α → Ctx α σ → Option (Ctx α σ)
  | .nil, c => some c
  | .cons o rest, c =>
    (visitO env ⟨key, some i⟩ o c).bind fun c => if c.stop then some c else visitTrees env key (i + 1) rest c
end

end

end Mole.Walk
