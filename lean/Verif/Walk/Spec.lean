import Verif.Walk.Walker

/-! What a walk should do, said without the walker's state: which listeners are called, in which order and with what. -/

namespace Mole.Walk.Spec

open Mole.Walk

variable {α σ : Type}

/-- Entering and leaving a node. -/
inductive Ev where
  | before
  | after
deriving DecidableEq, Repr

/-! ## Nodes of a tree -/

mutual
/-- All nodes of a tree, a node before its children. -/
def nodes : Tree α → List (Tree α)
  | .mk i slots => .mk i slots :: nodesS slots
def nodesS : Slots α → List (Tree α)
  | .nil => []
  | .one _ o rest => nodesO o ++ nodesS rest
  | .many _ ts rest => nodesL ts ++ nodesS rest
def nodesO : OTree α → List (Tree α)
  | .none => []
  | .some t => nodes t
def nodesL : Trees α → List (Tree α)
  | .nil => []
  | .cons o rest => nodesO o ++ nodesL rest
end

mutual
/-- A node, its first child, the first child of that, and so on. -/
def spine : Tree α → List (Tree α)
  | .mk i slots => .mk i slots :: spineS slots
def spineS : Slots α → List (Tree α)
  | .nil => []
  | .one _ o _ => spineO o
  | .many _ ts _ => spineL ts
def spineO : OTree α → List (Tree α)
  | .none => []
  | .some t => spine t
def spineL : Trees α → List (Tree α)
  | .nil => []
  | .cons o _ => spineO o
end

mutual
/-- A tree as a bracketed list: entering a node, then its children left to right, then leaving it. -/
def brackets : Tree α → List (Ev × Tree α)
  | .mk i slots => (.before, .mk i slots) :: (bracketsS slots ++ [(.after, .mk i slots)])
def bracketsS : Slots α → List (Ev × Tree α)
  | .nil => []
  | .one _ o rest => bracketsO o ++ bracketsS rest
  | .many _ ts rest => bracketsL ts ++ bracketsS rest
def bracketsO : OTree α → List (Ev × Tree α)
  | .none => []
  | .some t => brackets t
def bracketsL : Trees α → List (Ev × Tree α)
  | .nil => []
  | .cons o rest => bracketsO o ++ bracketsL rest
end

/-! ## Scopes -/

/-- Whether a node that may open a scope does: it does unless it says it does not. -/
def opensIf (i : Info α) : Nat := if i.newScope.getD true then 1 else 0

mutual
/-- How many scopes are opened in a tree, given when each node opens one, and `none` for nodes not looked into. -/
def opened (rule : Info α → Option Push) : Tree α → Nat
  | .mk i slots =>
    match rule i with
    | none => 0
    | some .never => openedS rule slots
    | some _ => opensIf i + openedS rule slots
def openedS (rule : Info α → Option Push) : Slots α → Nat
  | .nil => 0
  | .one _ o rest => openedO rule o + openedS rule rest
  | .many _ ts rest => openedL rule ts + openedS rule rest
def openedO (rule : Info α → Option Push) : OTree α → Nat
  | .none => 0
  | .some t => opened rule t
def openedL (rule : Info α → Option Push) : Trees α → Nat
  | .nil => 0
  | .cons o rest => openedO rule o + openedL rule rest
end

/-- When the walker opens a scope at a node. -/
def ruleOf (vis : Nat → Option Row) (i : Info α) : Option Push :=
  match vis i.typ with
  | some ⟨_, _, .inner p, _⟩ => some p
  | _ => none

/-- How many scopes the walker opens. -/
def wOpenedO (env : Env α σ) (o : OTree α) : Nat := openedO (ruleOf env.visitors) o
def wOpenedL (env : Env α σ) (ts : Trees α) : Nat := openedL (ruleOf env.visitors) ts

/-! ## Scope numbers -/

/-- What happens on the way through a tree: being at a node, in a scope, and opening a scope. -/
inductive Item (α : Type) where
  | at (e : Ev) (n : Tree α) (scope : Nat)
  | opens (n : Tree α) (scope : Nat)

mutual
/-- The way through a tree in the scope `sc`, when `seed` is the next scope number and `rule` says when a node
opens a scope: scopes are numbered in the order they are opened, and the number in force is that of the innermost open one. -/
def trace (rule : Info α → Option Push) (sc seed : Nat) : Tree α → List (Item α)
  | .mk i slots =>
    match rule i with
    | none => [.at .before (.mk i slots) sc, .at .after (.mk i slots) sc]
    | some .never => .at .before (.mk i slots) sc :: (traceS rule sc seed slots ++ [.at .after (.mk i slots) sc])
    | some .before =>
      if i.newScope.getD true then
        .opens (.mk i slots) seed :: .at .before (.mk i slots) seed ::
          (traceS rule seed (seed + 1) slots ++ [.at .after (.mk i slots) seed])
      else .at .before (.mk i slots) sc :: (traceS rule sc seed slots ++ [.at .after (.mk i slots) sc])
    | some .afterFirst =>
      .at .before (.mk i slots) sc :: (traceF rule sc seed (.mk i slots) i slots ++ [.at .after (.mk i slots) sc])
def traceS (rule : Info α → Option Push) (sc seed : Nat) : Slots α → List (Item α)
  | .nil => []
  | .one _ o rest => traceO rule sc seed o ++ traceS rule sc (seed + openedO rule o) rest
  | .many _ ts rest => traceL rule sc seed ts ++ traceS rule sc (seed + openedL rule ts) rest
/-- The children of the node `n`, which opens its scope after its first slot. -/
def traceF (rule : Info α → Option Push) (sc seed : Nat) (n : Tree α) (i : Info α) : Slots α → List (Item α)
  | .nil => if i.newScope.getD true then [.opens n seed] else []
  | .one _ o rest =>
    traceO rule sc seed o ++
      (if i.newScope.getD true then
        .opens n (seed + openedO rule o) :: traceS rule (seed + openedO rule o) (seed + openedO rule o + 1) rest
      else traceS rule sc (seed + openedO rule o) rest)
  | .many _ ts rest =>
    traceL rule sc seed ts ++
      (if i.newScope.getD true then
        .opens n (seed + openedL rule ts) :: traceS rule (seed + openedL rule ts) (seed + openedL rule ts + 1) rest
      else traceS rule sc (seed + openedL rule ts) rest)
def traceO (rule : Info α → Option Push) (sc seed : Nat) : OTree α → List (Item α)
  | .none => []
  | .some t => trace rule sc seed t
def traceL (rule : Info α → Option Push) (sc seed : Nat) : Trees α → List (Item α)
  | .nil => []
  | .cons o rest => traceO rule sc seed o ++ traceL rule sc (seed + openedO rule o) rest
end

/-- Where one is, and in which scope. -/
def Item.place : Item α → Option (Ev × Tree α × Nat)
  | .at e n sc => some (e, n, sc)
  | .opens _ _ => none

/-- Which node opens a scope, and its number. -/
def Item.scope : Item α → Option (Tree α × Nat)
  | .at _ _ _ => none
  | .opens n sc => some (n, sc)

/-! ## The calls -/

/-- A call of a listener: the event, which of the event's listeners it is, and what it is given. -/
structure Call (α σ : Type) where
  ev : Ev
  idx : Nat
  h : Handler α σ
  view : View α

def callsFrom (ev : Ev) (v : View α) : Nat → List (Handler α σ) → List (Call α σ)
  | _, [] => []
  | n, h :: hs => ⟨ev, n, h, v⟩ :: callsFrom ev v (n + 1) hs

/-- The calls of the listeners of one event. -/
def callsOf (ev : Ev) (v : View α) (hs : List (Handler α σ)) : List (Call α σ) := callsFrom ev v 0 hs

/-- The path of a child, when paths are wanted: the one of its parent and its key. -/
def pathOf (env : Env α σ) (vcs : List (VC α)) (k : Key) : List Key :=
  match vcs with
  | [] => []
  | v :: _ => if env.path then v.path ++ [k] else []

mutual
/-- The calls due for a tree under the contexts `vcs`, in the scope `sc`, when `seed` is the next scope number. -/
def calls (env : Env α σ) (vcs : List (VC α)) (sc seed : Nat) (k : Key) : Tree α → List (Call α σ)
  | .mk i slots =>
    let up := (⟨.mk i slots, pathOf env vcs k⟩ : VC α) :: vcs
    match env.visitors i.typ with
    | none => []
    | some row =>
      match row.shape with
      | .atom =>
        callsOf .before ⟨.mk i slots, k, up, sc⟩ (env.listeners (beforeEvent row.event)) ++
        callsOf .after ⟨.mk i slots, k, up, sc⟩ (env.listeners (afterEvent row.event))
      | .inner .never =>
        callsOf .before ⟨.mk i slots, k, up, sc⟩ (env.listeners (beforeEvent row.event)) ++
        (callsS env up sc seed slots ++
        callsOf .after ⟨.mk i slots, k, up, sc⟩ (env.listeners (afterEvent row.event)))
      | .inner .before =>
        let own := if i.newScope.getD true then seed else sc
        callsOf .before ⟨.mk i slots, k, up, own⟩ (env.listeners (beforeEvent row.event)) ++
        (callsS env up own (seed + opensIf i) slots ++
        callsOf .after ⟨.mk i slots, k, up, own⟩ (env.listeners (afterEvent row.event)))
      | .inner .afterFirst =>
        callsOf .before ⟨.mk i slots, k, up, sc⟩ (env.listeners (beforeEvent row.event)) ++
        (callsF env up sc seed i slots ++
        callsOf .after ⟨.mk i slots, k, up, sc⟩ (env.listeners (afterEvent row.event)))
def callsS (env : Env α σ) (vcs : List (VC α)) (sc seed : Nat) : Slots α → List (Call α σ)
  | .nil => []
  | .one key o rest =>
    callsO env vcs sc seed ⟨key, none⟩ o ++ callsS env vcs sc (seed + wOpenedO env o) rest
  | .many key ts rest =>
    callsL env vcs sc seed key 0 ts ++ callsS env vcs sc (seed + wOpenedL env ts) rest
/-- The children of a node which opens its scope after its first slot. -/
def callsF (env : Env α σ) (vcs : List (VC α)) (sc seed : Nat) (i : Info α) : Slots α → List (Call α σ)
  | .nil => []
  | .one key o rest =>
    callsO env vcs sc seed ⟨key, none⟩ o ++
      callsS env vcs (if i.newScope.getD true then seed + wOpenedO env o else sc) (seed + wOpenedO env o + opensIf i) rest
  | .many key ts rest =>
    callsL env vcs sc seed key 0 ts ++
      callsS env vcs (if i.newScope.getD true then seed + wOpenedL env ts else sc) (seed + wOpenedL env ts + opensIf i) rest
def callsO (env : Env α σ) (vcs : List (VC α)) (sc seed : Nat) (k : Key) : OTree α → List (Call α σ)
  | .none => []
  | .some t => calls env vcs sc seed k t
def callsL (env : Env α σ) (vcs : List (VC α)) (sc seed : Nat) (key : String) (n : Nat) : Trees α → List (Call α σ)
  | .nil => []
  | .cons o rest =>
    callsO env vcs sc seed ⟨key, some n⟩ o ++ callsL env vcs sc (seed + wOpenedO env o) key (n + 1) rest
end

/-- The state of the listeners after some calls. -/
def runAll (L : List (Call α σ)) (u : σ) : σ := L.foldl (fun u x => (x.h x.view u).1) u

/-- None of the calls, made one after the other, stops the walk. -/
def Quiet : List (Call α σ) → σ → Prop
  | [], _ => True
  | x :: xs, u => (x.h x.view u).2 = false ∧ Quiet xs (x.h x.view u).1

/-- The number of an event of a node type. -/
def eventNo : Ev → Nat → Nat
  | .before, t => beforeEvent t
  | .after, t => afterEvent t

/-- A listener which notes the event it is registered for, the node it is given and the scope. -/
def noter (ev : Nat) : Handler α (List (Nat × Tree α × Nat)) := fun v u => (u ++ [(ev, v.node, v.scope)], false)

/-- The calls still made after the call `x` stopped the walk: always the first listener of an event, and either for
leaving a node `x`'s node is in, or, if `x` was for entering its node, for the first child of that node, the
first child of that, and so on. -/
def Leftover (x y : Call α σ) : Prop :=
  y.idx = 0 ∧ ((y.ev = .after ∧ x.view.node ∈ nodes y.view.node) ∨ (x.ev = .before ∧ y.view.node ∈ spine x.view.node))

end Mole.Walk.Spec
