import Verif.Walk.ScopeNum

/-! C47, C48, C49 and C59: what a walk calls, what stopping does, the scope numbers, and the events. -/

namespace Mole.Walk

open Spec

variable {α σ : Type}

/-! ## Events (C59) -/

/-- **C59, events**.  The events of the node types are different from each other and from the node types, and are places in
the tables of visitors and listeners: a listener added for an event of one type is not called for another. -/
theorem events_distinct (t t' : Nat) (h : 0 < t ∧ t < N_NODE_DEF_END) (h' : 0 < t' ∧ t' < N_NODE_DEF_END) :
    (beforeEvent t = beforeEvent t' → t = t') ∧ (afterEvent t = afterEvent t' → t = t') ∧ beforeEvent t ≠ afterEvent t' ∧
    N_NODE_DEF_END < beforeEvent t ∧ beforeEvent t < eventEnd ∧ afterEvent t < eventEnd := by
  simp only [beforeEvent, afterEvent, eventBegin, eventEnd, nodeEnd, N_NODE_DEF_END] at *
  refine ⟨by omega, by omega, by omega, by omega, by omega, by omega⟩

example : 0 < N_STMT_FN ∧ N_STMT_FN < N_NODE_DEF_END := by decide

set_option maxRecDepth 100000 in
/-- **C59 is violated**: no visitor calls the listeners of function and class declarations: the ones of function and class
expressions are called instead, so that a listener for the declarations is never called. -/
theorem declaration_events_violated :
    (∀ r ∈ rows, r.event ≠ N_STMT_FN ∧ r.event ≠ N_STMT_CLASS) ∧
    (visitors N_STMT_FN).map Row.event = some N_EXPR_FN ∧ (visitors N_STMT_CLASS).map Row.event = some N_EXPR_CLASS := by
  decide

set_option maxRecDepth 100000 in
/-- **C59 is violated**: `AddAtomListener` (visitor.go 1004-1008) adds to the node types themselves, which are the
numbers of no event: the listener is never called. -/
theorem atom_events_violated : ∀ r ∈ rows, ∀ t < nodeEnd, beforeEvent r.event ≠ t ∧ afterEvent r.event ≠ t := by
  intro r hr t ht
  have : ∀ r ∈ rows, 0 < r.event ∧ r.event < nodeEnd := by decide
  have h := this r hr
  simp only [beforeEvent, afterEvent, eventBegin, nodeEnd] at *
  omega

/-! ## Every node once (C47) -/

/-- The walk of a tree from a new context (ecma/walk/ctx.go 28, 139). -/
def walk (env : Env α σ) (t : Tree α) (u : σ) : Option (Ctx α σ) := visitTree env ⟨"", none⟩ t (newCtx t u)

/-- **C47, all calls** (partial: what is due for a node is what its visitor is registered for, see
`empty_stmt_violated`, `declaration_events_violated`).  A walk whose listeners do not stop it makes exactly the calls due:
the listeners of a node's before event, what is due for its children from left to right, and the listeners of
its after event, each given the node, its key, the chain of its ancestors with their paths, and the scope.  Afterwards
the context is as it was. -/
theorem walk_calls_partial (env : Env α σ) (hr : env.raise = false)
    (hq : ∀ e, ∀ h ∈ env.listeners e, ∀ v u, (h v u).2 = false) (t : Tree α) (u : σ) :
    ∃ c, walk env t u = some c ∧ c.vc = [⟨t, []⟩] ∧ c.ids = [0] ∧ c.stop = false ∧
      c.user = runAll (calls env [⟨t, []⟩] 0 1 ⟨"", none⟩ t) u := by
  obtain ⟨c, h1, h2, h3, h4⟩ := ok_tree env hr t ⟨"", none⟩ (newCtx t u) 0 [] (by simp [newCtx]) rfl rfl
  have hnever : ∀ x ∈ calls env [⟨t, []⟩] 0 1 ⟨"", none⟩ t, ∀ v u, (x.h v u).2 = false := by
    intro x hx
    obtain ⟨e, he⟩ := calls_listener env t _ _ _ _ x hx
    exact hq e _ he
  rcases h4 with ⟨a1, a2, a3, a4⟩ | ⟨a1, pre, x, post, extra, b1, b2, b3, b4⟩
  · exact ⟨c, h1, h2, h3, a1, a4⟩
  · have hx : x ∈ calls env (newCtx t u).vc 0 (newCtx t u).seed ⟨"", none⟩ t := by rw [b1]; simp
    have := hnever x hx x.view (runAll pre (newCtx t u).user)
    rw [this] at b3
    cases b3

/-- **C47, each node** (partial: for trees all of whose nodes have a visitor which calls the listeners of the node's own
type).  With a noting listener on every event, the notes of a walk are the bracketed tree: entering a node comes
before, and leaving it after, what is noted of its children from left to right, and nothing else is noted. -/
theorem walk_visits_partial (env : Env α (List (Nat × Tree α × Nat))) (hr : env.raise = false)
    (hl : ∀ e, env.listeners e = [noter e]) (t : Tree α) (ha : Announced env.visitors (nodes t)) :
    ∃ c, walk env t [] = some c ∧ c.vc = [⟨t, []⟩] ∧ c.ids = [0] ∧
      c.user.map (fun x => (x.1, x.2.1)) = (brackets t).map (fun x => (eventNo x.1 x.2.info.typ, x.2)) := by
  obtain ⟨c, h1, h2, h3, h4, h5⟩ := walk_calls_partial env hr (by intro e h hh; simp [hl] at hh; subst hh; simp [noter]) t []
  refine ⟨c, h1, h2, h3, ?_⟩
  rw [h5, note_tree env hl t _ _ _ _ _ ha, List.nil_append]
  have hp := place_tree (ruleOf env.visitors) t 0 1 (by
    intro n hn hru
    obtain ⟨⟨ty, ev, sh, sd⟩, k1, k2, k3⟩ := ha n hn
    simp only [ruleOf, k1] at hru
    cases sh with
    | atom => exact k3 rfl
    | inner p => cases hru)
  rw [← hp, List.map_filterMap, List.map_filterMap]
  congr 1
  funext x
  cases x <;> rfl

set_option maxRecDepth 100000 in
/-- The table of visitors has one for every node type but the markers and the empty statement. -/
theorem visitors_cover : ∀ t < nodeEnd, 0 < t → visitors t = none → t ∈ [N_STMT_BEGIN, N_STMT_EMPTY, N_STMT_END, N_EXPR_BEGIN,
    N_LIT_BEGIN, N_LIT_END, N_EXPR_END, N_JSX_BEGIN, N_JSX_END, N_TS_BEGIN, N_TS_END] := by
  decide

/-! Some nodes for the examples. -/

/-- A node without children. -/
def leaf (typ : Nat) (name : String) : Tree String := .mk { typ := typ, data := name } .nil

/-- A list of nodes. -/
def treesOf : List (Tree String) → Trees String
  | [] => .nil
  | t :: ts => .cons (.some t) (treesOf ts)

/-- A program. -/
def prog (l : List (Tree String)) : Tree String := .mk { typ := N_PROG, data := "" } (.many "Body" (treesOf l) .nil)

/-- A block with its own scope. -/
def block (l : List (Tree String)) : Tree String :=
  .mk { typ := N_STMT_BLOCK, newScope := some true, data := "" } (.many "Body" (treesOf l) .nil)

/-- An expression statement. -/
def exprStmt (t : Tree String) : Tree String := .mk { typ := N_STMT_EXPR, data := "" } (.one "Expr" (.some t) .nil)

/-- A binary expression. -/
def bin (op : String) (a b : Tree String) : Tree String :=
  .mk { typ := N_EXPR_BIN, data := op } (.one "Lhs" (.some a) (.one "Rhs" (.some b) .nil))

/-- A function declaration without parameters, whose body has no scope of its own. -/
def fnDec (name : String) (l : List (Tree String)) : Tree String :=
  .mk { typ := N_STMT_FN, data := name } (.one "Id" (.some (leaf N_NAME name)) (.many "Params" .nil
    (.one "Body" (.some (.mk { typ := N_STMT_BLOCK, newScope := some false, data := "" } (.many "Body" (treesOf l) .nil))) .nil)))

/-- The environment of a walk with a noting listener on every event. -/
def noting : Env String (List (Nat × Tree String × Nat)) := { visitors := visitors, listeners := fun e => [noter e] }

/-- `{ a + b }` meets the hypotheses of `walk_visits_partial`. -/
example : Announced visitors (nodes (prog [block [exprStmt (bin "+" (leaf N_NAME "a") (leaf N_NAME "b"))]])) := by
  intro t ht
  simp only [prog, block, exprStmt, bin, leaf, treesOf, nodes, nodesS, nodesL, nodesO, List.append_nil, List.mem_cons,
    List.cons_append, List.nil_append, List.not_mem_nil, or_false] at ht
  rcases ht with rfl | rfl | rfl | rfl | rfl | rfl
  all_goals exact ⟨_, rfl, rfl, by simp [nodes, nodesS]⟩

/-- Its notes: the program, the block (scope 1), the statement, the sum, its two names. -/
example : (walk noting (prog [block [exprStmt (bin "+" (leaf N_NAME "a") (leaf N_NAME "b"))]]) []).map
    (fun c => c.user.map (fun x => (x.1, x.2.2))) =
    some [(beforeEvent N_PROG, 0), (beforeEvent N_STMT_BLOCK, 1), (beforeEvent N_STMT_EXPR, 1), (beforeEvent N_EXPR_BIN, 1),
      (beforeEvent N_NAME, 1), (afterEvent N_NAME, 1), (beforeEvent N_NAME, 1), (afterEvent N_NAME, 1), (afterEvent N_EXPR_BIN, 1),
      (afterEvent N_STMT_EXPR, 1), (afterEvent N_STMT_BLOCK, 1), (afterEvent N_PROG, 0)] := by decide +kernel

/-- **C47 is violated** for the empty statement: it has no visitor, and no listener is told of it. -/
theorem empty_stmt_violated :
    (walk noting (prog [leaf N_STMT_EMPTY ""]) []).map (fun c => c.user.map (fun x => x.1)) =
      some [beforeEvent N_PROG, afterEvent N_PROG] ∧
    (leaf N_STMT_EMPTY "") ∈ nodes (prog [leaf N_STMT_EMPTY ""]) := by
  refine ⟨by decide +kernel, ?_⟩
  simp [prog, leaf, treesOf, nodes, nodesS, nodesL, nodesO]

/-- **C47 is violated** for function declarations: the listeners of another node type are called. -/
theorem fn_dec_violated :
    (walk noting (prog [fnDec "f" []]) []).map (fun c => c.user.map (fun x => x.1)) =
      some [beforeEvent N_PROG, beforeEvent N_EXPR_FN, beforeEvent N_NAME, afterEvent N_NAME, beforeEvent N_STMT_BLOCK,
        afterEvent N_STMT_BLOCK, afterEvent N_EXPR_FN, afterEvent N_PROG] := by decide +kernel

/-- In the bracketed tree every node is entered once, a node before its children, and left once. -/
theorem brackets_once (t : Tree α) :
    (brackets t).filterMap (fun x => if x.1 = .before then some x.2 else none) = nodes t ∧
    ((brackets t).filterMap (fun x => if x.1 = .after then some x.2 else none)).Perm (nodes t) := ⟨entered_nodes t, left_nodes t⟩

/-! ## Stopping (C48) -/

/-- **C48** (partial, see `stop_violated`: after a listener stops the walk some more are called).  Whatever the listeners
do, a walk ends with the context as it was, and it either makes all calls due, none of which stops it, or: it makes
the calls due up to the first one that stops it, and then only some of those that were still due, in their
order, each the first listener of its event, and each either for leaving a node that contains the one at which the walk was
stopped, or, if it was stopped on entering a node, for its first child, the first child of that, and so on.
In particular no node but those first children is entered any more. -/
theorem stop_partial (env : Env α σ) (hr : env.raise = false) (t : Tree α) (u : σ) :
    ∃ c, walk env t u = some c ∧ c.vc = [⟨t, []⟩] ∧ c.ids = [0] ∧
      ((c.stop = false ∧ Quiet (calls env [⟨t, []⟩] 0 1 ⟨"", none⟩ t) u ∧
          c.user = runAll (calls env [⟨t, []⟩] 0 1 ⟨"", none⟩ t) u) ∨
       (c.stop = true ∧ ∃ pre x post extra, calls env [⟨t, []⟩] 0 1 ⟨"", none⟩ t = pre ++ x :: post ∧ Quiet pre u ∧
          (x.h x.view (runAll pre u)).2 = true ∧ extra.Sublist post ∧
          (∀ y ∈ extra, y.idx = 0 ∧ ((y.ev = .after ∧ x.view.node ∈ nodes y.view.node) ∨
            (x.ev = .before ∧ y.view.node ∈ spine x.view.node))) ∧
          c.user = runAll (pre ++ x :: extra) u)) := by
  obtain ⟨c, h1, h2, h3, h4⟩ := ok_tree env hr t ⟨"", none⟩ (newCtx t u) 0 [] (by simp [newCtx]) rfl rfl
  refine ⟨c, h1, h2, h3, ?_⟩
  rcases h4 with ⟨a1, a2, a3, a4⟩ | ⟨a1, pre, x, post, extra, b1, b2, b3, b4, b5, b6⟩
  · exact .inl ⟨a1, a3, a4⟩
  · exact .inr ⟨a1, pre, x, post, extra, b1, b2, b3, b4, b5, b6⟩

/-- A listener which notes the node type and stops at a given one. -/
def stopper (ev stop : Nat) : Handler String (List (Nat × Nat)) :=
  fun v u => (u ++ [(ev, v.node.info.typ)], ev == stop)

/-- Two such listeners on every event, stopping at the event `stop`. -/
def stopping (stop : Nat) : Env String (List (Nat × Nat)) :=
  { visitors := visitors, listeners := fun e => [stopper e stop, stopper e stop] }

/-- **C48 is violated**: the walk of `a + b; c` is stopped on entering the sum, but its first operand is still
entered and left, and the listeners for leaving the sum, the statement and the program are still called. -/
theorem stop_violated :
    (walk (stopping (beforeEvent N_EXPR_BIN))
      (prog [exprStmt (bin "+" (leaf N_NAME "a") (leaf N_NAME "b")), exprStmt (leaf N_NAME "c")]) []).map
      (fun c => c.user.map (fun x => x.1)) =
    some [beforeEvent N_PROG, beforeEvent N_PROG, beforeEvent N_STMT_EXPR, beforeEvent N_STMT_EXPR, beforeEvent N_EXPR_BIN,
      beforeEvent N_NAME, afterEvent N_NAME, afterEvent N_EXPR_BIN, afterEvent N_STMT_EXPR, afterEvent N_PROG] := by decide +kernel

/-- Stopping on leaving the first name: the second is not entered. -/
example :
    (walk (stopping (afterEvent N_NAME))
      (prog [exprStmt (bin "+" (leaf N_NAME "a") (leaf N_NAME "b")), exprStmt (leaf N_NAME "c")]) []).map
      (fun c => c.user.map (fun x => x.1)) =
    some [beforeEvent N_PROG, beforeEvent N_PROG, beforeEvent N_STMT_EXPR, beforeEvent N_STMT_EXPR, beforeEvent N_EXPR_BIN,
      beforeEvent N_EXPR_BIN, beforeEvent N_NAME, beforeEvent N_NAME, afterEvent N_NAME,
      afterEvent N_EXPR_BIN, afterEvent N_STMT_EXPR, afterEvent N_PROG] := by decide +kernel

/-! ## Scope numbers (C49) -/

/-- **C49, the walker's numbers** (partial: for trees as in `walk_visits_partial`).  The scope a listener sees is the innermost
one open: scopes are numbered from 1 in the order they are opened, and closing one returns to the one around it. -/
theorem walk_scopes_partial (env : Env α (List (Nat × Tree α × Nat))) (hr : env.raise = false)
    (hl : ∀ e, env.listeners e = [noter e]) (t : Tree α) (ha : Announced env.visitors (nodes t)) :
    ∃ c, walk env t [] = some c ∧ c.ids = [0] ∧
      c.user = ((trace (ruleOf env.visitors) 0 1 t).filterMap Item.place).map (fun x => (eventNo x.1 x.2.1.info.typ, x.2)) := by
  obtain ⟨c, h1, h2, h3, h4, h5⟩ := walk_calls_partial env hr (by intro e h hh; simp [hl] at hh; subst hh; simp [noter]) t []
  refine ⟨c, h1, h3, ?_⟩
  rw [h5, note_tree env hl t _ _ _ _ _ ha, List.nil_append, List.map_filterMap]
  congr 1
  funext x
  cases x <;> rfl

/-- The scopes opened on the way through a tree, with their numbers. -/
def scopesOf (rule : Info α → Option Push) (t : Tree α) : List (Tree α × Nat) :=
  (trace rule 0 1 t).filterMap Item.scope

/-- Node types whose scope the parser opens after what the walker takes for the first child in it. -/
def lateTypes : List Nat := [N_CATCH, N_STMT_SWITCH, N_STMT_WHILE]

/-- The children of a node. -/
def slotsOf : Tree α → Slots α
  | .mk _ s => s

/-- How the walker's rule for a node type is related to the parser's. -/
def ruleCheck (t : Nat) (a : Bool) : Bool :=
  match visitors t with
  | none => true
  | some r =>
    let w := ruleOf visitors { typ := t, async := a, data := () }
    let p := parserRule { typ := t, async := a, data := () }
    w == p || (r.shape == .atom && w == none && p == some .never) ||
      ((lateTypes.contains t || (t == N_EXPR_ARROW && !a)) && w == some .before && p == some .afterFirst)

theorem ruleCheck_all : (List.range nodeEnd).all (fun t =>
    t == N_STMT_FOR_IN_OF || t == N_STATIC_BLOCK || t == N_TS_INTERFACE_BODY || (ruleCheck t true && ruleCheck t false)) = true := by
  decide +kernel

theorem ruleOf_unit (i : Info α) : ruleOf visitors i = ruleOf visitors { typ := i.typ, async := i.async, data := () } := rfl

theorem parserRule_unit (i : Info α) : parserRule i = parserRule { typ := i.typ, async := i.async, data := () } := rfl

/-- A node at which the walker and the parser number alike: it has a type with a visitor, it is no `for`-`in` or `for`-`of`
statement, static block or interface body, it has no children if the visitor visits none, and, if it is a `catch`, a
`switch`, a `while` or an arrow function which is not async, there is no scope in its parameters or test. -/
structure Regular (t : Tree α) : Prop where
  typ : t.info.typ < nodeEnd
  visitor : ∃ r, visitors t.info.typ = some r ∧ (r.shape = .atom → nodes t = [t])
  forIn : t.info.typ ≠ N_STMT_FOR_IN_OF
  static : t.info.typ ≠ N_STATIC_BLOCK
  iface : t.info.typ ≠ N_TS_INTERFACE_BODY
  late : t.info.typ ∈ lateTypes ∨ (t.info.typ = N_EXPR_ARROW ∧ t.info.async = false) →
    firstOpened (ruleOf visitors) (slotsOf t) = 0

theorem regular_alike (t : Tree α) (h : Regular t) : Alike (ruleOf visitors) parserRule t := by
  obtain ⟨h1, ⟨r, hr, hat⟩, h3, h4, h5, h6⟩ := h
  cases t with
  | mk i slots =>
    simp only [Tree.info, slotsOf] at *
    have hc := List.all_eq_true.mp ruleCheck_all i.typ (List.mem_range.mpr h1)
    have hc' : ruleCheck i.typ i.async = true := by
      simp only [Bool.or_eq_true, beq_iff_eq, Bool.and_eq_true, h3, h4, h5, false_or] at hc
      cases i.async
      · exact hc.2
      · exact hc.1
    simp only [ruleCheck, hr, Bool.or_eq_true, beq_iff_eq, Bool.and_eq_true, List.contains_eq_mem, decide_eq_true_eq,
      Bool.not_eq_true', ← ruleOf_unit, ← parserRule_unit] at hc'
    rw [Alike]
    rcases hc' with (h | ⟨⟨a, b⟩, c⟩) | ⟨⟨a, b⟩, c⟩
    · exact .inl h
    · refine .inr (.inl ⟨b, c, ?_⟩)
      have := hat a
      rw [nodes] at this
      simpa using this
    · exact .inr (.inr ⟨b, c, h6 a⟩)

/-- **C49** (partial, see the violations below for what `Regular` leaves out).  The scopes the walker opens, in order and with
their numbers, are the scopes of the parser, numbered in the order the parser enters them. -/
theorem scope_numbers_partial (t : Tree α) (h : ∀ n ∈ nodes t, Regular n) :
    scopesOf (ruleOf visitors) t = scopesOf parserRule t :=
  alike_scopes _ _ t 0 0 1 (fun n hn => regular_alike n (h n hn))

/-- `{ a } { b }`: the blocks are numbered 1 and 2. -/
example : (scopesOf (ruleOf visitors) (prog [block [exprStmt (leaf N_NAME "a")], block [exprStmt (leaf N_NAME "b")]])).map (·.2) =
    [1, 2] := by decide +kernel

example : ∀ n ∈ nodes (prog [block [exprStmt (leaf N_NAME "a")], fnDec "f" [block []]]), Regular n := by
  intro t ht
  simp only [prog, block, exprStmt, fnDec, leaf, treesOf, nodes, nodesS, nodesL, nodesO, List.append_nil, List.mem_cons,
    List.cons_append, List.nil_append, List.not_mem_nil, or_false] at ht
  rcases ht with rfl | rfl | rfl | rfl | rfl | rfl | rfl | rfl
  all_goals exact ⟨by decide, ⟨_, rfl, by simp [nodes, nodesS]⟩, by decide, by decide, by decide, by decide⟩

/-- The scope numbers of a tree, with the types of the nodes which open them. -/
def numbered (rule : Info String → Option Push) (t : Tree String) : List (Nat × Nat) :=
  (scopesOf rule t).map (fun x => (x.1.info.typ, x.2))

/-- A loop over the properties of `e`. -/
def forIn (l e body : Tree String) : Tree String :=
  .mk { typ := N_STMT_FOR_IN_OF, data := "" } (.one "Left" (.some l) (.one "Right" (.some e) (.one "Body" (.some body) .nil)))

/-- **C49 is violated** by `for (a in b) {}`: the parser enters a scope for the loop and one for the body, the walker only the
second, which has another number than the parser's; every later scope of the program is off by one. -/
theorem for_in_scope_violated :
    numbered (ruleOf visitors) (prog [forIn (leaf N_NAME "a") (leaf N_NAME "b") (block []), block []]) =
      [(N_STMT_BLOCK, 1), (N_STMT_BLOCK, 2)] ∧
    numbered parserRule (prog [forIn (leaf N_NAME "a") (leaf N_NAME "b") (block []), block []]) =
      [(N_STMT_FOR_IN_OF, 1), (N_STMT_BLOCK, 2), (N_STMT_BLOCK, 3)] := by decide +kernel

/-- A `while` loop. -/
def whileStmt (e body : Tree String) : Tree String :=
  .mk { typ := N_STMT_WHILE, data := "" } (.one "Test" (.some e) (.one "Body" (.some body) .nil))

/-- A function expression without name and parameters. -/
def fnExpr : Tree String :=
  .mk { typ := N_EXPR_FN, data := "" } (.one "Id" .none (.many "Params" .nil
    (.one "Body" (.some (.mk { typ := N_STMT_BLOCK, newScope := some false, data := "" } (.many "Body" .nil .nil))) .nil)))

/-- **C49 is violated** by `while (function () {}) {}`: the numbers of the loop and of the function are swapped. -/
theorem while_scope_violated :
    numbered (ruleOf visitors) (prog [whileStmt fnExpr (block [])]) = [(N_STMT_WHILE, 1), (N_EXPR_FN, 2), (N_STMT_BLOCK, 3)] ∧
    numbered parserRule (prog [whileStmt fnExpr (block [])]) = [(N_EXPR_FN, 1), (N_STMT_WHILE, 2), (N_STMT_BLOCK, 3)] := by
  decide +kernel

end Mole.Walk
