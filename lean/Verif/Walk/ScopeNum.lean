import Verif.Walk.NoteLemmas
import Verif.Walk.Table

/-! The parser's scope numbers beside the walker's. -/

namespace Mole.Walk

open Spec

variable {α : Type}

/-- When the parser enters a scope for a node, in terms of the node's slots as the walker visits them; the calls of
`EnterScope` which use a number are ecma/parser/parser.go 1146 (class body), 1818 (catch, after its parameter), 2075
(switch, after its test), 2206 (do-while), 2265 (while, after its test), 2311 (for, for-in and for-of), 2583 and 6156
(functions and methods, after the name; the first of these also async arrow functions, before the parameters), 3073
(blocks, also static blocks 1713), 5800 (arrow functions, after the parameters) and ecma/parser/ts.go 2000
(interface bodies).  Left out: the scope entered for a call of a function named `async`, parser.go 2583,
which is not left again. -/
def parserRule (i : Info α) : Option Push :=
  if i.typ = N_CLASS_BODY ∨ i.typ = N_STMT_DO_WHILE ∨ i.typ = N_STMT_FOR ∨ i.typ = N_STMT_FOR_IN_OF ∨ i.typ = N_STMT_BLOCK ∨
      i.typ = N_STATIC_BLOCK ∨ i.typ = N_TS_INTERFACE_BODY then some .before
  else if i.typ = N_CATCH ∨ i.typ = N_STMT_SWITCH ∨ i.typ = N_STMT_WHILE ∨ i.typ = N_STMT_FN ∨ i.typ = N_EXPR_FN then
    some .afterFirst
  else if i.typ = N_EXPR_ARROW then if i.async then some .before else some .afterFirst
  else some .never

/-- The scopes opened in the first slot of a node. -/
def firstOpened (rule : Info α → Option Push) : Slots α → Nat
  | .nil => 0
  | .one _ o _ => openedO rule o
  | .many _ ts _ => openedL rule ts

/-- Two ways to open scopes which number a node's scope alike. -/
def Alike (r1 r2 : Info α → Option Push) : Tree α → Prop
  | .mk i slots => r1 i = r2 i ∨ (r1 i = none ∧ r2 i = some .never ∧ nodesS slots = []) ∨
      (r1 i = some .before ∧ r2 i = some .afterFirst ∧ firstOpened r1 slots = 0)

/-! The number of scopes noted is the number opened. -/
mutual
theorem scopes_len (rule : Info α → Option Push) : ∀ (t : Tree α) (sc seed : Nat),
    ((trace rule sc seed t).filterMap Item.scope).length = opened rule t
  | .mk i slots, sc, seed => by
    simp only [trace, opened]
    cases rule i with
    | none => rfl
    | some p =>
      cases p with
      | never => simp [List.filterMap_cons, Item.scope, scopes_lenS rule slots]
      | before =>
        by_cases hn : i.newScope.getD true = true <;>
          simp [List.filterMap_cons, Item.scope, scopes_lenS rule slots, hn, opensIf]
        omega
      | afterFirst => simp [List.filterMap_cons, Item.scope, scopes_lenF rule slots]
theorem scopes_lenS (rule : Info α → Option Push) : ∀ (s : Slots α) (sc seed : Nat),
    ((traceS rule sc seed s).filterMap Item.scope).length = openedS rule s
  | .nil, _, _ => by simp [traceS, openedS]
  | .one key o rest, sc, seed => by simp [traceS, openedS, scopes_lenO rule o, scopes_lenS rule rest]
  | .many key ts rest, sc, seed => by simp [traceS, openedS, scopes_lenL rule ts, scopes_lenS rule rest]
theorem scopes_lenF (rule : Info α → Option Push) : ∀ (s : Slots α) (sc seed : Nat) (n : Tree α) (i : Info α),
    ((traceF rule sc seed n i s).filterMap Item.scope).length = opensIf i + openedS rule s
  | .nil, _, _, n, i => by by_cases hn : i.newScope.getD true = true <;> simp [traceF, openedS, hn, opensIf, Item.scope]
  | .one key o rest, sc, seed, n, i => by
    by_cases hn : i.newScope.getD true = true <;>
      simp [traceF, openedS, scopes_lenO rule o, scopes_lenS rule rest, hn, opensIf, Item.scope]
    omega
  | .many key ts rest, sc, seed, n, i => by
    by_cases hn : i.newScope.getD true = true <;>
      simp [traceF, openedS, scopes_lenL rule ts, scopes_lenS rule rest, hn, opensIf, Item.scope]
    omega
theorem scopes_lenO (rule : Info α → Option Push) : ∀ (o : OTree α) (sc seed : Nat),
    ((traceO rule sc seed o).filterMap Item.scope).length = openedO rule o
  | .none, _, _ => by simp [traceO, openedO]
  | .some t, sc, seed => by rw [traceO, openedO]; exact scopes_len rule t sc seed
theorem scopes_lenL (rule : Info α → Option Push) : ∀ (ts : Trees α) (sc seed : Nat),
    ((traceL rule sc seed ts).filterMap Item.scope).length = openedL rule ts
  | .nil, _, _ => by simp [traceL, openedL]
  | .cons o rest, sc, seed => by simp [traceL, openedL, scopes_lenO rule o, scopes_lenL rule rest]
end

mutual
theorem openedS_nil (rule : Info α → Option Push) : ∀ (s : Slots α), nodesS s = [] → openedS rule s = 0
  | .nil, _ => by simp [openedS]
  | .one key o rest, h => by
    rw [nodesS, List.append_eq_nil_iff] at h
    rw [openedS, openedO_nil rule o h.1, openedS_nil rule rest h.2]
  | .many key ts rest, h => by
    rw [nodesS, List.append_eq_nil_iff] at h
    rw [openedS, openedL_nil rule ts h.1, openedS_nil rule rest h.2]
theorem openedO_nil (rule : Info α → Option Push) : ∀ (o : OTree α), nodesO o = [] → openedO rule o = 0
  | .none, _ => by simp [openedO]
  | .some (.mk i s), h => by simp [nodesO, nodes] at h
theorem openedL_nil (rule : Info α → Option Push) : ∀ (ts : Trees α), nodesL ts = [] → openedL rule ts = 0
  | .nil, _ => by simp [openedL]
  | .cons o rest, h => by
    rw [nodesL, List.append_eq_nil_iff] at h
    rw [openedL, openedO_nil rule o h.1, openedL_nil rule rest h.2]
end

theorem no_scopes {l : List (Item α)} (h : (l.filterMap Item.scope).length = 0) : l.filterMap Item.scope = [] :=
  List.eq_nil_of_length_eq_zero h

/-! Alike rules open the same number of scopes. -/
mutual
theorem alike_opened (r1 r2 : Info α → Option Push) : ∀ (t : Tree α), (∀ n ∈ nodes t, Alike r1 r2 n) →
    opened r1 t = opened r2 t
  | .mk i slots, h => by
    have ih := alike_openedS r1 r2 slots (fun n hn => h n (by rw [nodes]; exact List.mem_cons_of_mem _ hn))
    have h0 := h (.mk i slots) (self_nodes _)
    simp only [opened]
    rcases h0 with h0 | ⟨h1, h2, h3⟩ | ⟨h1, h2, h3⟩
    · rw [h0, ih]
    · rw [h1, h2]; simp [openedS_nil _ slots h3]
    · rw [h1, h2]; simp only [ih]
theorem alike_openedS (r1 r2 : Info α → Option Push) : ∀ (s : Slots α), (∀ n ∈ nodesS s, Alike r1 r2 n) →
    openedS r1 s = openedS r2 s
  | .nil, _ => by simp [openedS]
  | .one key o rest, h => by
    rw [nodesS] at h
    rw [openedS, openedS, alike_openedO r1 r2 o (fun n hn => h n (List.mem_append_left _ hn)),
      alike_openedS r1 r2 rest (fun n hn => h n (List.mem_append_right _ hn))]
  | .many key ts rest, h => by
    rw [nodesS] at h
    rw [openedS, openedS, alike_openedL r1 r2 ts (fun n hn => h n (List.mem_append_left _ hn)),
      alike_openedS r1 r2 rest (fun n hn => h n (List.mem_append_right _ hn))]
theorem alike_openedO (r1 r2 : Info α → Option Push) : ∀ (o : OTree α), (∀ n ∈ nodesO o, Alike r1 r2 n) →
    openedO r1 o = openedO r2 o
  | .none, _ => by simp [openedO]
  | .some t, h => by rw [nodesO] at h; rw [openedO, openedO]; exact alike_opened r1 r2 t h
theorem alike_openedL (r1 r2 : Info α → Option Push) : ∀ (ts : Trees α), (∀ n ∈ nodesL ts, Alike r1 r2 n) →
    openedL r1 ts = openedL r2 ts
  | .nil, _ => by simp [openedL]
  | .cons o rest, h => by
    rw [nodesL] at h
    rw [openedL, openedL, alike_openedO r1 r2 o (fun n hn => h n (List.mem_append_left _ hn)),
      alike_openedL r1 r2 rest (fun n hn => h n (List.mem_append_right _ hn))]
end

/-! Alike rules give the same scopes the same numbers. -/
mutual
theorem alike_scopes (r1 r2 : Info α → Option Push) : ∀ (t : Tree α) (sc sc' seed : Nat), (∀ n ∈ nodes t, Alike r1 r2 n) →
    (trace r1 sc seed t).filterMap Item.scope = (trace r2 sc' seed t).filterMap Item.scope
  | .mk i slots, sc, sc', seed, h => by
    have hs : ∀ n ∈ nodesS slots, Alike r1 r2 n := fun n hn => h n (by rw [nodes]; exact List.mem_cons_of_mem _ hn)
    have ih := fun sc sc' seed => alike_scopesS r1 r2 slots sc sc' seed hs
    have ihF := fun sc sc' seed n i => alike_scopesF r1 r2 slots sc sc' seed n i hs
    have ihB := fun sc sc' seed n i => alike_scopesB r1 r2 slots sc sc' seed n i hs
    have h0 := h (.mk i slots) (self_nodes _)
    simp only [trace]
    rcases h0 with h0 | ⟨h1, h2, h3⟩ | ⟨h1, h2, h3⟩
    · rw [← h0]
      cases r1 i with
      | none => simp [List.filterMap_cons, Item.scope]
      | some p =>
        cases p with
        | never => simp [List.filterMap_cons, Item.scope, ih sc sc' seed]
        | before =>
          by_cases hn : i.newScope.getD true = true
          · simp [List.filterMap_cons, Item.scope, hn, ih seed seed]
          · simp [List.filterMap_cons, Item.scope, hn, ih sc sc' seed]
        | afterFirst => simp [List.filterMap_cons, Item.scope, ihF sc sc' seed]
    · rw [h1, h2]
      have := no_scopes ((scopes_lenS r2 slots sc' seed).trans (openedS_nil r2 slots h3))
      simp [List.filterMap_cons, Item.scope, this]
    · rw [h1, h2]
      have := ihB sc sc' seed (.mk i slots) i h3
      by_cases hn : i.newScope.getD true = true
      · simp only [hn, if_true] at this ⊢
        simp [List.filterMap_cons, Item.scope, ← this]
      · simp only [hn, Bool.false_eq_true, if_false] at this ⊢
        simp [List.filterMap_cons, Item.scope, ← this]
theorem alike_scopesS (r1 r2 : Info α → Option Push) : ∀ (s : Slots α) (sc sc' seed : Nat), (∀ n ∈ nodesS s, Alike r1 r2 n) →
    (traceS r1 sc seed s).filterMap Item.scope = (traceS r2 sc' seed s).filterMap Item.scope
  | .nil, _, _, _, _ => by simp [traceS]
  | .one key o rest, sc, sc', seed, h => by
    rw [nodesS] at h
    have ho := fun n hn => h n (List.mem_append_left _ hn)
    simp only [traceS, List.filterMap_append, alike_scopesO r1 r2 o sc sc' seed ho, alike_openedO r1 r2 o ho,
      alike_scopesS r1 r2 rest sc sc' _ (fun n hn => h n (List.mem_append_right _ hn))]
  | .many key ts rest, sc, sc', seed, h => by
    rw [nodesS] at h
    have ho := fun n hn => h n (List.mem_append_left _ hn)
    simp only [traceS, List.filterMap_append, alike_scopesL r1 r2 ts sc sc' seed ho, alike_openedL r1 r2 ts ho,
      alike_scopesS r1 r2 rest sc sc' _ (fun n hn => h n (List.mem_append_right _ hn))]
theorem alike_scopesF (r1 r2 : Info α → Option Push) : ∀ (s : Slots α) (sc sc' seed : Nat) (n : Tree α) (i : Info α),
    (∀ n ∈ nodesS s, Alike r1 r2 n) →
    (traceF r1 sc seed n i s).filterMap Item.scope = (traceF r2 sc' seed n i s).filterMap Item.scope
  | .nil, _, _, _, _, i, _ => by by_cases hn : i.newScope.getD true = true <;> simp [traceF, hn]
  | .one key o rest, sc, sc', seed, n, i, h => by
    rw [nodesS] at h
    have ho := fun n hn => h n (List.mem_append_left _ hn)
    have hr := fun sc sc' seed => alike_scopesS r1 r2 rest sc sc' seed (fun n hn => h n (List.mem_append_right _ hn))
    by_cases hn : i.newScope.getD true = true
    · simp only [traceF, List.filterMap_append, alike_scopesO r1 r2 o sc sc' seed ho, alike_openedO r1 r2 o ho, hn, if_true,
        List.filterMap_cons, Item.scope, hr (seed + openedO r2 o) (seed + openedO r2 o)]
    · simp only [traceF, List.filterMap_append, alike_scopesO r1 r2 o sc sc' seed ho, alike_openedO r1 r2 o ho, hn,
        Bool.false_eq_true, if_false, hr sc sc']
  | .many key ts rest, sc, sc', seed, n, i, h => by
    rw [nodesS] at h
    have ho := fun n hn => h n (List.mem_append_left _ hn)
    have hr := fun sc sc' seed => alike_scopesS r1 r2 rest sc sc' seed (fun n hn => h n (List.mem_append_right _ hn))
    by_cases hn : i.newScope.getD true = true
    · simp only [traceF, List.filterMap_append, alike_scopesL r1 r2 ts sc sc' seed ho, alike_openedL r1 r2 ts ho, hn, if_true,
        List.filterMap_cons, Item.scope, hr (seed + openedL r2 ts) (seed + openedL r2 ts)]
    · simp only [traceF, List.filterMap_append, alike_scopesL r1 r2 ts sc sc' seed ho, alike_openedL r1 r2 ts ho, hn,
        Bool.false_eq_true, if_false, hr sc sc']
/-- Opening before or after a first slot without scopes is the same. -/
theorem alike_scopesB (r1 r2 : Info α → Option Push) : ∀ (s : Slots α) (sc sc' seed : Nat) (n : Tree α) (i : Info α),
    (∀ n ∈ nodesS s, Alike r1 r2 n) → firstOpened r1 s = 0 →
    (if i.newScope.getD true then (n, seed) :: (traceS r1 seed (seed + 1) s).filterMap Item.scope
      else (traceS r1 sc seed s).filterMap Item.scope) = (traceF r2 sc' seed n i s).filterMap Item.scope
  | .nil, _, _, _, _, i, _, _ => by by_cases hn : i.newScope.getD true = true <;> simp [traceF, traceS, hn, Item.scope]
  | .one key o rest, sc, sc', seed, n, i, h, hf => by
    rw [nodesS] at h
    have ho := fun n hn => h n (List.mem_append_left _ hn)
    have hr := fun sc sc' seed => alike_scopesS r1 r2 rest sc sc' seed (fun n hn => h n (List.mem_append_right _ hn))
    have h1 : openedO r1 o = 0 := hf
    have h2 : openedO r2 o = 0 := by rw [← alike_openedO r1 r2 o ho]; exact h1
    have e1 := fun sc seed => no_scopes ((scopes_lenO r1 o sc seed).trans h1)
    have e2 := fun sc seed => no_scopes ((scopes_lenO r2 o sc seed).trans h2)
    by_cases hn : i.newScope.getD true = true
    · simp only [traceF, traceS, List.filterMap_append, h1, h2, e1, e2, hn, if_true, List.filterMap_cons, Item.scope,
        hr seed seed, List.nil_append, Nat.add_zero]
    · simp only [traceF, traceS, List.filterMap_append, h1, h2, e1, e2, hn, Bool.false_eq_true, if_false,
        hr sc sc', List.nil_append, Nat.add_zero]
  | .many key ts rest, sc, sc', seed, n, i, h, hf => by
    rw [nodesS] at h
    have ho := fun n hn => h n (List.mem_append_left _ hn)
    have hr := fun sc sc' seed => alike_scopesS r1 r2 rest sc sc' seed (fun n hn => h n (List.mem_append_right _ hn))
    have h1 : openedL r1 ts = 0 := hf
    have h2 : openedL r2 ts = 0 := by rw [← alike_openedL r1 r2 ts ho]; exact h1
    have e1 := fun sc seed => no_scopes ((scopes_lenL r1 ts sc seed).trans h1)
    have e2 := fun sc seed => no_scopes ((scopes_lenL r2 ts sc seed).trans h2)
    by_cases hn : i.newScope.getD true = true
    · simp only [traceF, traceS, List.filterMap_append, h1, h2, e1, e2, hn, if_true, List.filterMap_cons, Item.scope,
        hr seed seed, List.nil_append, Nat.add_zero]
    · simp only [traceF, traceS, List.filterMap_append, h1, h2, e1, e2, hn, Bool.false_eq_true, if_false,
        hr sc sc', List.nil_append, Nat.add_zero]
theorem alike_scopesO (r1 r2 : Info α → Option Push) : ∀ (o : OTree α) (sc sc' seed : Nat), (∀ n ∈ nodesO o, Alike r1 r2 n) →
    (traceO r1 sc seed o).filterMap Item.scope = (traceO r2 sc' seed o).filterMap Item.scope
  | .none, _, _, _, _ => by simp [traceO]
  | .some t, sc, sc', seed, h => by
    rw [nodesO] at h; rw [traceO, traceO]; exact alike_scopes r1 r2 t sc sc' seed h
theorem alike_scopesL (r1 r2 : Info α → Option Push) : ∀ (ts : Trees α) (sc sc' seed : Nat), (∀ n ∈ nodesL ts, Alike r1 r2 n) →
    (traceL r1 sc seed ts).filterMap Item.scope = (traceL r2 sc' seed ts).filterMap Item.scope
  | .nil, _, _, _, _ => by simp [traceL]
  | .cons o rest, sc, sc', seed, h => by
    rw [nodesL] at h
    have ho := fun n hn => h n (List.mem_append_left _ hn)
    simp only [traceL, List.filterMap_append, alike_scopesO r1 r2 o sc sc' seed ho, alike_openedO r1 r2 o ho,
      alike_scopesL r1 r2 rest sc sc' _ (fun n hn => h n (List.mem_append_right _ hn))]
end

end Mole.Walk
