import Verif.Walk.Trace

/-! A walk with a noting listener on every event. -/

namespace Mole.Walk

open Spec

variable {α : Type}

/-- What a noting listener notes for an item. -/
def noteOf : Item α → Option (Nat × Tree α × Nat)
  | .at e n sc => some (eventNo e n.info.typ, n, sc)
  | .opens _ _ => none

/-- Every node has a visitor that calls the listeners of the node's own type, and nodes whose visitor looks at no
children have none. -/
def Announced (vis : Nat → Option Row) (l : List (Tree α)) : Prop :=
  ∀ t ∈ l, ∃ row, vis t.info.typ = some row ∧ row.event = t.info.typ ∧ (row.shape = .atom → nodes t = [t])

theorem runAll_note (env : Env α (List (Nat × Tree α × Nat))) (hl : ∀ e, env.listeners e = [noter e]) (ev : Ev) (e : Nat)
    (v : View α) (u : List (Nat × Tree α × Nat)) :
    runAll (callsOf ev v (env.listeners e)) u = u ++ [(e, v.node, v.scope)] := by
  simp [hl, callsOf, callsFrom, runAll, noter]

theorem ann_tail {vis : Nat → Option Row} {i : Info α} {s : Slots α} (h : Announced vis (nodes (.mk i s))) :
    Announced vis (nodesS s) := fun t ht => h t (by rw [nodes]; exact List.mem_cons_of_mem _ ht)

theorem ann_left {vis : Nat → Option Row} {a b : List (Tree α)} (h : Announced vis (a ++ b)) : Announced vis a :=
  fun t ht => h t (List.mem_append_left _ ht)

theorem ann_right {vis : Nat → Option Row} {a b : List (Tree α)} (h : Announced vis (a ++ b)) : Announced vis b :=
  fun t ht => h t (List.mem_append_right _ ht)

mutual
theorem note_tree (env : Env α (List (Nat × Tree α × Nat))) (hl : ∀ e, env.listeners e = [noter e]) :
    ∀ (t : Tree α) (vcs : List (VC α)) (sc seed : Nat) (k : Key) (u : List (Nat × Tree α × Nat)),
      Announced env.visitors (nodes t) →
      runAll (calls env vcs sc seed k t) u = u ++ (trace (ruleOf env.visitors) sc seed t).filterMap noteOf
  | .mk i slots, vcs, sc, seed, k, u, ha => by
    obtain ⟨⟨ty, ev, sh, sd⟩, hv, he, hat⟩ := ha (.mk i slots) (self_nodes _)
    simp only [Tree.info] at hv he
    subst he
    simp only [calls, hv, trace, ruleOf]
    cases sh with
    | atom =>
      simp only [runAll_append, runAll_note env hl, List.filterMap_cons, noteOf, List.filterMap_nil, eventNo, Tree.info,
        List.append_assoc, List.cons_append, List.nil_append]
    | inner p =>
      cases p with
      | never =>
        simp only [runAll_append, runAll_note env hl, note_slots env hl slots _ _ _ _ (ann_tail ha), List.filterMap_cons,
          List.filterMap_append, noteOf, List.filterMap_nil, eventNo, Tree.info, List.append_assoc, List.cons_append, List.nil_append]
      | before =>
        by_cases hn : i.newScope.getD true = true
        · simp only [runAll_append, runAll_note env hl, note_slots env hl slots _ _ _ _ (ann_tail ha), List.filterMap_cons,
            List.filterMap_append, noteOf, List.filterMap_nil, eventNo, Tree.info, List.append_assoc, List.cons_append,
            List.nil_append, hn, if_true, opensIf]
        · simp only [runAll_append, runAll_note env hl, note_slots env hl slots _ _ _ _ (ann_tail ha), List.filterMap_cons,
            List.filterMap_append, noteOf, List.filterMap_nil, eventNo, Tree.info, List.append_assoc, List.cons_append,
            List.nil_append, hn, Bool.false_eq_true, if_false, opensIf, Nat.add_zero]
      | afterFirst =>
        simp only [runAll_append, runAll_note env hl, note_fn env hl slots _ _ _ (.mk i slots) i _ (ann_tail ha), List.filterMap_cons,
          List.filterMap_append, noteOf, List.filterMap_nil, eventNo, Tree.info, List.append_assoc, List.cons_append, List.nil_append]
theorem note_slots (env : Env α (List (Nat × Tree α × Nat))) (hl : ∀ e, env.listeners e = [noter e]) :
    ∀ (s : Slots α) (vcs : List (VC α)) (sc seed : Nat) (u : List (Nat × Tree α × Nat)),
      Announced env.visitors (nodesS s) →
      runAll (callsS env vcs sc seed s) u = u ++ (traceS (ruleOf env.visitors) sc seed s).filterMap noteOf
  | .nil, vcs, sc, seed, u, ha => by simp [callsS, traceS, runAll]
  | .one key o rest, vcs, sc, seed, u, ha => by
    rw [nodesS] at ha
    simp only [callsS, traceS, runAll_append, note_o env hl o _ _ _ _ _ (ann_left ha), note_slots env hl rest _ _ _ _ (ann_right ha),
      List.filterMap_append, List.append_assoc, wOpenedO]
  | .many key ts rest, vcs, sc, seed, u, ha => by
    rw [nodesS] at ha
    simp only [callsS, traceS, runAll_append, note_trees env hl ts _ _ _ _ _ _ (ann_left ha), note_slots env hl rest _ _ _ _ (ann_right ha),
      List.filterMap_append, List.append_assoc, wOpenedL]
theorem note_fn (env : Env α (List (Nat × Tree α × Nat))) (hl : ∀ e, env.listeners e = [noter e]) :
    ∀ (s : Slots α) (vcs : List (VC α)) (sc seed : Nat) (n : Tree α) (i : Info α) (u : List (Nat × Tree α × Nat)),
      Announced env.visitors (nodesS s) →
      runAll (callsF env vcs sc seed i s) u = u ++ (traceF (ruleOf env.visitors) sc seed n i s).filterMap noteOf
  | .nil, vcs, sc, seed, n, i, u, ha => by
    by_cases hn : i.newScope.getD true = true <;> simp [callsF, traceF, runAll, hn, noteOf]
  | .one key o rest, vcs, sc, seed, n, i, u, ha => by
    rw [nodesS] at ha
    by_cases hn : i.newScope.getD true = true
    · simp only [callsF, traceF, runAll_append, note_o env hl o _ _ _ _ _ (ann_left ha), note_slots env hl rest _ _ _ _ (ann_right ha),
        List.filterMap_append, List.filterMap_cons, noteOf, List.append_assoc, wOpenedO, hn, if_true, opensIf]
    · simp only [callsF, traceF, runAll_append, note_o env hl o _ _ _ _ _ (ann_left ha), note_slots env hl rest _ _ _ _ (ann_right ha),
        List.filterMap_append, List.append_assoc, wOpenedO, hn, Bool.false_eq_true, if_false, opensIf, Nat.add_zero]
  | .many key ts rest, vcs, sc, seed, n, i, u, ha => by
    rw [nodesS] at ha
    by_cases hn : i.newScope.getD true = true
    · simp only [callsF, traceF, runAll_append, note_trees env hl ts _ _ _ _ _ _ (ann_left ha), note_slots env hl rest _ _ _ _ (ann_right ha),
        List.filterMap_append, List.filterMap_cons, noteOf, List.append_assoc, wOpenedL, hn, if_true, opensIf]
    · simp only [callsF, traceF, runAll_append, note_trees env hl ts _ _ _ _ _ _ (ann_left ha), note_slots env hl rest _ _ _ _ (ann_right ha),
        List.filterMap_append, List.append_assoc, wOpenedL, hn, Bool.false_eq_true, if_false, opensIf, Nat.add_zero]
theorem note_o (env : Env α (List (Nat × Tree α × Nat))) (hl : ∀ e, env.listeners e = [noter e]) :
    ∀ (o : OTree α) (vcs : List (VC α)) (sc seed : Nat) (k : Key) (u : List (Nat × Tree α × Nat)),
      Announced env.visitors (nodesO o) →
      runAll (callsO env vcs sc seed k o) u = u ++ (traceO (ruleOf env.visitors) sc seed o).filterMap noteOf
  | .none, vcs, sc, seed, k, u, ha => by simp [callsO, traceO, runAll]
  | .some t, vcs, sc, seed, k, u, ha => by
    rw [nodesO] at ha
    rw [callsO, traceO]
    exact note_tree env hl t vcs sc seed k u ha
theorem note_trees (env : Env α (List (Nat × Tree α × Nat))) (hl : ∀ e, env.listeners e = [noter e]) :
    ∀ (ts : Trees α) (vcs : List (VC α)) (sc seed : Nat) (key : String) (n : Nat) (u : List (Nat × Tree α × Nat)),
      Announced env.visitors (nodesL ts) →
      runAll (callsL env vcs sc seed key n ts) u = u ++ (traceL (ruleOf env.visitors) sc seed ts).filterMap noteOf
  | .nil, vcs, sc, seed, key, n, u, ha => by simp [callsL, traceL, runAll]
  | .cons o rest, vcs, sc, seed, key, n, u, ha => by
    rw [nodesL] at ha
    simp only [callsL, traceL, runAll_append, note_o env hl o _ _ _ _ _ (ann_left ha), note_trees env hl rest _ _ _ _ _ _ (ann_right ha),
      List.filterMap_append, List.append_assoc, wOpenedO]
end

/-! ## The way through a tree, without the scopes -/

/-- A place of an item, without its scope. -/
def placeOf : Item α → Option (Ev × Tree α)
  | .at e n _ => some (e, n)
  | .opens _ _ => none

mutual
theorem place_tree (rule : Info α → Option Push) : ∀ (t : Tree α) (sc seed : Nat),
    (∀ n ∈ nodes t, rule n.info = none → nodes n = [n]) → (trace rule sc seed t).filterMap placeOf = brackets t
  | .mk i slots, sc, seed, h => by
    have ht : ∀ n ∈ nodesS slots, rule n.info = none → nodes n = [n] :=
      fun n hn => h n (by rw [nodes]; exact List.mem_cons_of_mem _ hn)
    have hs := h (.mk i slots) (self_nodes _)
    simp only [Tree.info] at hs
    simp only [trace, brackets]
    cases hr : rule i with
    | none =>
      have : nodesS slots = [] := by simpa [nodes] using hs hr
      simp only [List.filterMap_cons, placeOf, List.filterMap_nil, brackets_nil slots this, List.nil_append]
    | some p =>
      cases p with
      | never => simp only [List.filterMap_cons, List.filterMap_append, placeOf, List.filterMap_nil, place_slots rule slots _ _ ht]
      | before =>
        by_cases hn : i.newScope.getD true = true
        · simp only [hn, if_true, List.filterMap_cons, List.filterMap_append, placeOf, List.filterMap_nil, place_slots rule slots _ _ ht]
        · simp only [hn, Bool.false_eq_true, if_false, List.filterMap_cons, List.filterMap_append, placeOf, List.filterMap_nil, place_slots rule slots _ _ ht]
      | afterFirst =>
        simp only [List.filterMap_cons, List.filterMap_append, placeOf, List.filterMap_nil, place_fn rule slots _ _ _ _ ht]
theorem place_slots (rule : Info α → Option Push) : ∀ (s : Slots α) (sc seed : Nat),
    (∀ n ∈ nodesS s, rule n.info = none → nodes n = [n]) → (traceS rule sc seed s).filterMap placeOf = bracketsS s
  | .nil, _, _, _ => by simp [traceS, bracketsS]
  | .one key o rest, sc, seed, h => by
    rw [nodesS] at h
    simp only [traceS, bracketsS, List.filterMap_append, place_o rule o _ _ (fun n hn => h n (List.mem_append_left _ hn)),
      place_slots rule rest _ _ (fun n hn => h n (List.mem_append_right _ hn))]
  | .many key ts rest, sc, seed, h => by
    rw [nodesS] at h
    simp only [traceS, bracketsS, List.filterMap_append, place_trees rule ts _ _ (fun n hn => h n (List.mem_append_left _ hn)),
      place_slots rule rest _ _ (fun n hn => h n (List.mem_append_right _ hn))]
theorem place_fn (rule : Info α → Option Push) : ∀ (s : Slots α) (sc seed : Nat) (n : Tree α) (i : Info α),
    (∀ n ∈ nodesS s, rule n.info = none → nodes n = [n]) → (traceF rule sc seed n i s).filterMap placeOf = bracketsS s
  | .nil, _, _, _, i, _ => by by_cases hn : i.newScope.getD true = true <;> simp [traceF, bracketsS, hn, placeOf]
  | .one key o rest, sc, seed, n, i, h => by
    rw [nodesS] at h
    by_cases hn : i.newScope.getD true = true <;>
    simp only [traceF, bracketsS, List.filterMap_append, place_o rule o _ _ (fun n hn => h n (List.mem_append_left _ hn)),
      place_slots rule rest _ _ (fun n hn => h n (List.mem_append_right _ hn)), hn, if_true, Bool.false_eq_true, if_false,
      List.filterMap_cons, placeOf]
  | .many key ts rest, sc, seed, n, i, h => by
    rw [nodesS] at h
    by_cases hn : i.newScope.getD true = true <;>
    simp only [traceF, bracketsS, List.filterMap_append, place_trees rule ts _ _ (fun n hn => h n (List.mem_append_left _ hn)),
      place_slots rule rest _ _ (fun n hn => h n (List.mem_append_right _ hn)), hn, if_true, Bool.false_eq_true, if_false,
      List.filterMap_cons, placeOf]
theorem place_o (rule : Info α → Option Push) : ∀ (o : OTree α) (sc seed : Nat),
    (∀ n ∈ nodesO o, rule n.info = none → nodes n = [n]) → (traceO rule sc seed o).filterMap placeOf = bracketsO o
  | .none, _, _, _ => by simp [traceO, bracketsO]
  | .some t, sc, seed, h => by
    rw [nodesO] at h
    rw [traceO, bracketsO]; exact place_tree rule t sc seed h
theorem place_trees (rule : Info α → Option Push) : ∀ (ts : Trees α) (sc seed : Nat),
    (∀ n ∈ nodesL ts, rule n.info = none → nodes n = [n]) → (traceL rule sc seed ts).filterMap placeOf = bracketsL ts
  | .nil, _, _, _ => by simp [traceL, bracketsL]
  | .cons o rest, sc, seed, h => by
    rw [nodesL] at h
    simp only [traceL, bracketsL, List.filterMap_append, place_o rule o _ _ (fun n hn => h n (List.mem_append_left _ hn)),
      place_trees rule rest _ _ (fun n hn => h n (List.mem_append_right _ hn))]
theorem brackets_nil : ∀ (s : Slots α), nodesS s = [] → bracketsS s = []
  | .nil, _ => by simp [bracketsS]
  | .one key o rest, h => by
    rw [nodesS, List.append_eq_nil_iff] at h
    rw [bracketsS, brackets_nil rest h.2, bracketsO_nil o h.1]; rfl
  | .many key ts rest, h => by
    rw [nodesS, List.append_eq_nil_iff] at h
    rw [bracketsS, brackets_nil rest h.2, bracketsL_nil ts h.1]; rfl
theorem bracketsO_nil : ∀ (o : OTree α), nodesO o = [] → bracketsO o = []
  | .none, _ => by simp [bracketsO]
  | .some (.mk i s), h => by simp [nodesO, nodes] at h
theorem bracketsL_nil : ∀ (ts : Trees α), nodesL ts = [] → bracketsL ts = []
  | .nil, _ => by simp [bracketsL]
  | .cons o rest, h => by
    rw [nodesL, List.append_eq_nil_iff] at h
    rw [bracketsL, bracketsO_nil o h.1, bracketsL_nil rest h.2]; rfl
end

/-! ## Entering and leaving -/

mutual
theorem entered_nodes : ∀ (t : Tree α), (brackets t).filterMap (fun x => if x.1 = .before then some x.2 else none) = nodes t
  | .mk i slots => by simp [brackets, nodes, List.filterMap_cons, enteredS_nodes slots]
theorem enteredS_nodes : ∀ (s : Slots α), (bracketsS s).filterMap (fun x => if x.1 = .before then some x.2 else none) = nodesS s
  | .nil => by simp [bracketsS, nodesS]
  | .one _ o rest => by simp [bracketsS, nodesS, enteredO_nodes o, enteredS_nodes rest]
  | .many _ ts rest => by simp [bracketsS, nodesS, enteredL_nodes ts, enteredS_nodes rest]
theorem enteredO_nodes : ∀ (o : OTree α), (bracketsO o).filterMap (fun x => if x.1 = .before then some x.2 else none) = nodesO o
  | .none => by simp [bracketsO, nodesO]
  | .some t => by rw [bracketsO, nodesO]; exact entered_nodes t
theorem enteredL_nodes : ∀ (ts : Trees α), (bracketsL ts).filterMap (fun x => if x.1 = .before then some x.2 else none) = nodesL ts
  | .nil => by simp [bracketsL, nodesL]
  | .cons o rest => by simp [bracketsL, nodesL, enteredO_nodes o, enteredL_nodes rest]
end

mutual
theorem left_nodes : ∀ (t : Tree α), ((brackets t).filterMap (fun x => if x.1 = .after then some x.2 else none)).Perm (nodes t)
  | .mk i slots => by
    simp only [brackets, nodes, List.filterMap_cons, List.filterMap_append, reduceCtorEq, if_false, List.filterMap_nil, if_true]
    exact (List.perm_append_comm).trans ((leftS_nodes slots).cons _)
theorem leftS_nodes : ∀ (s : Slots α), ((bracketsS s).filterMap (fun x => if x.1 = .after then some x.2 else none)).Perm (nodesS s)
  | .nil => by simp [bracketsS, nodesS]
  | .one _ o rest => by
    rw [bracketsS, nodesS, List.filterMap_append]; exact (leftO_nodes o).append (leftS_nodes rest)
  | .many _ ts rest => by
    rw [bracketsS, nodesS, List.filterMap_append]; exact (leftL_nodes ts).append (leftS_nodes rest)
theorem leftO_nodes : ∀ (o : OTree α), ((bracketsO o).filterMap (fun x => if x.1 = .after then some x.2 else none)).Perm (nodesO o)
  | .none => by simp [bracketsO, nodesO]
  | .some t => by rw [bracketsO, nodesO]; exact left_nodes t
theorem leftL_nodes : ∀ (ts : Trees α), ((bracketsL ts).filterMap (fun x => if x.1 = .after then some x.2 else none)).Perm (nodesL ts)
  | .nil => by simp [bracketsL, nodesL]
  | .cons o rest => by
    rw [bracketsL, nodesL, List.filterMap_append]; exact (leftO_nodes o).append (leftL_nodes rest)
end

end Mole.Walk
