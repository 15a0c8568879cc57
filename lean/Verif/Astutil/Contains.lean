import Verif.Walk.Props

/-! Model of ecma/astutil/astutil.go 233-250: whether a node is in a tree (C62). -/

namespace Mole.Astutil

open Mole.Walk Mole.Walk.Spec

variable {α : Type}

/-- astutil.go 239-244: the listener; `same` says whether a node is the one looked for (Go compares pointers). -/
def finder (same : Tree α → Bool) : Handler α Bool := fun v ok => if same v.node then (true, true) else (ok, false)

/-- astutil.go 234, 247: the walk, with the listener on every before event (visitor.go 992-996). -/
def findEnv (same : Tree α → Bool) : Env α Bool where
  visitors := visitors
  listeners := fun e => if e ∈ rows.map (fun r => beforeEvent r.event) then [finder same] else []

/-- astutil.go 233-250 (IsNodeContains); `none` is a panic. -/
def isNodeContains (same : Tree α → Bool) (parent : Tree α) : Option Bool :=
  (walk (findEnv same) parent false).map fun c => c.user

/-- A tree all of whose nodes have a visitor, which visits their children. -/
def Visited (l : List (Tree α)) : Prop :=
  ∀ t ∈ l, ∃ row, visitors t.info.typ = some row ∧ (row.shape = .atom → nodes t = [t])

theorem find_listener (same : Tree α → Bool) {t : Nat} {row : Row} (h : visitors t = some row) :
    (findEnv same).listeners (beforeEvent row.event) = [finder same] := by
  have : beforeEvent row.event ∈ rows.map (fun r => beforeEvent r.event) :=
    List.mem_map.mpr ⟨row, List.mem_of_find?_eq_some h, rfl⟩
  simp only [findEnv, this, if_true]

theorem vis_tail {i : Info α} {s : Slots α} (h : Visited (nodes (.mk i s))) : Visited (nodesS s) :=
  fun t ht => h t (by rw [nodes]; exact List.mem_cons_of_mem _ ht)

mutual
theorem covers (same : Tree α → Bool) : ∀ (t : Tree α) (vcs : List (VC α)) (sc seed : Nat) (k : Key), Visited (nodes t) →
    ∀ n ∈ nodes t, ∃ x ∈ calls (findEnv same) vcs sc seed k t, x.view.node = n ∧ x.h = finder same
  | .mk i slots, vcs, sc, seed, k, hv, n, hn => by
    obtain ⟨row, h1, h2⟩ := hv (.mk i slots) (self_nodes _)
    simp only [Tree.info] at h1
    have hl := find_listener same h1
    rw [nodes] at hn
    have hvis : (findEnv same).visitors i.typ = some row := h1
    simp only [calls, hvis]
    cases hs : row.shape with
    | atom =>
      have h2 := h2 hs
      rw [nodes] at h2
      have h3 : nodesS slots = [] := by simpa using h2
      rw [h3, List.mem_singleton] at hn
      subst hn
      simp [hl, callsOf, callsFrom]
    | inner p =>
      rcases List.mem_cons.mp hn with rfl | hn
      · cases p <;> simp [hl, callsOf, callsFrom]
      · cases p with
        | never =>
          obtain ⟨x, hx, hx'⟩ := coversS same slots _ sc seed (vis_tail hv) n hn
          exact ⟨x, List.mem_append_right _ (List.mem_append_left _ hx), hx'⟩
        | before =>
          obtain ⟨x, hx, hx'⟩ := coversS same slots _ _ _ (vis_tail hv) n hn
          exact ⟨x, List.mem_append_right _ (List.mem_append_left _ hx), hx'⟩
        | afterFirst =>
          obtain ⟨x, hx, hx'⟩ := coversF same slots _ sc seed i (vis_tail hv) n hn
          exact ⟨x, List.mem_append_right _ (List.mem_append_left _ hx), hx'⟩
theorem coversS (same : Tree α → Bool) : ∀ (s : Slots α) (vcs : List (VC α)) (sc seed : Nat), Visited (nodesS s) →
    ∀ n ∈ nodesS s, ∃ x ∈ callsS (findEnv same) vcs sc seed s, x.view.node = n ∧ x.h = finder same
  | .nil, vcs, sc, seed, hv, n, hn => by simp [nodesS] at hn
  | .one key o rest, vcs, sc, seed, hv, n, hn => by
    rw [nodesS] at hn hv
    rw [callsS]
    rcases List.mem_append.mp hn with hn | hn
    · obtain ⟨x, hx, hx'⟩ := coversO same o vcs sc seed _ (fun t ht => hv t (List.mem_append_left _ ht)) n hn
      exact ⟨x, List.mem_append_left _ hx, hx'⟩
    · obtain ⟨x, hx, hx'⟩ := coversS same rest vcs sc _ (fun t ht => hv t (List.mem_append_right _ ht)) n hn
      exact ⟨x, List.mem_append_right _ hx, hx'⟩
  | .many key ts rest, vcs, sc, seed, hv, n, hn => by
    rw [nodesS] at hn hv
    rw [callsS]
    rcases List.mem_append.mp hn with hn | hn
    · obtain ⟨x, hx, hx'⟩ := coversL same ts vcs sc seed _ _ (fun t ht => hv t (List.mem_append_left _ ht)) n hn
      exact ⟨x, List.mem_append_left _ hx, hx'⟩
    · obtain ⟨x, hx, hx'⟩ := coversS same rest vcs sc _ (fun t ht => hv t (List.mem_append_right _ ht)) n hn
      exact ⟨x, List.mem_append_right _ hx, hx'⟩
theorem coversF (same : Tree α → Bool) : ∀ (s : Slots α) (vcs : List (VC α)) (sc seed : Nat) (i : Info α), Visited (nodesS s) →
    ∀ n ∈ nodesS s, ∃ x ∈ callsF (findEnv same) vcs sc seed i s, x.view.node = n ∧ x.h = finder same
  | .nil, vcs, sc, seed, i, hv, n, hn => by simp [nodesS] at hn
  | .one key o rest, vcs, sc, seed, i, hv, n, hn => by
    rw [nodesS] at hn hv
    rw [callsF]
    rcases List.mem_append.mp hn with hn | hn
    · obtain ⟨x, hx, hx'⟩ := coversO same o vcs sc seed _ (fun t ht => hv t (List.mem_append_left _ ht)) n hn
      exact ⟨x, List.mem_append_left _ hx, hx'⟩
    · obtain ⟨x, hx, hx'⟩ := coversS same rest vcs _ _ (fun t ht => hv t (List.mem_append_right _ ht)) n hn
      exact ⟨x, List.mem_append_right _ hx, hx'⟩
  | .many key ts rest, vcs, sc, seed, i, hv, n, hn => by
    rw [nodesS] at hn hv
    rw [callsF]
    rcases List.mem_append.mp hn with hn | hn
    · obtain ⟨x, hx, hx'⟩ := coversL same ts vcs sc seed _ _ (fun t ht => hv t (List.mem_append_left _ ht)) n hn
      exact ⟨x, List.mem_append_left _ hx, hx'⟩
    · obtain ⟨x, hx, hx'⟩ := coversS same rest vcs _ _ (fun t ht => hv t (List.mem_append_right _ ht)) n hn
      exact ⟨x, List.mem_append_right _ hx, hx'⟩
theorem coversO (same : Tree α → Bool) : ∀ (o : OTree α) (vcs : List (VC α)) (sc seed : Nat) (k : Key), Visited (nodesO o) →
    ∀ n ∈ nodesO o, ∃ x ∈ callsO (findEnv same) vcs sc seed k o, x.view.node = n ∧ x.h = finder same
  | .none, vcs, sc, seed, k, hv, n, hn => by simp [nodesO] at hn
  | .some t, vcs, sc, seed, k, hv, n, hn => by
    rw [nodesO] at hn hv; rw [callsO]; exact covers same t vcs sc seed k hv n hn
theorem coversL (same : Tree α → Bool) : ∀ (ts : Trees α) (vcs : List (VC α)) (sc seed : Nat) (key : String) (m : Nat), Visited (nodesL ts) →
    ∀ n ∈ nodesL ts, ∃ x ∈ callsL (findEnv same) vcs sc seed key m ts, x.view.node = n ∧ x.h = finder same
  | .nil, vcs, sc, seed, key, m, hv, n, hn => by simp [nodesL] at hn
  | .cons o rest, vcs, sc, seed, key, m, hv, n, hn => by
    rw [nodesL] at hn hv
    rw [callsL]
    rcases List.mem_append.mp hn with hn | hn
    · obtain ⟨x, hx, hx'⟩ := coversO same o vcs sc seed _ (fun t ht => hv t (List.mem_append_left _ ht)) n hn
      exact ⟨x, List.mem_append_left _ hx, hx'⟩
    · obtain ⟨x, hx, hx'⟩ := coversL same rest vcs sc _ _ _ (fun t ht => hv t (List.mem_append_right _ ht)) n hn
      exact ⟨x, List.mem_append_right _ hx, hx'⟩
end

theorem find_handler (same : Tree α → Bool) (t : Tree α) (vcs : List (VC α)) (sc seed : Nat) (k : Key) :
    ∀ x ∈ calls (findEnv same) vcs sc seed k t, x.h = finder same := by
  intro x hx
  obtain ⟨e, he⟩ := calls_listener (findEnv same) t _ _ _ _ x hx
  simp only [findEnv] at he
  split at he
  · simpa using he
  · simp at he

theorem run_finder (same : Tree α → Bool) : ∀ (L : List (Call α Bool)), (∀ x ∈ L, x.h = finder same) → ∀ ok,
    runAll L ok = (ok || L.any (fun x => same x.view.node)) := by
  intro L
  induction L with
  | nil => intro _ ok; simp [runAll]
  | cons x L ih =>
    intro h ok
    have hx := h x (List.mem_cons_self ..)
    have := ih (fun y hy => h y (List.mem_cons_of_mem _ hy)) (x.h x.view ok).1
    simp only [runAll, List.foldl_cons] at this ⊢
    rw [this, hx, finder]
    by_cases hs : same x.view.node = true <;> simp [hs]

theorem quiet_finder (same : Tree α → Bool) : ∀ (L : List (Call α Bool)), (∀ x ∈ L, x.h = finder same) → ∀ ok, Quiet L ok →
    L.any (fun x => same x.view.node) = false := by
  intro L
  induction L with
  | nil => intro _ ok _; rfl
  | cons x L ih =>
    intro h ok hq
    have hx := h x (List.mem_cons_self ..)
    obtain ⟨h1, h2⟩ := hq
    rw [List.any_cons, ih (fun y hy => h y (List.mem_cons_of_mem _ hy)) _ h2]
    rw [hx, finder] at h1
    by_cases hs : same x.view.node = true
    · simp [hs] at h1
    · simp [hs]

/-! ## Properties (C62) -/

/-- **C62, no false answers**.  If the node is said to be in the tree, it is. -/
theorem contains_sound (same : Tree α → Bool) (t : Tree α) (h : isNodeContains same t = some true) : ∃ n ∈ nodes t, same n = true := by
  obtain ⟨c, h1, _, _, h4⟩ := stop_partial (findEnv same) rfl t false
  rw [isNodeContains, h1] at h
  simp only [Option.map_some, Option.some.injEq] at h
  have hsub : ∀ L : List (Call α Bool), (∀ y ∈ L, y ∈ calls (findEnv same) [⟨t, []⟩] 0 1 ⟨"", none⟩ t) → runAll L false = true →
      ∃ n ∈ nodes t, same n = true := by
    intro L hL hr
    rw [run_finder same L (fun y hy => find_handler same t _ _ _ _ y (hL y hy)), Bool.false_or, List.any_eq_true] at hr
    obtain ⟨y, hy, hs⟩ := hr
    exact ⟨_, calls_nodes (findEnv same) t _ _ _ _ y (hL y hy), hs⟩
  rcases h4 with ⟨_, _, h5⟩ | ⟨_, pre, x, post, extra, e1, _, _, e4, _, e6⟩
  · exact hsub _ (fun y hy => hy) (by rw [← h5, h])
  · refine hsub (pre ++ x :: extra) ?_ (by rw [← e6, h])
    intro y hy
    rw [e1]
    rcases List.mem_append.mp hy with hy | hy
    · exact List.mem_append_left _ hy
    · rcases List.mem_cons.mp hy with rfl | hy
      · simp
      · exact List.mem_append_right _ (List.mem_cons_of_mem _ (e4.subset hy))

/-- **C62** (partial: for trees all of whose nodes have a visitor, see `empty_stmt_contains_violated`).  The answer is always
given, and it is whether the node is one of the tree's. -/
theorem contains_iff_partial (same : Tree α → Bool) (t : Tree α) (hv : Visited (nodes t)) :
    isNodeContains same t = some ((nodes t).any same) := by
  obtain ⟨c, h1, _, _, h4⟩ := stop_partial (findEnv same) rfl t false
  have hh := find_handler same t [⟨t, []⟩] 0 1 ⟨"", none⟩
  rw [isNodeContains, h1]
  simp only [Option.map_some, Option.some.injEq]
  rcases h4 with ⟨_, h3, h5⟩ | ⟨_, pre, x, post, extra, e1, e2, e3, e4, _, e6⟩
  · have hq := quiet_finder same _ hh _ h3
    rw [h5, run_finder same _ hh, hq, Bool.or_false]
    symm
    rw [List.any_eq_false]
    intro n hn
    obtain ⟨y, hy, hy1, _⟩ := covers same t [⟨t, []⟩] 0 1 ⟨"", none⟩ hv n hn
    rw [List.any_eq_false] at hq
    rw [← hy1]
    exact hq y hy
  · have hx : x ∈ calls (findEnv same) [⟨t, []⟩] 0 1 ⟨"", none⟩ t := by rw [e1]; simp
    have hs : same x.view.node = true := by
      rw [hh x hx, finder] at e3
      by_cases hs : same x.view.node = true
      · exact hs
      · simp [hs] at e3
    have hall : ∀ y ∈ pre ++ x :: extra, y.h = finder same := by
      intro y hy
      refine hh y ?_
      rw [e1]
      rcases List.mem_append.mp hy with hy | hy
      · exact List.mem_append_left _ hy
      · rcases List.mem_cons.mp hy with rfl | hy
        · simp
        · exact List.mem_append_right _ (List.mem_cons_of_mem _ (e4.subset hy))
    have h2 : (nodes t).any same = true := List.any_eq_true.mpr ⟨_, calls_nodes (findEnv same) t _ _ _ _ x hx, hs⟩
    rw [e6, run_finder same _ hall, h2]
    simp [hs]

example : Visited (nodes (prog [block [exprStmt (bin "+" (leaf N_NAME "a") (leaf N_NAME "b"))]])) := by
  intro t ht
  simp only [prog, block, exprStmt, bin, leaf, treesOf, nodes, nodesS, nodesL, nodesO, List.append_nil, List.mem_cons,
    List.cons_append, List.nil_append, List.not_mem_nil, or_false] at ht
  rcases ht with rfl | rfl | rfl | rfl | rfl | rfl
  all_goals exact ⟨_, rfl, by simp [nodes, nodesS]⟩

example : isNodeContains (fun t => t.info.data == "b")
    (prog [block [exprStmt (bin "+" (leaf N_NAME "a") (leaf N_NAME "b"))]]) = some true := by decide +kernel

/-- **C62 is violated** by the empty statement, which no listener is told of. -/
theorem empty_stmt_contains_violated :
    isNodeContains (fun t => t.info.typ == N_STMT_EMPTY) (prog [leaf N_STMT_EMPTY ""]) = some false ∧
    leaf N_STMT_EMPTY "" ∈ nodes (prog [leaf N_STMT_EMPTY ""]) := by
  refine ⟨by decide +kernel, ?_⟩
  simp [prog, leaf, treesOf, nodes, nodesS, nodesL, nodesO]

end Mole.Astutil
