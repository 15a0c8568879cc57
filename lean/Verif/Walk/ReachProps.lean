import Verif.Walk.ReachLemmas

/-! C70: a walk reaches every node of the tree the parser made. -/

namespace Mole.Walk

open Spec

variable {α σ : Type}

/-- A listener which notes every node it is told about. -/
def notesInfo : Handler α (List (Info α)) := fun v u => (u ++ [v.node.info], false)

theorem run_notes (L : List (Call α (List (Info α)))) (h : ∀ x ∈ L, x.h = notesInfo) (u : List (Info α)) :
    runAll L u = u ++ callees L := by
  induction L generalizing u with
  | nil => simp [runAll, callees]
  | cons x L ih =>
    have hx := h x (by simp)
    have := ih (fun y hy => h y (by simp [hy])) (u ++ [x.view.node.info])
    simp only [runAll, List.foldl_cons, hx, notesInfo] at this ⊢
    rw [this]
    simp [callees]

theorem heard_told (env : Env α σ) (hv : env.visitors = visitors) (l : List (Tree α))
    (hd : ∀ i s, Tree.mk i s ∈ l → declared i.typ ≠ none) : heard env l = told (infos l) := by
  have key : ∀ i : Info α, declared i.typ ≠ none → (visitors i.typ).isSome = (i.typ != N_STMT_EMPTY) := by
    intro i h
    obtain ⟨ds, hds⟩ := Option.ne_none_iff_exists'.1 h
    have hm := declared_mem hds
    have tab : ∀ r ∈ declaredRows, (visitors r.1).isSome = (r.1 != N_STMT_EMPTY) := by
      set_option maxRecDepth 1000000 in decide +kernel
    exact tab _ hm
  simp only [heard, told]
  refine List.filter_congr (fun i hi => ?_)
  simp only [infos, List.mem_map] at hi
  obtain ⟨t, ht, rfl⟩ := hi
  cases t with
  | mk i s => rw [hv]; exact key i (hd i s ht)

/-- **C70** (partial: for trees without types and decorators, without namespaced names in JSX and without double
parentheses, see the violations below).  When a tree of nodes as the parser declares them is walked with the default
visitors and with a listener on every event, the listener is told about every node of the tree, once on entering and
once on leaving it, and about nothing else; only the empty statements are left out. -/
theorem walk_reaches_partial (env : Env α (List (Info α))) (hv : env.visitors = visitors) (hr : env.raise = false)
    (hl : ∀ e, env.listeners e = [notesInfo]) (t : Tree α) (hd : Declared t) (hp : Plain t) :
    ∃ c, walk env (seen t) [] = some c ∧
      c.user.Perm (told ((nodes t).map Tree.info) ++ told ((nodes t).map Tree.info)) := by
  obtain ⟨c, h1, h2, h3, h4, h5⟩ := walk_calls_partial env hr (by intro e h hh; simp [hl] at hh; subst hh; simp [notesInfo]) (seen t) []
  refine ⟨c, h1, ?_⟩
  rw [h5, run_notes, List.nil_append]
  · refine (callees_tree env (fun e => ⟨_, hl e⟩) (seen t) _ _ _ _ (seen_leafy env hv _ (seen_all t))).trans ?_
    have hs : (infos (nodes (seen t))).Perm (infos (nodes t)) := seen_perm t (fun i s hm => ⟨hd i s hm, hp i s hm⟩)
    have hh : (heard env (nodes (seen t))).Perm (told (infos (nodes t))) := by
      rw [← heard_told env hv (nodes t) (fun i s hm => by rw [hd i s hm]; simp)]
      exact hs.filter _
    exact hh.append hh
  · intro x hx
    obtain ⟨e, he⟩ := calls_listener env (seen t) _ _ _ _ x hx
    simpa [hl] using he

/-- **C70 is violated**: decorators are reached by no walk, whatever the tree, though there is an event for them: a
listener for decorators is never called, and neither are those for what is in the decorators. -/
theorem decorators_violated (env : Env α (List (Info α))) (hr : env.raise = false)
    (hl : ∀ e, env.listeners e = [notesInfo]) (t : Tree α) (h : ∀ i s, Tree.mk i s ∈ nodes t → onlyDecorates s)
    (ht : t.info.typ ≠ N_DECORATOR) :
    ∃ c, walk env (seen t) [] = some c ∧ ∀ i ∈ c.user, i.typ ≠ N_DECORATOR := by
  obtain ⟨c, h1, h2, h3, h4, h5⟩ := walk_calls_partial env hr (by intro e h hh; simp [hl] at hh; subst hh; simp [notesInfo]) (seen t) []
  refine ⟨c, h1, ?_⟩
  rw [h5, run_notes, List.nil_append]
  · intro i hi
    simp only [callees, List.mem_map] at hi
    obtain ⟨x, hx, rfl⟩ := hi
    exact dec_tree t h ht _ (calls_nodes env (seen t) _ _ _ _ x hx)
  · intro x hx
    obtain ⟨e, he⟩ := calls_listener env (seen t) _ _ _ _ x hx
    simpa [hl] using he

/-! ## Examples -/

/-- A walk with the default visitors and a noting listener on every event. -/
def exEnv : Env String (List (Info String)) := { visitors := visitors, listeners := fun _ => [notesInfo] }

/-- The types of the nodes the listener is told about. -/
def toldTypes (t : Tree String) : Option (List Nat) := (walk exEnv (seen t) []).map (fun c => c.user.map Info.typ)

/-- What is kept beside a node. -/
def beside (annot : OTree String) (decorators : List (Tree String)) (rest : Slots String := .nil) : Slots String :=
  .one "TypInfo.TypAnnot" annot (.one "TypInfo.TypParams" .none (.one "TypInfo.TypArgs" .none
    (.many "TypInfo.Decorators" (treesOf decorators) (.one "TypInfo.SuperTypArgs" .none (.many "TypInfo.Implements" .nil rest)))))

def exName (s : String) (annot : OTree String := .none) : Tree String := .mk { typ := N_NAME, data := s } (beside annot [])
def exParen (t : Tree String) : Tree String := .mk { typ := N_EXPR_PAREN, data := "" } (.one "Expr" (.some t) .nil)
def exStmt (t : Tree String) : Tree String := .mk { typ := N_STMT_EXPR, data := "" } (.one "Expr" (.some t) .nil)
def exEmpty : Tree String := .mk { typ := N_STMT_EMPTY, data := "" } .nil
def exIf (a b c : Tree String) : Tree String :=
  .mk { typ := N_STMT_IF, data := "" } (.one "Test" (.some a) (.one "Cons" (.some b) (.one "Alt" (.some c) .nil)))
def exProg (l : List (Tree String)) : Tree String := .mk { typ := N_PROG, data := "" } (.many "Body" (treesOf l) .nil)

/-- `if (a) (b); else ;` -/
def exPlain : Tree String := exProg [exIf (exName "a") (exStmt (exParen (exName "b"))) exEmpty]

theorem exPlain_nodes : nodes exPlain = [exPlain, exIf (exName "a") (exStmt (exParen (exName "b"))) exEmpty, exName "a",
    exStmt (exParen (exName "b")), exParen (exName "b"), exName "b", exEmpty] := rfl

example : Declared exPlain ∧ Plain exPlain := by
  refine ⟨?_, ?_⟩
  · intro i s h
    rw [exPlain_nodes] at h
    simp only [List.mem_cons, List.not_mem_nil, or_false] at h
    rcases h with h | h | h | h | h | h | h <;> cases h <;> rfl
  · intro i s h
    rw [exPlain_nodes] at h
    simp only [List.mem_cons, List.not_mem_nil, or_false] at h
    rcases h with h | h | h | h | h | h | h <;> cases h <;>
      simp [offWalk, emptyAt, beside, treesOf, parenInside, isA, exName, Tree.info, N_NAME, N_EXPR_PAREN, N_STMT_EXPR, exParen]

set_option maxRecDepth 1000000 in
example : toldTypes exPlain = some [N_PROG, N_STMT_IF, N_NAME, N_NAME, N_STMT_EXPR, N_EXPR_PAREN, N_NAME, N_NAME, N_EXPR_PAREN,
    N_STMT_EXPR, N_STMT_IF, N_PROG] := by decide +kernel

/-! ## Violations -/

/-- `let a: b` -/
def exTyped : Tree String := exProg [.mk { typ := N_STMT_VAR_DEC, data := "let" } (.many "DecList" (treesOf
  [.mk { typ := N_VAR_DEC, data := "" } (.one "Id" (.some (exName "a" (.some (.mk { typ := N_TS_TYP_ANNOT, data := "" }
    (.one "TsTyp" (.some (.mk { typ := N_TS_REF, data := "" } (.one "Name" (.some (exName "b")) (.one "ParamsInst" .none .nil)))) .nil)))))
    (.one "Init" .none .nil))]) .nil)]

set_option maxRecDepth 1000000 in
/-- **C70 is violated**: the type in `let a: b` is not reached, and neither is the name in it. -/
theorem annotation_violated : N_TS_TYP_ANNOT ∈ (nodes exTyped).map (fun n => n.info.typ) ∧
    toldTypes exTyped = some [N_PROG, N_STMT_VAR_DEC, N_VAR_DEC, N_NAME, N_NAME, N_VAR_DEC, N_STMT_VAR_DEC, N_PROG] := by
  decide +kernel

/-- `type a = b` -/
def exAlias : Tree String := exProg [.mk { typ := N_TS_TYP_DEC, data := "" } (.one "Id" (.some (exName "a"))
  (beside (.some (.mk { typ := N_TS_TYP_ANNOT, data := "" }
    (.one "TsTyp" (.some (.mk { typ := N_TS_REF, data := "" } (.one "Name" (.some (exName "b")) (.one "ParamsInst" .none .nil)))) .nil))) []))]

set_option maxRecDepth 1000000 in
/-- **C70 is violated**: the right hand side of `type a = b` is not reached. -/
theorem alias_violated : N_TS_TYP_ANNOT ∈ (nodes exAlias).map (fun n => n.info.typ) ∧
    toldTypes exAlias = some [N_PROG, N_TS_TYP_DEC, N_NAME, N_NAME, N_TS_TYP_DEC, N_PROG] := by
  decide +kernel

/-- `((a))` -/
def exParens : Tree String := exProg [exStmt (exParen (exParen (exName "a")))]

set_option maxRecDepth 1000000 in
/-- **C70 is violated**: of the two parentheses in `((a))` only the outer one is reached. -/
theorem parens_violated : ((nodes exParens).filter (fun n => n.info.typ == N_EXPR_PAREN)).length = 2 ∧
    toldTypes exParens = some [N_PROG, N_STMT_EXPR, N_EXPR_PAREN, N_NAME, N_NAME, N_EXPR_PAREN, N_STMT_EXPR, N_PROG] := by
  decide +kernel

/-- `<a:b/>` -/
def exNs : Tree String := .mk { typ := N_JSX_ELEM, data := "" } (.one "Open" (.some (.mk { typ := N_JSX_OPEN, data := "" }
    (.one "Name" (.some (.mk { typ := N_JSX_NS, data := "" } (.one "ns" (.some (.mk { typ := N_JSX_ID, data := "a" } (beside .none [])))
      (.one "name" (.some (.mk { typ := N_JSX_ID, data := "b" } (beside .none []))) .nil)))) (.many "Attrs" .nil .nil))))
  (.one "Close" .none (.many "Children" .nil .nil)))

set_option maxRecDepth 1000000 in
/-- **C70 is violated**: the two names in `<a:b/>` are not reached. -/
theorem namespace_violated : ((nodes exNs).filter (fun n => n.info.typ == N_JSX_ID)).length = 2 ∧
    toldTypes exNs = some [N_JSX_ELEM, N_JSX_OPEN, N_JSX_NS, N_JSX_NS, N_JSX_OPEN, N_JSX_ELEM] := by
  decide +kernel

/-- `@a class b {}`, as the decorator and the class. -/
def exDecorated : Tree String := exProg [.mk { typ := N_STMT_CLASS, data := "" } (.one "Id" (.some (exName "b")) (.one "Super" .none
  (.one "Body" (.some (.mk { typ := N_CLASS_BODY, data := "" } (.many "Elems" .nil .nil)))
    (beside .none [.mk { typ := N_DECORATOR, data := "" } (.one "Expr" (.some (exName "a")) .nil)]))))]

set_option maxRecDepth 1000000 in
/-- The decorator of `@a class b {}` is in the tree, and the tree meets the hypotheses of `decorators_violated`. -/
example : N_DECORATOR ∈ (nodes exDecorated).map (fun n => n.info.typ) ∧ exDecorated.info.typ ≠ N_DECORATOR ∧
    toldTypes exDecorated = some [N_PROG, N_STMT_CLASS, N_NAME, N_NAME, N_CLASS_BODY, N_CLASS_BODY, N_STMT_CLASS, N_PROG] := by
  decide +kernel

example : ∀ i s, Tree.mk i s ∈ nodes exDecorated → onlyDecorates s := by
  intro i s h
  simp only [exDecorated, exProg, exName, nodes, nodesS, nodesO, nodesL, treesOf, beside, List.mem_cons, List.not_mem_nil, or_false,
    List.append_nil, List.nil_append, List.cons_append] at h
  rcases h with h | h | h | h | h | h <;> cases h <;>
    simp [onlyDecorates, isA, someIsA, Tree.info, N_DECORATOR, N_STMT_CLASS, N_NAME, N_CLASS_BODY]

end Mole.Walk
