import Verif.Exec.Vm

/-! The evaluator's walk as a function on the stack. -/

namespace Mole.Exec

open Mole.Walk Mole.Walk.Spec

variable {F : Type}

def exprsLen : Exprs F → Nat
  | .nil => 0
  | .cons _ r => exprsLen r + 1
  | .hole r => exprsLen r + 1

/-- The end of a call. -/
def callStep (ops : Ops F) (n : Nat) (s : List (Val F)) : List (Val F) :=
  let r := popN n [] s
  let f := pop r.2
  match f.1 with
  | .fn vs => .bool (includes ops (r.1.headD .nil) vs) :: f.2
  | _ => .nil :: f.2

/-- The end of a binary expression. -/
def binStep (ops : Ops F) (op : BinOp) (s : List (Val F)) : List (Val F) :=
  let r := pop s
  let l := pop r.2
  match binary ops op l.1 r.1 with
  | some x => x :: l.2
  | none => l.2

mutual
/-- What executing an expression does to the stack; `prop`: it is the property of a member expression. -/
def runE (ops : Ops F) (vars : String → Val F) (prop : Bool) : Expr F → List (Val F) → Stk F
  | .bool b, s => some (.bool b :: s)
  | .null, s => some (.nil :: s)
  | .num f, s => some (.num f :: s)
  | .str x, s => some (.str x :: s)
  | .name n, s => if prop then some (.str n :: s) else if n = "undefined" then some (.nil :: s) else some (vars n :: s)
  | .arr es, s => (runEs ops vars es s).map fun s =>
      let r := popN (exprsLen es) [] s
      .arr (Vals.ofList r.1) :: r.2
  | .member o p _, s => (runE ops vars false o s).bind fun s => (runE ops vars true p s).bind fun s =>
      (member ops (pop (pop s).2).1 (pop s).1).map (· :: (pop (pop s).2).2)
  | .bin op l r, s => (runE ops vars false l s).bind fun s => (runE ops vars false r s).map (binStep ops op)
  | .unary op e, s => (runE ops vars false e s).map fun s => unary ops op (pop s).1 :: (pop s).2
  | .call f as, s => (runE ops vars false f s).bind fun s => (runEs ops vars as s).map (callStep ops (exprsLen as))
  | .cond t c a, s => (runE ops vars false t s).bind fun s => (runE ops vars false c s).bind fun s => runE ops vars false a s
  | .paren e, s => runE ops vars false e s
  | .this, s => some s
def runEs (ops : Ops F) (vars : String → Val F) : Exprs F → List (Val F) → Stk F
  | .nil, s => some s
  | .cons e r, s => (runE ops vars false e s).bind fun s => runEs ops vars r s
  | .hole r, s => runEs ops vars r s
end

theorem treesLen_toTrees : ∀ (es : Exprs F), treesLen (toTrees es) = exprsLen es
  | .nil => by simp [toTrees, treesLen, exprsLen]
  | .cons e r => by simp [toTrees, treesLen, exprsLen, treesLen_toTrees r]
  | .hole r => by simp [toTrees, treesLen, exprsLen, treesLen_toTrees r]

/-- Whether a node is the property of a member expression. -/
def isProp (vcs : List (VC (ENode F))) (k : Key) : Bool :=
  match vcs with
  | [] => false
  | p :: _ => decide (p.node.info.typ = N_EXPR_MEMBER ∧ k = ⟨"Prop", Option.none⟩)

theorem runAll_append {α σ : Type} (a b : List (Call α σ)) (u : σ) : runAll (a ++ b) u = runAll b (runAll a u) := by
  simp [runAll]

theorem no_before (ops : Ops F) (vars : String → Val F) (t : Nat) (h : 0 < t ∧ t < nodeEnd) :
    (env ops vars).listeners (beforeEvent t) = [] := by
  have : beforeEvent t ∉ listened.map afterEvent := by
    intro hm
    obtain ⟨t', ht', he⟩ := List.mem_map.mp hm
    have hb : 0 < t' ∧ t' < nodeEnd := by
      have : ∀ x ∈ listened, 0 < x ∧ x < nodeEnd := by decide
      exact this t' ht'
    exact (events_distinct t t' h hb).2.2.1 he.symm
  simp only [env, this, if_false]

theorem after_listened (ops : Ops F) (vars : String → Val F) (t : Nat) (h : t ∈ listened) :
    (env ops vars).listeners (afterEvent t) = [handler ops vars] := by
  have : afterEvent t ∈ listened.map afterEvent := List.mem_map_of_mem h
  simp only [env, this, if_true]

theorem after_not (ops : Ops F) (vars : String → Val F) (t : Nat) (hb : 0 < t ∧ t < nodeEnd) (h : t ∉ listened) :
    (env ops vars).listeners (afterEvent t) = [] := by
  have : afterEvent t ∉ listened.map afterEvent := by
    intro hm
    obtain ⟨t', ht', he⟩ := List.mem_map.mp hm
    have hb' : 0 < t' ∧ t' < nodeEnd := by
      have : ∀ x ∈ listened, 0 < x ∧ x < nodeEnd := by decide
      exact this t' ht'
    exact h ((events_distinct t t' hb hb').2.1 he.symm ▸ ht')
  simp only [env, this, if_false]

theorem runAll_one {α σ : Type} (ev : Ev) (v : View α) (h : Handler α σ) (u : σ) : runAll (callsOf ev v [h]) u = (h v u).1 := by
  simp [callsOf, callsFrom, runAll]

theorem runAll_none {α σ : Type} (ev : Ev) (v : View α) (u : σ) : runAll (callsOf ev v ([] : List (Handler α σ))) u = u := by
  simp [callsOf, callsFrom, runAll]

theorem env_visitors (ops : Ops F) (vars : String → Val F) : (env ops vars).visitors = visitors := rfl

/-- A node without children. -/
theorem run_atom (ops : Ops F) (vars : String → Val F) (vcs : List (VC (ENode F))) (sc seed : Nat) (k : Key) (t : Nat) (d : ENode F)
    (row : Row) (u : Stk F) (hb : 0 < t ∧ t < nodeEnd) (hv : visitors t = some row) (hs : row.shape = .atom) (he : row.event = t)
    (hl : t ∈ listened) :
    runAll (calls (env ops vars) vcs sc seed k (.mk { typ := t, data := d } .nil)) u =
      u.bind (step ops vars ⟨.mk { typ := t, data := d } .nil, k,
        ⟨.mk { typ := t, data := d } .nil, pathOf (env ops vars) vcs k⟩ :: vcs, sc⟩) := by
  simp only [calls, env_visitors, hv, hs, he, no_before ops vars t hb, after_listened ops vars t hl, runAll_append, runAll_none,
    runAll_one, handler]

/-- A node with children. -/
theorem run_inner (ops : Ops F) (vars : String → Val F) (vcs : List (VC (ENode F))) (sc seed : Nat) (k : Key) (t : Nat) (d : ENode F)
    (slots : Slots (ENode F)) (row : Row) (u : Stk F) (hb : 0 < t ∧ t < nodeEnd) (hv : visitors t = some row)
    (hs : row.shape = .inner .never) (he : row.event = t) :
    runAll (calls (env ops vars) vcs sc seed k (.mk { typ := t, data := d } slots)) u =
      runAll (callsOf .after ⟨.mk { typ := t, data := d } slots, k, ⟨.mk { typ := t, data := d } slots, pathOf (env ops vars) vcs k⟩ :: vcs, sc⟩
          ((env ops vars).listeners (afterEvent t)))
        (runAll (callsS (env ops vars) (⟨.mk { typ := t, data := d } slots, pathOf (env ops vars) vcs k⟩ :: vcs) sc seed slots) u) := by
  simp only [calls, env_visitors, hv, hs, he, no_before ops vars t hb, runAll_append, runAll_none]

section
variable (ops : Ops F) (vars : String → Val F) (sl : Slots (ENode F)) (k : Key) (vc : List (VC (ENode F))) (sc : Nat) (s : List (Val F))

theorem step_name (n : String) (p q : VC (ENode F)) :
    step ops vars ⟨.mk { typ := N_NAME, data := .name n } sl, k, q :: p :: vc, sc⟩ s =
      if p.node.info.typ = N_EXPR_MEMBER ∧ k = ⟨"Prop", Option.none⟩ then some (.str n :: s)
        else if n = "undefined" then some (.nil :: s) else some (vars n :: s) := rfl

theorem step_arr (d : ENode F) : step ops vars ⟨.mk { typ := N_LIT_ARR, data := d } sl, k, vc, sc⟩ s =
    some (.arr (Vals.ofList (popN (manyLen sl) [] s).1) :: (popN (manyLen sl) [] s).2) := rfl

theorem step_member (d : ENode F) : step ops vars ⟨.mk { typ := N_EXPR_MEMBER, data := d } sl, k, vc, sc⟩ s =
    (member ops (pop (pop s).2).1 (pop s).1).map (· :: (pop (pop s).2).2) := rfl

theorem step_bin (op : BinOp) : step ops vars ⟨.mk { typ := N_EXPR_BIN, data := .bin op } sl, k, vc, sc⟩ s =
    some (binStep ops op s) := by
  show (match binary ops op (pop (pop s).2).1 (pop s).1 with
      | some x => some (x :: (pop (pop s).2).2)
      | none => some (pop (pop s).2).2) = _
  rw [binStep]
  cases binary ops op (pop (pop s).2).1 (pop s).1 <;> rfl

theorem step_unary (op : UnOp) : step ops vars ⟨.mk { typ := N_EXPR_UNARY, data := .unary op } sl, k, vc, sc⟩ s =
    some (unary ops op (pop s).1 :: (pop s).2) := rfl

theorem step_call (d : ENode F) : step ops vars ⟨.mk { typ := N_EXPR_CALL, data := d } sl, k, vc, sc⟩ s =
    some (callStep ops (manyLen sl) s) := by
  show (match (pop (popN (manyLen sl) [] s).2).1 with
    | .fn vs => some (Val.bool (includes ops ((popN (manyLen sl) [] s).1.headD .nil) vs) :: (pop (popN (manyLen sl) [] s).2).2)
    | _ => some (Val.nil :: (pop (popN (manyLen sl) [] s).2).2)) = _
  rw [callStep]
  cases (pop (popN (manyLen sl) [] s).2).1 <;> rfl

end

mutual
theorem run_expr (ops : Ops F) (vars : String → Val F) : ∀ (e : Expr F) (vcs : List (VC (ENode F))) (sc seed : Nat) (k : Key) (u : Stk F),
    vcs ≠ [] → runAll (calls (env ops vars) vcs sc seed k (toTree e)) u = u.bind (runE ops vars (isProp vcs k) e)
  | .bool b, vcs, sc, seed, k, u, h => by
    rw [toTree, run_atom ops vars vcs sc seed k N_LIT_BOOL _ _ u (by decide) rfl rfl rfl (by decide)]
    congr 1
  | .null, vcs, sc, seed, k, u, h => by
    rw [toTree, run_atom ops vars vcs sc seed k N_LIT_NULL _ _ u (by decide) rfl rfl rfl (by decide)]
    congr 1
  | .num f, vcs, sc, seed, k, u, h => by
    rw [toTree, run_atom ops vars vcs sc seed k N_LIT_NUM _ _ u (by decide) rfl rfl rfl (by decide)]
    congr 1
  | .str x, vcs, sc, seed, k, u, h => by
    rw [toTree, run_atom ops vars vcs sc seed k N_LIT_STR _ _ u (by decide) rfl rfl rfl (by decide)]
    congr 1
  | .name n, vcs, sc, seed, k, u, h => by
    rw [toTree, run_atom ops vars vcs sc seed k N_NAME _ _ u (by decide) rfl rfl rfl (by decide)]
    congr 1
    funext s
    cases vcs with
    | nil => exact absurd rfl h
    | cons p ps => rw [step_name, runE, isProp]; simp only [decide_eq_true_eq]
  | .arr es, vcs, sc, seed, k, u, h => by
    rw [toTree, run_inner ops vars vcs sc seed k N_LIT_ARR _ _ _ u (by decide) rfl rfl rfl, after_listened ops vars N_LIT_ARR (by decide), runAll_one,
      callsS, callsS, runAll_append, run_exprs ops vars es _ _ _ _ _ _ (by simp)]
    simp only [runAll, List.foldl_nil, handler]
    cases u with
    | none => rfl
    | some s =>
      simp only [Option.bind_some, runE]
      cases runEs ops vars es s with
      | none => rfl
      | some s' => simp [step_arr, manyLen, treesLen_toTrees]
  | .member o p c, vcs, sc, seed, k, u, h => by
    rw [toTree, run_inner ops vars vcs sc seed k N_EXPR_MEMBER _ _ _ u (by decide) rfl rfl rfl, after_listened ops vars N_EXPR_MEMBER (by decide), runAll_one,
      callsS, callsS, callsS, runAll_append, runAll_append, callsO, callsO, run_expr ops vars o _ _ _ _ _ (by simp),
      run_expr ops vars p _ _ _ _ _ (by simp)]
    simp only [runAll, List.foldl_nil, handler, isProp, Tree.info]
    simp only [Key.mk.injEq, String.reduceEq, false_and, and_false, decide_false, and_self, decide_true]
    cases u with
    | none => rfl
    | some s =>
      simp only [Option.bind_some, runE]
      cases runE ops vars false o s with
      | none => rfl
      | some s' =>
        simp only [Option.bind_some]
        cases runE ops vars true p s' with
        | none => rfl
        | some s'' => simp [step_member]
  | .bin op l r, vcs, sc, seed, k, u, h => by
    rw [toTree, run_inner ops vars vcs sc seed k N_EXPR_BIN _ _ _ u (by decide) rfl rfl rfl, after_listened ops vars N_EXPR_BIN (by decide), runAll_one,
      callsS, callsS, callsS, runAll_append, runAll_append, callsO, callsO, run_expr ops vars l _ _ _ _ _ (by simp),
      run_expr ops vars r _ _ _ _ _ (by simp)]
    simp only [runAll, List.foldl_nil, handler, isProp, Tree.info]
    simp only [Key.mk.injEq, String.reduceEq, false_and, and_false, decide_false]
    cases u with
    | none => rfl
    | some s =>
      simp only [Option.bind_some, runE]
      cases runE ops vars false l s with
      | none => rfl
      | some s' =>
        simp only [Option.bind_some]
        cases runE ops vars false r s' with
        | none => rfl
        | some s'' => simp [step_bin]
  | .unary op e, vcs, sc, seed, k, u, h => by
    rw [toTree, run_inner ops vars vcs sc seed k N_EXPR_UNARY _ _ _ u (by decide) rfl rfl rfl, after_listened ops vars N_EXPR_UNARY (by decide), runAll_one,
      callsS, callsS, runAll_append, callsO, run_expr ops vars e _ _ _ _ _ (by simp)]
    simp only [runAll, List.foldl_nil, handler, isProp, Tree.info]
    simp only [Key.mk.injEq, String.reduceEq, false_and, and_false, decide_false]
    cases u with
    | none => rfl
    | some s =>
      simp only [Option.bind_some, runE]
      cases runE ops vars false e s with
      | none => rfl
      | some s' => simp [step_unary]
  | .call f as, vcs, sc, seed, k, u, h => by
    rw [toTree, run_inner ops vars vcs sc seed k N_EXPR_CALL _ _ _ u (by decide) rfl rfl rfl, after_listened ops vars N_EXPR_CALL (by decide), runAll_one,
      callsS, callsS, callsS, runAll_append, runAll_append, callsO, run_expr ops vars f _ _ _ _ _ (by simp),
      run_exprs ops vars as _ _ _ _ _ _ (by simp)]
    simp only [runAll, List.foldl_nil, handler, isProp, Tree.info]
    simp only [Key.mk.injEq, String.reduceEq, false_and, and_false, decide_false]
    cases u with
    | none => rfl
    | some s =>
      simp only [Option.bind_some, runE]
      cases runE ops vars false f s with
      | none => rfl
      | some s' =>
        simp only [Option.bind_some]
        cases runEs ops vars as s' with
        | none => rfl
        | some s'' => simp [step_call, manyLen, treesLen_toTrees]
  | .cond t c a, vcs, sc, seed, k, u, h => by
    rw [toTree, run_inner ops vars vcs sc seed k N_EXPR_COND _ _ _ u (by decide) rfl rfl rfl, after_not ops vars N_EXPR_COND (by decide) (by decide), runAll_none,
      callsS, callsS, callsS, callsS, runAll_append, runAll_append, runAll_append, callsO, callsO, callsO,
      run_expr ops vars t _ _ _ _ _ (by simp), run_expr ops vars c _ _ _ _ _ (by simp), run_expr ops vars a _ _ _ _ _ (by simp)]
    simp only [runAll, List.foldl_nil, isProp, Tree.info]
    simp only [Key.mk.injEq, String.reduceEq, false_and, and_false, decide_false]
    cases u with
    | none => rfl
    | some s =>
      simp only [Option.bind_some, runE]
      cases runE ops vars false t s with
      | none => rfl
      | some s' =>
        simp only [Option.bind_some]
  | .paren e, vcs, sc, seed, k, u, h => by
    rw [toTree, run_inner ops vars vcs sc seed k N_EXPR_PAREN _ _ _ u (by decide) rfl rfl rfl, after_not ops vars N_EXPR_PAREN (by decide) (by decide), runAll_none,
      callsS, callsS, runAll_append, callsO, run_expr ops vars e _ _ _ _ _ (by simp)]
    simp only [runAll, List.foldl_nil, isProp, Tree.info]
    simp only [Key.mk.injEq, String.reduceEq, false_and, and_false, decide_false]
    cases u with
    | none => rfl
    | some s => simp only [Option.bind_some, runE]
  | .this, vcs, sc, seed, k, u, h => by
    have hv : visitors N_EXPR_THIS = some ⟨N_EXPR_THIS, N_EXPR_THIS, .atom, []⟩ := rfl
    simp only [toTree, calls, env_visitors, hv, no_before ops vars N_EXPR_THIS (by decide),
      after_not ops vars N_EXPR_THIS (by decide) (by decide), runAll_append, runAll_none]
    cases u <;> simp [runE]
theorem run_exprs (ops : Ops F) (vars : String → Val F) : ∀ (es : Exprs F) (vcs : List (VC (ENode F))) (sc seed : Nat) (key : String) (n : Nat)
    (u : Stk F), vcs ≠ [] → runAll (callsL (env ops vars) vcs sc seed key n (toTrees es)) u = u.bind (runEs ops vars es)
  | .nil, vcs, sc, seed, key, n, u, h => by
    simp only [toTrees, callsL, runAll, List.foldl_nil]
    cases u <;> simp [runEs]
  | .cons e r, vcs, sc, seed, key, n, u, h => by
    simp only [toTrees, callsL, runAll_append, callsO, run_expr ops vars e _ _ _ _ _ h, run_exprs ops vars r _ _ _ _ _ _ h]
    have : isProp vcs ⟨key, some n⟩ = false := by
      cases vcs with
      | nil => rfl
      | cons p ps => simp [isProp]
    rw [this]
    cases u with
    | none => rfl
    | some s => simp only [Option.bind_some, runEs]
  | .hole r, vcs, sc, seed, key, n, u, h => by
    simp only [toTrees, callsL, runAll_append, callsO, run_exprs ops vars r _ _ _ _ _ _ h]
    cases u with
    | none => rfl
    | some s => simp only [runAll, List.foldl_nil, Option.bind_some, runEs]
end

/-- Walking an expression does to the stack what `runE` does. -/
theorem walk_run (ops : Ops F) (vars : String → Val F) (e : Expr F) (u : Stk F)
    (hp : isProp [⟨toTree e, []⟩] ⟨"", none⟩ = false) :
    ∃ c, walk (env ops vars) (toTree e) u = some c ∧ c.user = u.bind (runE ops vars false e) := by
  obtain ⟨c, h1, _, _, _, h5⟩ := walk_calls_partial (env ops vars) rfl (by
    intro e h hh v u
    simp only [env] at hh
    split at hh
    · simp only [List.mem_singleton] at hh; subst hh; rfl
    · simp at hh) (toTree e) u
  exact ⟨c, h1, by rw [h5, run_expr ops vars e _ _ _ _ _ (by simp), hp]⟩

theorem not_prop (t : Tree (ENode F)) : isProp [⟨t, []⟩] ⟨"", none⟩ = false := by simp [isProp]

theorem exec_run (ops : Ops F) (vars : String → Val F) (e : Expr F) :
    execExpr ops vars e = (runE ops vars false e []).map fun s => (pop s).1 := by
  obtain ⟨c, h1, h2⟩ := walk_run ops vars e (some []) (not_prop _)
  rw [execExpr, exec, h1, Option.bind_some, h2, Option.bind_some]

end Mole.Exec
