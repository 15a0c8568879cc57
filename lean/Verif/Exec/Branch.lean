import Verif.Exec.Props

/-! C34: the branches of a conditional that are selected (ecma/astutil/astutil.go 129-201). -/

namespace Mole.Exec

open Spec

variable {F : Type}

/-- The nodes SelectTrueBranches is given or returns: an expression, an if statement without and with an else branch, or some
other statement. -/
inductive BNode (F : Type) where
  | expr (e : Expr F)
  | ifs (test : Expr F) (cons : BNode F)
  | ifElse (test : Expr F) (cons alt : BNode F)
  | stmt (n : Nat)

/-- astutil.go 129-133. -/
structure Branch (F : Type) where
  negative : Bool
  test : Option (Expr F)
  body : BNode F

/-- astutil.go 150-168 (BinExprToSwitchBranch, CondExprToSwitchBranches), 170-181 (NodeToSwitchBranches on an
expression). -/
def exprBranches : Expr F → List (Branch F)
  | .bin .and l r => [⟨false, none, .expr l⟩, ⟨false, some l, .expr r⟩]
  | .bin .or l r => [⟨false, none, .expr l⟩, ⟨true, some l, .expr r⟩]
  | .bin _ l r => [⟨false, none, .expr l⟩, ⟨true, none, .expr r⟩]
  | .cond t c a => [⟨false, some t, .expr c⟩, ⟨true, some t, .expr a⟩]
  | _ => []

/-- Whether a node is an if statement. -/
def isIf : BNode F → Bool
  | .ifs _ _ => true
  | .ifElse _ _ _ => true
  | _ => false

/-- astutil.go 135-148 (IfStmtToSwitchBranches), 170-181 (NodeToSwitchBranches). -/
def branches : BNode F → List (Branch F)
  | .expr e => exprBranches e
  | .ifs test cons => exprBranches test ++ [⟨false, some test, cons⟩]
  | .ifElse test cons alt =>
    exprBranches test ++ [⟨false, some test, cons⟩] ++ (if isIf alt then branches alt else [⟨true, some test, alt⟩])
  | .stmt _ => []

/-- astutil.go 190-194: the truth of a test; a nil test evaluates to nil.  `none` is a panic. -/
def testTrue (ops : Ops F) (vars : String → Val F) : Option (Expr F) → Option Bool
  | none => some (toBool ops .nil)
  | some e => (execExpr ops vars e).map (toBool ops)

/-- astutil.go 183-201 (SelectTrueBranches), the loop. -/
def selectLoop (ops : Ops F) (vars : String → Val F) : List (Branch F) → List (BNode F) → Option (List (BNode F))
  | [], tbs => some tbs
  | b :: bs, tbs =>
    let tbs := if b.test.isNone then tbs ++ [b.body] else tbs
    match testTrue ops vars b.test with
    | none => none
    | some bv => selectLoop ops vars bs (if (!b.negative && bv) || (b.negative && !bv) then tbs ++ [b.body] else tbs)

/-- astutil.go 183-201 (SelectTrueBranches). -/
def select (ops : Ops F) (vars : String → Val F) (n : BNode F) : Option (List (BNode F)) := selectLoop ops vars (branches n) []

/-! ## What a conditional executes -/

/-- The operands of an expression that are evaluated for their branch: the left side of a binary operator always, the right
side of `&&` and `||` if the left side is true or false, and one branch of a conditional. -/
def operands (holds : Expr F → Bool) : Expr F → List (BNode F)
  | .bin .and l r => .expr l :: (if holds l then [.expr r] else [])
  | .bin .or l r => .expr l :: (if holds l then [] else [.expr r])
  | .bin _ l r => [.expr l, .expr r]
  | .cond t c a => if holds t then [.expr c] else [.expr a]
  | _ => []

/-- The branches a conditional executes: of an if statement the operands of its test, and the first branch if
the test holds, or else the other one, which for `else if` is again a conditional. -/
def chosen (holds : Expr F → Bool) : BNode F → List (BNode F)
  | .expr e => operands holds e
  | .ifs test cons => operands holds test ++ (if holds test then [cons] else [])
  | .ifElse test cons alt =>
    operands holds test ++ (if holds test then [cons] else if isIf alt then chosen holds alt else [alt])
  | .stmt _ => []

/-! ## Proofs -/

/-- What one branch contributes. -/
def contribution (holds : Expr F → Bool) (b : Branch F) : List (BNode F) :=
  (if b.test.isNone then [b.body] else []) ++
  (if (match b.test with
    | none => false
    | some e => holds e) != b.negative then [b.body] else [])

theorem selectLoop_eq (ops : Ops F) (vars : String → Val F) (holds : Expr F → Bool)
    (hh : ∀ e, ∃ v, execExpr ops vars e = some v ∧ toBool ops v = holds e) : ∀ (bs : List (Branch F)) (tbs : List (BNode F)),
    selectLoop ops vars bs tbs = some (tbs ++ bs.flatMap (contribution holds))
  | [], tbs => by simp [selectLoop]
  | b :: bs, tbs => by
    obtain ⟨neg, test, body⟩ := b
    rw [selectLoop]
    cases test with
    | none =>
      simp only [testTrue, toBool, selectLoop_eq ops vars holds hh bs, List.flatMap_cons, contribution]
      cases neg <;> simp
    | some e =>
      obtain ⟨v, h1, h2⟩ := hh e
      simp only [testTrue, h1, Option.map_some, h2, selectLoop_eq ops vars holds hh bs, List.flatMap_cons, contribution]
      cases neg <;> cases holds e <;> simp

theorem operands_sublist (holds : Expr F → Bool) (e : Expr F) :
    (operands holds e).Sublist ((exprBranches e).flatMap (contribution holds)) := by
  cases e with
  | bin op l r =>
    cases op <;>
      simp [operands, exprBranches, contribution] <;> cases holds l <;> simp
  | cond t c a => simp [operands, exprBranches, contribution]; cases holds t <;> simp
  | _ => simp [operands, exprBranches]

/-- The expressions without a binary operator other than `&&` and `||` at their root. -/
def NoArith : Expr F → Prop
  | .bin .and _ _ => True
  | .bin .or _ _ => True
  | .bin _ _ _ => False
  | _ => True

theorem operands_eq (holds : Expr F → Bool) (e : Expr F) (h : NoArith e) :
    operands holds e = (exprBranches e).flatMap (contribution holds) := by
  cases e with
  | bin op l r =>
    cases op <;> simp [NoArith] at h <;>
      simp [operands, exprBranches, contribution] <;> cases holds l <;> simp
  | cond t c a => simp [operands, exprBranches, contribution]; cases holds t <;> simp
  | _ => simp [operands, exprBranches]

theorem chosen_sublist (holds : Expr F → Bool) : ∀ (n : BNode F),
    (chosen holds n).Sublist ((branches n).flatMap (contribution holds))
  | .expr e => operands_sublist holds e
  | .ifs test cons => by
    rw [chosen, branches, List.flatMap_append]
    refine (operands_sublist holds test).append ?_
    simp [contribution]
  | .ifElse test cons alt => by
    rw [chosen, branches, List.flatMap_append, List.flatMap_append, List.append_assoc]
    refine (operands_sublist holds test).append ?_
    cases ht : holds test
    · simp only [Bool.false_eq_true, if_false]
      refine List.Sublist.trans ?_ (List.sublist_append_right _ _)
      by_cases hi : isIf alt = true
      · simp only [hi, if_true]; exact chosen_sublist holds alt
      · simp [hi, contribution, ht]
    · simp [contribution, ht]
  | .stmt _ => by simp [chosen]

/-! ## Properties (C34) -/

/-- **C34, nothing is missed**.  Every body the conditional executes is selected, in the order of execution: the
executed ones are a subsequence of the selected ones. -/
theorem select_covers (ops : Ops F) (vars : String → Val F) (holds : Expr F → Bool)
    (hh : ∀ e, ∃ v, execExpr ops vars e = some v ∧ toBool ops v = holds e) (n : BNode F) :
    ∃ l, select ops vars n = some l ∧ (chosen holds n).Sublist l :=
  ⟨_, selectLoop_eq ops vars holds hh _ _, by rw [List.nil_append]; exact chosen_sublist holds n⟩

/-- The conditionals for which exactly the executed bodies are selected: no operators other than `&&` and `||` in a test or as the
node itself, and `else if` only after tests that do not hold. -/
def Exact (holds : Expr F → Bool) : BNode F → Prop
  | .expr e => NoArith e
  | .ifs test _ => NoArith test
  | .ifElse test _ alt => NoArith test ∧ (isIf alt = true → holds test = false ∧ Exact holds alt)
  | .stmt _ => True

theorem chosen_eq (holds : Expr F → Bool) : ∀ (n : BNode F), Exact holds n →
    chosen holds n = (branches n).flatMap (contribution holds)
  | .expr e, h => operands_eq holds e h
  | .ifs test cons, h => by
    rw [chosen, branches, List.flatMap_append, operands_eq holds test h]
    simp [contribution]
  | .ifElse test cons alt, h => by
    rw [chosen, branches, List.flatMap_append, List.flatMap_append, List.append_assoc, operands_eq holds test h.1]
    congr 1
    by_cases hi : isIf alt = true
    · obtain ⟨h1, h2⟩ := h.2 hi
      simp only [hi, if_true, h1, Bool.false_eq_true, if_false, chosen_eq holds alt h2]
      simp [contribution, h1]
    · simp only [hi, Bool.false_eq_true, if_false]
      cases ht : holds test <;> simp [contribution, ht]
  | .stmt _, _ => by simp [chosen, branches]

/-- **C34** (partial, see `else_if_violated` and `operator_twice_violated`).  For the conditionals described by `Exact`, the selected
bodies are exactly those the conditional executes, in order. -/
theorem select_partial (ops : Ops F) (vars : String → Val F) (holds : Expr F → Bool)
    (hh : ∀ e, ∃ v, execExpr ops vars e = some v ∧ toBool ops v = holds e) (n : BNode F) (h : Exact holds n) :
    select ops vars n = some (chosen holds n) := by
  rw [select, selectLoop_eq ops vars holds hh, List.nil_append, chosen_eq holds n h]

/-- The truth of the evaluator's results. -/
def holdsOf (ops : Ops F) (vars : String → Val F) (e : Expr F) : Bool :=
  match execExpr ops vars e with
  | some v => toBool ops v
  | none => false

/-- The hypothesis of the theorems is met whenever the evaluator does not panic. -/
theorem holds_of_no_panic (ops : Ops F) (vars : String → Val F) (hi : ∀ f, ops.isNaN f = false → ops.lt f ops.zero = false → 0 ≤ ops.toInt f)
    (e : Expr F) : ∃ v, execExpr ops vars e = some v ∧ toBool ops v = holdsOf ops vars e := by
  obtain ⟨v, hv⟩ := exec_no_panic_partial ops hi vars e
  exact ⟨v, hv, by rw [holdsOf, hv]⟩

/-- `if (n && x) A else if (y) B else C` is in the range of `select_partial` when `n && x` does not hold. -/
example (holds : Expr Int → Bool) (h : holds (.bin .and (.name "n") (.name "x")) = false) :
    Exact holds (.ifElse (.bin .and (.name "n") (.name "x")) (.stmt 1) (.ifElse (.name "y") (.stmt 2) (.stmt 3))) := by
  simp [Exact, NoArith, h, isIf]

/-- **C34 is violated** by `if (true) A else if (true) B else C`: both A and B are selected. -/
theorem else_if_violated (ops : Ops F) (vars : String → Val F) :
    select ops vars (.ifElse (.bool true) (.stmt 1) (.ifElse (.bool true) (.stmt 2) (.stmt 3))) = some [.stmt 1, .stmt 2] ∧
    ∀ holds : Expr F → Bool, holds (.bool true) = true →
      chosen holds (.ifElse (.bool true) (.stmt 1) (.ifElse (.bool true) (.stmt 2) (.stmt 3))) = [.stmt 1] := by
  have hx : execExpr ops vars (.bool true) = some (.bool true) := by rw [exec_run]; simp [runE, pop]
  refine ⟨?_, ?_⟩
  · simp [select, branches, exprBranches, isIf, selectLoop, testTrue, hx, toBool]
  · intro holds h
    simp [chosen, operands, h]

/-- **C34 is violated** by `a + b`: the right operand is selected twice. -/
theorem operator_twice_violated (ops : Ops F) (vars : String → Val F) (a b : Expr F) :
    select ops vars (.expr (.bin .add a b)) = some [.expr a, .expr b, .expr b] ∧
    ∀ holds : Expr F → Bool, chosen holds (.expr (.bin .add a b)) = [.expr a, .expr b] := by
  refine ⟨?_, fun holds => by simp [chosen, operands]⟩
  simp [select, branches, exprBranches, selectLoop, testTrue, toBool]

end Mole.Exec
