import Verif.Exec.ValLemmas

/-! C32, C33 and C60: values, stack discipline and absence of panics of the evaluator. -/

namespace Mole.Exec

open Mole.Walk Spec

variable {F : Type}

/-! ## A number type for the examples -/

/-- Integers and NaN, for examples; conversions to and from text are left trivial. -/
def toyOps : Ops (Option Int) where
  add a b := do return (← a) + (← b)
  sub a b := do return (← a) - (← b)
  mul a b := do return (← a) * (← b)
  div a b := do if (← b) = 0 then none else return (← a) / (← b)
  negate a := a.map (- ·)
  eq a b := match a, b with
    | some x, some y => x == y
    | _, _ => false
  lt a b := match a, b with
    | some x, some y => x < y
    | _, _ => false
  zero := some 0
  one := some 1
  nan := none
  isNaN a := a.isNone
  toInt a := if a.getD 0 < 1000 then a.getD 0 else -1000
  parse _ := none
  format _ := ""
  sprint _ := ""
  jsParse _ := none
  jsFormat _ := ""
  ofNat n := some n
  index a := a.bind fun x => if 0 ≤ x then some x.toNat else none

/-! ## The stack (C33) -/

/-- **C33** (partial, see the violations: for expressions without a conditional, `this` or holes and with the operators vm.go has
a case for).  Executing an expression puts exactly one value on the stack, which does not depend on what is there, and
leaves the rest of the stack alone, unless it panics, which does not depend on the stack either. -/
theorem exec_stack_partial (ops : Ops F) (vars : String → Val F) (e : Expr F) (h : Whole e) :
    ∃ ov : Option (Val F), ∀ s, ∃ c, walk (env ops vars) (toTree e) (some s) = some c ∧ c.user = ov.map (· :: s) := by
  refine ⟨valE ops vars false e, fun s => ?_⟩
  obtain ⟨c, h1, h2⟩ := walk_run ops vars e (some s) (not_prop _)
  exact ⟨c, h1, by rw [h2, Option.bind_some, run_val ops vars e false s h]⟩

/-- `!(a.b + [1, 2].includes(x))` -/
example : Whole (.unary .not (.paren (.bin .add (.member (.name "a") (.name "b") false)
    (.call (.member (.arr (.cons (.num 1) (.cons (.num 2) .nil))) (.name "includes") false) (.cons (.name "x") .nil)))) : Expr Int) := by
  simp [Whole, Wholes]

/-- **C33 is violated** by `a ? b : c`: all three values stay on the stack. -/
theorem cond_stack_violated (ops : Ops F) (vars : String → Val F) (s : List (Val F)) :
    ∃ c, walk (env ops vars) (toTree (.cond (.name "a") (.name "b") (.name "c"))) (some s) = some c ∧
      c.user = some (vars "c" :: vars "b" :: vars "a" :: s) := by
  obtain ⟨c, h1, h2⟩ := walk_run ops vars (.cond (.name "a") (.name "b") (.name "c")) (some s) (not_prop _)
  exact ⟨c, h1, by rw [h2]; simp [runE]⟩

/-- **C33 is violated** by `a < b`, and by all operators without a case: two values are taken, none is put back. -/
theorem operator_stack_violated (ops : Ops F) (vars : String → Val F) (s : List (Val F)) :
    ∃ c, walk (env ops vars) (toTree (.bin .lt (.name "a") (.name "b"))) (some s) = some c ∧ c.user = some s := by
  obtain ⟨c, h1, h2⟩ := walk_run ops vars (.bin .lt (.name "a") (.name "b")) (some s) (not_prop _)
  exact ⟨c, h1, by rw [h2]; simp [runE, binStep, pop, binary]⟩

/-- **C33 is violated** by a hole: `[a, [, b]]` is `[undefined, [a, b]]`: the inner array takes the value of its sibling. -/
theorem hole_stack_violated (ops : Ops F) (vars : String → Val F) :
    execExpr ops vars (.arr (.cons (.name "a") (.cons (.arr (.hole (.cons (.name "b") .nil))) .nil))) =
      some (.arr (.cons .nil (.cons (.arr (.cons (vars "a") (.cons (vars "b") .nil))) .nil))) := by
  rw [exec_run]
  simp [runE, runEs, exprsLen, popN, pop, Vals.ofList]

/-! ## Values (C32) -/

/-- **C32** (partial: see `Right` for the expressions and operands, and the violations below for the rest).  If an expression
has a value in JavaScript, the evaluator, unless it panics, returns this value. -/
theorem exec_value_partial (ops : Ops F) (vars : String → Option (JV F)) (e : Expr F) (hw : Whole e) (h : Right ops vars false e)
    (v : JV F) (hv : eval ops vars e = some v) (x : Val F) (hx : execExpr ops (encVars vars) e = some x) : x = enc v := by
  rw [exec_val ops _ e hw] at hx
  have := right_agrees ops vars e false v x h hv hx
  simpa [Agrees] using this

/-- **C32, conditions** (partial, likewise).  If an expression has a value in JavaScript, what the evaluator returns is
truthy exactly when the value is; for this, the operands of `&&`, `||` and `!` need not be Booleans. -/
theorem exec_truth_partial (ops : Ops F) (vars : String → Option (JV F)) (e : Expr F) (hw : Whole e) (h : Right ops vars true e)
    (v : JV F) (hv : eval ops vars e = some v) (x : Val F) (hx : execExpr ops (encVars vars) e = some x) :
    toBool ops x = truthy ops v := by
  rw [exec_val ops _ e hw] at hx
  have := right_agrees ops vars e true v x h hv hx
  simpa [Agrees] using this

/-- Variables for the examples: `process.env.NODE_ENV` is `"production"` and `n` is 3. -/
def toyVars : String → Option (JV (Option Int))
  | "process" => some (.obj (.cons "env" (.obj (.cons "NODE_ENV" (.str "production") .nil)) .nil))
  | "n" => some (.num (some 3))
  | _ => none

/-- `process.env.NODE_ENV === "production" && n * 2 == 6` -/
def toyExpr : Expr (Option Int) :=
  .bin .and (.bin .eqS (.member (.member (.name "process") (.name "env") false) (.name "NODE_ENV") false) (.str "production"))
    (.bin .eq (.bin .mul (.name "n") (.num (some 2))) (.num (some 6)))

example : Whole toyExpr := by simp [toyExpr, Whole]

example : Right toyOps toyVars false toyExpr := by
  have e1 : toyVars "process" = some (.obj (.cons "env" (.obj (.cons "NODE_ENV" (.str "production") .nil)) .nil)) := rfl
  have e2 : toyVars "n" = some (.num (some 3)) := rfl
  simp [toyExpr, Right, eval, e1, e2, JFields.get?, OpOk, prim, nullish, sameType, NumOk, strictOp, strictEq, looseEq, toNumber,
    isBool, KeyOk, property]

/-- `["a", n].includes(process.env.MODE) || [1, n][1] === 3` -/
def toyExpr' : Expr (Option Int) :=
  .bin .or (.call (.member (.arr (.cons (.str "a") (.cons (.name "n") .nil))) (.name "includes") false)
      (.cons (.member (.member (.name "process") (.name "env") false) (.str "MODE") true) .nil))
    (.bin .eqS (.member (.arr (.cons (.num (some 1)) (.cons (.name "n") .nil))) (.num (some 1)) true) (.num (some 3)))

example : Whole toyExpr' ∧ Right toyOps toyVars false toyExpr' ∧ eval toyOps toyVars toyExpr' = some (.bool true) := by
  have e1 : toyVars "process" = some (.obj (.cons "env" (.obj (.cons "NODE_ENV" (.str "production") .nil)) .nil)) := rfl
  have e2 : toyVars "n" = some (.num (some 3)) := rfl
  refine ⟨by simp [toyExpr', Whole, Wholes], ?_, ?_⟩
  · simp [toyExpr', Right, Rights, eval, evals, e1, e2, JFields.get?, JVs.get?, OpOk, prim, nullish, strictOp, strictEq,
      isBool, KeyOk, InclOk, property, inherited, sameValue, includesJ, toyOps, notNaN, truthy]
  · simp [toyExpr', eval, evals, e1, e2, JFields.get?, JVs.get?, strictOp, strictEq, property, inherited, sameValue, includesJ,
      toyOps, truthy]

example : eval toyOps toyVars toyExpr = some (.bool true) := by rfl

example : execExpr toyOps (encVars toyVars) toyExpr = some (.bool true) := by
  rw [exec_val _ _ _ (by simp [toyExpr, Whole])]; rfl

/-- **C32 is violated** by `/`, which subtracts: `6 / 2` is 4. -/
theorem div_violated (ops : Ops F) (vars : String → Option (JV F)) (a b : F) (hb : ops.eq b ops.zero = false)
    (hd : ops.sub a b ≠ ops.div a b) :
    eval ops vars (.bin .div (.num a) (.num b)) = some (.num (ops.div a b)) ∧
    execExpr ops (encVars vars) (.bin .div (.num a) (.num b)) = some (.num (ops.sub a b)) ∧
    enc (.num (ops.div a b)) ≠ .num (ops.sub a b) := by
  refine ⟨by simp [eval, strictOp, prim, toNumber], ?_, ?_⟩
  · rw [exec_run]; simp [runE, binStep, pop, binary, toNum, hb]
  · simp only [enc, ne_eq, Val.num.injEq]; exact fun h => hd h.symm

example : toyOps.eq (some 2) toyOps.zero = false ∧ toyOps.sub (some 6) (some 2) ≠ toyOps.div (some 6) (some 2) := by decide

/-- **C32 is violated** by `&&` and `||`, which give a Boolean and not an operand: `1 && 2` is true. -/
theorem logical_violated (ops : Ops F) (vars : String → Option (JV F)) (a b : F) (ha : truthy ops (.num a) = true) :
    eval ops vars (.bin .and (.num a) (.num b)) = some (.num b) ∧
    eval ops vars (.bin .or (.num a) (.num b)) = some (.num a) ∧
    (∃ x, execExpr ops (encVars vars) (.bin .and (.num a) (.num b)) = some (.bool x)) ∧
    (∃ x, execExpr ops (encVars vars) (.bin .or (.num a) (.num b)) = some (.bool x)) := by
  refine ⟨by simp [eval, ha], by simp [eval, ha], ?_, ?_⟩ <;>
    (rw [exec_run]; simp [runE, binStep, pop, binary])

example : truthy toyOps (.num (some 1)) = true := by decide

/-- **C32 is violated** by the conditional operator, which always gives its third operand: `true ? 1 : 2` is 2. -/
theorem cond_violated (ops : Ops F) (vars : String → Option (JV F)) (a b : F) :
    eval ops vars (.cond (.bool true) (.num a) (.num b)) = some (.num a) ∧
    execExpr ops (encVars vars) (.cond (.bool true) (.num a) (.num b)) = some (.num b) := by
  refine ⟨by simp [eval, truthy], ?_⟩
  rw [exec_run]; simp [runE, pop]

/-- **C32 is violated** by `null === undefined`, which is true. -/
theorem null_violated (ops : Ops F) (vars : String → Option (JV F)) :
    eval ops vars (.bin .eqS .null (.name "undefined")) = some (.bool false) ∧
    execExpr ops (encVars vars) (.bin .eqS .null (.name "undefined")) = some (.bool true) := by
  refine ⟨by simp [eval, strictOp, strictEq], ?_⟩
  rw [exec_run]; simp [runE, binStep, pop, binary, deepEqual]

/-- **C32 is violated** by `1 == "1"`: no conversion takes place. -/
theorem loose_violated (ops : Ops F) (vars : String → Option (JV F)) (a : F) (s : String) (h : ops.eq a (ops.jsParse s) = true) :
    eval ops vars (.bin .eq (.num a) (.str s)) = some (.bool true) ∧
    execExpr ops (encVars vars) (.bin .eq (.num a) (.str s)) = some (.bool false) := by
  refine ⟨by simp [eval, strictOp, looseEq, prim, toNumber, h], ?_⟩
  rw [exec_run]; simp [runE, binStep, pop, binary, deepEqual]

/-- **C32 is violated** by `true + 1`, which is NaN plus 1. -/
theorem bool_add_violated (ops : Ops F) (vars : String → Option (JV F)) (a : F) :
    eval ops vars (.bin .add (.bool true) (.num a)) = some (.num (ops.add ops.one a)) ∧
    execExpr ops (encVars vars) (.bin .add (.bool true) (.num a)) = some (.num (ops.add ops.nan a)) := by
  refine ⟨by simp [eval, strictOp, prim, plus, isStr, toNumber], ?_⟩
  rw [exec_run]; simp [runE, binStep, pop, binary, addVal, toNum]

/-- **C32 is violated** by unary operators other than `!`, which give false, and by comparisons, which give nil. -/
theorem unary_violated (ops : Ops F) (vars : String → Option (JV F)) (a b : F) :
    eval ops vars (.unary .neg (.num a)) = some (.num (ops.negate a)) ∧
    execExpr ops (encVars vars) (.unary .neg (.num a)) = some (.bool false) ∧
    eval ops vars (.bin .lt (.num a) (.num b)) = some (.bool (ops.lt a b)) ∧
    execExpr ops (encVars vars) (.bin .lt (.num a) (.num b)) = some .nil := by
  refine ⟨by simp [eval], ?_, by simp [eval, strictOp], ?_⟩
  · rw [exec_run]; simp [runE, pop, unary]
  · rw [exec_run]; simp [runE, binStep, pop, binary]

/-- **C32 is violated** by NaN as a condition: `!NaN` is false. -/
theorem nan_violated (ops : Ops F) (vars : String → Option (JV F)) (a : F) (h : ops.isNaN a = true) (h0 : ops.eq a ops.zero = false) :
    eval ops vars (.unary .not (.num a)) = some (.bool true) ∧
    execExpr ops (encVars vars) (.unary .not (.num a)) = some (.bool false) := by
  refine ⟨by simp [eval, truthy, h], ?_⟩
  rw [exec_run]; simp [runE, pop, unary, toBool, h0]

example : toyOps.isNaN toyOps.nan = true ∧ toyOps.eq toyOps.nan toyOps.zero = false := by decide

/-- `o` is an object with the properties `k` and `p`, and `k` is `"p"`. -/
def keyVars : String → Option (JV F)
  | "o" => some (.obj (.cons "k" (.str "property k") (.cons "p" (.str "property p") .nil)))
  | "k" => some (.str "p")
  | _ => none

/-- **C32 is violated** by `o[k]`: the name itself is taken for the key. -/
theorem computed_violated (ops : Ops F) :
    eval ops keyVars (.member (.name "o") (.name "k") true) = some (.str "property p") ∧
    execExpr ops (encVars keyVars) (.member (.name "o") (.name "k") true) = some (.str "property k") := by
  have e1 : (keyVars "o" : Option (JV F)) = some (.obj (.cons "k" (.str "property k") (.cons "p" (.str "property p") .nil))) := rfl
  have e2 : (keyVars "k" : Option (JV F)) = some (.str "p") := rfl
  refine ⟨by simp [eval, e1, e2, JFields.get?, property], ?_⟩
  rw [exec_run]
  simp [runE, pop, encVars, e1, member, getProp, enc, encf, Fields.get?, toStr]

/-- **C32 is violated** by an index that is not an integer: `[true, false][1.5]` is false. -/
theorem index_violated (ops : Ops F) (vars : String → Option (JV F)) (f : F) (h1 : ops.isNaN f = false)
    (h2 : ops.lt f ops.zero = false) (h3 : ops.index f = none) (h4 : ops.toInt f = 1) :
    eval ops vars (.member (.arr (.cons (.bool true) (.cons (.bool false) .nil))) (.num f) true) = some .undef ∧
    execExpr ops (encVars vars) (.member (.arr (.cons (.bool true) (.cons (.bool false) .nil))) (.num f) true) =
      some (.bool false) := by
  refine ⟨by simp [eval, evals, h3], ?_⟩
  rw [exec_run]
  simp [runE, runEs, exprsLen, popN, pop, Vals.ofList, member, getProp, getElem, toNum, h1, h2, h4, Vals.length, Vals.get?]

/-- **C32 is violated** by the length of an array, which is nil. -/
theorem length_violated (ops : Ops F) (vars : String → Option (JV F)) (hp : ops.parse "length" = none)
    (hn : ops.isNaN ops.nan = true) :
    eval ops vars (.member (.arr .nil) (.name "length") false) = some (.num (ops.ofNat 0)) ∧
    execExpr ops (encVars vars) (.member (.arr .nil) (.name "length") false) = some .nil := by
  refine ⟨by simp [eval, evals, JVs.length], ?_⟩
  rw [exec_run]
  simp [runE, runEs, exprsLen, popN, pop, Vals.ofList, member, getProp, getElem, toNum, hp, hn, toStr]

example : toyOps.parse "length" = none ∧ toyOps.isNaN toyOps.nan = true := by decide

/-- **C32 is violated** by `[null].includes(undefined)`, which is true, and by `[NaN].includes(NaN)`, which is false. -/
theorem includes_violated (ops : Ops F) (vars : String → Option (JV F)) (f : F) (hp : ops.parse "includes" = none)
    (hn : ops.isNaN ops.nan = true) (hf : ops.isNaN f = true) (he : ops.eq f f = false) :
    eval ops vars (.call (.member (.arr (.cons .null .nil)) (.name "includes") false) (.cons (.name "undefined") .nil)) =
      some (.bool false) ∧
    execExpr ops (encVars vars)
      (.call (.member (.arr (.cons .null .nil)) (.name "includes") false) (.cons (.name "undefined") .nil)) = some (.bool true) ∧
    eval ops vars (.call (.member (.arr (.cons (.num f) .nil)) (.name "includes") false) (.cons (.num f) .nil)) =
      some (.bool true) ∧
    execExpr ops (encVars vars)
      (.call (.member (.arr (.cons (.num f) .nil)) (.name "includes") false) (.cons (.num f) .nil)) = some (.bool false) := by
  refine ⟨by simp [eval, evals, includesJ, sameValue, strictEq], ?_, by simp [eval, evals, includesJ, sameValue, hf], ?_⟩
  all_goals
    rw [exec_run]
    simp [runE, runEs, exprsLen, popN, pop, Vals.ofList, member, getProp, getElem, toNum, hp, hn, toStr, includes, deepEqual, he,
      callStep]

/-- A Go `int` given as a variable is truthy when it is not zero. -/
theorem int_truth (ops : Ops F) (vars : String → Val F) (n : String) (i : Int) (hn : n ≠ "undefined") (hv : vars n = .int i) :
    execExpr ops vars (.unary .not (.name n)) = some (.bool (decide (i = 0))) := by
  rw [exec_run]
  by_cases h : i = 0 <;> simp [runE, pop, unary, toBool, hn, hv, h]

example : ("n" : String) ≠ "undefined" ∧ (fun _ : String => (Val.int 3 : Val Int)) "n" = .int 3 := ⟨by decide, rfl⟩

/-- **C32 is violated** by a Go `int` given as a variable: its numeric value is NaN. -/
theorem int_violated (ops : Ops F) (vars : String → Val F) (n : String) (i : Int) (f : F) (hn : n ≠ "undefined")
    (hv : vars n = .int i) : execExpr ops vars (.bin .mul (.name n) (.num f)) = some (.num (ops.mul ops.nan f)) := by
  rw [exec_run]
  simp [runE, binStep, pop, binary, toNum, hn, hv]

/-! ## Panics (C60) -/

theorem get_some : ∀ (vs : Vals F) (n : Nat), n < vs.length → ∃ v, vs.get? n = some v
  | .nil, n, h => by simp [Vals.length] at h
  | .cons v r, 0, h => ⟨v, rfl⟩
  | .cons v r, n + 1, h => by
    simp only [Vals.length] at h
    exact get_some r n (by omega)

theorem member_some (ops : Ops F) (hi : ∀ f, ops.isNaN f = false → ops.lt f ops.zero = false → 0 ≤ ops.toInt f) (o p : Val F) :
    ∃ v, member ops o p = some v := by
  have hg : ∃ v, getProp ops o p = some v := by
    have he : ∀ vs : Vals F, ∃ v, getElem ops vs p = some v := by
      intro vs
      simp only [getElem]
      by_cases h1 : (ops.isNaN (toNum ops p) || ops.lt (toNum ops p) ops.zero) = true
      · rw [if_pos h1]; exact ⟨_, rfl⟩
      · rw [if_neg h1]
        by_cases h2 : ops.toInt (toNum ops p) > (vs.length : Int) - 1
        · rw [if_pos h2]; exact ⟨_, rfl⟩
        · rw [if_neg h2]
          simp only [Bool.or_eq_true, not_or, Bool.not_eq_true] at h1
          have := hi _ h1.1 h1.2
          rw [if_neg (by omega)]
          exact get_some vs _ (by omega)
    cases o with
    | arr vs => cases p <;> simp only [getProp] <;> first | exact he vs | exact ⟨_, rfl⟩
    | _ => cases p <;> exact ⟨_, rfl⟩
  obtain ⟨v, hv⟩ := hg
  simp only [member, hv, Option.map_some]
  exact ⟨_, rfl⟩

mutual
theorem run_some (ops : Ops F) (hi : ∀ f, ops.isNaN f = false → ops.lt f ops.zero = false → 0 ≤ ops.toInt f) (vars : String → Val F) :
    ∀ (e : Expr F) (prop : Bool) (s : List (Val F)), ∃ s', runE ops vars prop e s = some s'
  | .bool b, prop, s => by simp [runE]
  | .null, prop, s => by simp [runE]
  | .num f, prop, s => by simp [runE]
  | .str x, prop, s => by simp [runE]
  | .name n, prop, s => by
    simp only [runE]
    cases prop
    · by_cases hn : n = "undefined" <;> simp [hn]
    · simp
  | .arr es, prop, s => by
    obtain ⟨s1, h1⟩ := runs_some ops hi vars es s
    simp [runE, h1]
  | .member o p c, prop, s => by
    obtain ⟨s1, h1⟩ := run_some ops hi vars o false s
    obtain ⟨s2, h2⟩ := run_some ops hi vars p true s1
    obtain ⟨v, h3⟩ := member_some ops hi (pop (pop s2).2).1 (pop s2).1
    simp [runE, h1, h2, h3]
  | .bin op l r, prop, s => by
    obtain ⟨s1, h1⟩ := run_some ops hi vars l false s
    obtain ⟨s2, h2⟩ := run_some ops hi vars r false s1
    simp [runE, h1, h2]
  | .unary op e, prop, s => by
    obtain ⟨s1, h1⟩ := run_some ops hi vars e false s
    simp [runE, h1]
  | .call f as, prop, s => by
    obtain ⟨s1, h1⟩ := run_some ops hi vars f false s
    obtain ⟨s2, h2⟩ := runs_some ops hi vars as s1
    simp [runE, h1, h2]
  | .cond t c a, prop, s => by
    obtain ⟨s1, h1⟩ := run_some ops hi vars t false s
    obtain ⟨s2, h2⟩ := run_some ops hi vars c false s1
    obtain ⟨s3, h3⟩ := run_some ops hi vars a false s2
    simp [runE, h1, h2, h3]
  | .paren e, prop, s => by
    obtain ⟨s1, h1⟩ := run_some ops hi vars e false s
    simp [runE, h1]
  | .this, prop, s => by simp [runE]
theorem runs_some (ops : Ops F) (hi : ∀ f, ops.isNaN f = false → ops.lt f ops.zero = false → 0 ≤ ops.toInt f) (vars : String → Val F) :
    ∀ (es : Exprs F) (s : List (Val F)), ∃ s', runEs ops vars es s = some s'
  | .nil, s => by simp [runEs]
  | .cons e r, s => by
    obtain ⟨s1, h1⟩ := run_some ops hi vars e false s
    obtain ⟨s2, h2⟩ := runs_some ops hi vars r s1
    simp [runEs, h1, h2]
  | .hole r, s => by
    obtain ⟨s2, h2⟩ := runs_some ops hi vars r s
    simp [runEs, h2]
end

/-- **C60** (partial: if the conversion of numbers that are not negative to `int` never gives a negative one, which Go
leaves to the implementation for large numbers, see `index_panics_violated`).  Executing an expression never panics. -/
theorem exec_no_panic_partial (ops : Ops F) (hi : ∀ f, ops.isNaN f = false → ops.lt f ops.zero = false → 0 ≤ ops.toInt f)
    (vars : String → Val F) (e : Expr F) : ∃ v, execExpr ops vars e = some v := by
  obtain ⟨s, hs⟩ := run_some ops hi vars e false []
  exact ⟨(pop s).1, by rw [exec_run, hs, Option.map_some]⟩

/-- The hypothesis is met if the conversion saturates, as on arm64. -/
example : ∀ f, ({ toyOps with toInt := fun a => a.getD 0 } : Ops (Option Int)).isNaN f = false →
    toyOps.lt f toyOps.zero = false → 0 ≤ ({ toyOps with toInt := fun a => a.getD 0 } : Ops (Option Int)).toInt f := by
  intro f h1 h2
  cases f with
  | none => simp [toyOps] at h1
  | some x => simpa [toyOps] using h2

/-- **C60 is violated** by `[true][1e19]`, where the conversion of a large number gives a negative one, as on amd64. -/
theorem index_panics_violated (ops : Ops F) (vars : String → Val F) (f : F) (h1 : ops.isNaN f = false)
    (h2 : ops.lt f ops.zero = false) (h3 : ops.toInt f < 0) :
    execExpr ops vars (.member (.arr (.cons (.bool true) .nil)) (.num f) true) = none := by
  rw [exec_run]
  have h4 : ¬ (0 < ops.toInt f) := by omega
  simp [runE, runEs, exprsLen, popN, pop, Vals.ofList, member, getProp, getElem, toNum, h1, h2, Vals.length, h3, h4]

example : toyOps.isNaN (some 5000) = false ∧ toyOps.lt (some 5000) toyOps.zero = false ∧ toyOps.toInt (some 5000) < 0 := by decide

end Mole.Exec
