import Verif.Parser.BindLemmas

/-!
# C84: the names that may be bound

`Legal` (in `Bind`) is the rule of the language, `accepts` what the parser does.  The parser refuses no name it should
not, apart from `await` in some functions, and lets through the ones of `Slips`.
-/
namespace Mole.Parser.Bind
open Lexer (str classify NameTok)

/-- What is wrongly accepted. -/
def Slips (p : Place) (name : String) (esc : Bool) : Prop :=
  -- the lexer has no keyword `in`, and `const` is one in strict code only
  name = "in" ∨ (name = "const" ∧ p.strict = false ∧ p.pos ≠ .cls) ∨
  -- not in the list of prohibited names: refused only where keywords are
  (name = "private" ∧ p.pos ∈ [.catch_, .fn, .cls, .importAs]) ∨ (name = "private" ∧ p.pos = .param ∧ p.strict = false) ∨
  -- what a property may be called is not checked again in a pattern of `catch`
  (p.pos = .catchShort ∧ (name ∈ reservedWords ∨ name ∈ strictWords ∨ name = "await")) ∨
  -- `await` in a module, where no async function is around
  (name = "await" ∧ p.module = true ∧ p.async = false ∧ p.pos ∈ [.catch_, .cls, .importAs]) ∨
  -- the name of a function is checked by a scope that is neither its own nor, in sloppy code, the one around
  (name = "await" ∧ p.pos = .fn ∧ (p.module = true ∨ p.strict = false ∨ p.expr = true)) ∨ (p.pos = .fn ∧ p.strict = false ∧ name ∈ strictWords) ∨
  -- generators are not asked
  (name = "yield" ∧ p.strict = false ∧ p.inGen = true) ∨
  -- the names of classes and imports are no targets of assignments
  ((name = "eval" ∨ name = "arguments") ∧ p.pos ∈ [.cls, .importDefault, .importAs, .importShort]) ∨
  -- imports in code that is not marked as strict
  (p.pos ∈ [.importDefault, .importAs, .importShort] ∧ p.strict = false ∧ name ∈ strictWords) ∨
  (name = "let" ∧ esc = true ∧ p.lexical = true ∧ p.strict = false)

instance (p : Place) (name : String) (esc : Bool) : Decidable (Slips p name esc) := by unfold Slips; infer_instance

theorem tok_cls (p : Place) (name : String) (esc : Bool) :
    p.tok name esc = tokC p.module p.asyncAwait (p.strict || p.pos == .cls) p.lexAsync esc (clsOf name) :=
  classify_cls _ _ _

/-- **C84** (partial: `await` is also refused in functions inside of async ones).  A name that may be bound is accepted:
in every position, written with escapes or without. -/
theorem legal_accepted_partial (p : Place) (name : String) (esc : Bool)
    (hlex : p.lexical = true → p.pos = .var ∨ p.pos = .varShort)
    (hasync : p.lexAsync = true → p.inAsync = true) (hout : p.outerAsync = true → p.inAsync = true)
    (hown : p.async = true → p.inAsync = true)
    (h : Legal p name) : accepts p name esc = true := by
  unfold Legal at h
  rw [mem_reservedWords, mem_strictWords, Ne, Ne, Ne, is_yield, is_await, is_let] at h
  have hw : clsOf name ≠ .word := by grind
  have e1 := is_let name
  have e2 := is_const name
  rcases p with ⟨pos, lexical, strict, useStrict, async, outerAsync, lexAsync, gen, module, aa, expr, oa, og⟩
  cases pos <;> simp only [accepts, ident, propName, tok_cls, isProhibited_cls _ _ _ _ hw, beq_iff_eq, e1, e2,
    Bool.and_eq_true, Bool.or_eq_true, Bool.not_eq_true'] <;>
    simp only [Place.isStrict, Place.inGen, Place.inAsync] at * <;>
    generalize clsOf name = c at * <;> cases c <;>
    simp [tokC, prohC, Cls.strictKw, isKw] at * <;> grind [isKw]

/-- **C84** (partial: all but the `Slips` are refused).  A name that is accepted may be bound: in every position. -/
theorem accepted_legal_partial (p : Place) (name : String) (esc : Bool)
    (h : accepts p name esc = true) (hs : ¬ Slips p name esc) : Legal p name := by
  have e1 := is_let name
  have e2 := is_const name
  have e3 := is_await name
  have e4 := is_yield name
  have e5 := is_evalArgs name
  have e6 : name = "in" ↔ clsOf name = .in_ := is_in name
  have e7 : name = "private" ↔ clsOf name = .private_ := is_private name
  unfold Slips at hs
  rw [e6, e2, e7, e3, e4, e5, e1, mem_reservedWords, mem_strictWords] at hs
  unfold Legal
  rw [mem_reservedWords, mem_strictWords, Ne, Ne, Ne, e4, e3, e1]
  rcases p with ⟨pos, lexical, strict, useStrict, async, outerAsync, lexAsync, gen, module, aa, expr, oa, og⟩
  by_cases hw : clsOf name = .word
  · exfalso
    cases pos <;> simp only [accepts, ident, propName, tok_cls, hw] at h hs <;> simp [tokC] at h hs <;>
      grind [isKw]
  · cases pos <;> simp only [accepts, ident, propName, tok_cls, isProhibited_cls _ _ _ _ hw, beq_iff_eq, e1, e2,
      Bool.and_eq_true, Bool.or_eq_true, Bool.not_eq_true'] at h <;>
      simp only [Place.isStrict, Place.inGen, Place.inAsync] at * <;>
      generalize clsOf name = c at * <;> cases c <;>
      simp [tokC, prohC, Cls.strictKw, isKw] at * <;> grind [isKw]

/-! ## Cases -/

/-- The top of a script, with all features on. -/
def sloppy : Place :=
  { pos := .var, lexical := false, strict := false, useStrict := false, async := false, outerAsync := false, lexAsync := false, gen := false, module := false, asyncAwait := true, expr := false, ownAsync := false, ownGen := false }

/-- `var yield` in a script, `let await` with an escape, `function static() {}`, and a parameter `let`. -/
example : accepts sloppy "yield" false = true ∧ Legal sloppy "yield" :=
  ⟨legal_accepted_partial _ _ _ (by decide) (by decide) (by decide) (by decide) (by decide), by decide⟩
example : accepts { sloppy with lexical := true } "await" true = true :=
  legal_accepted_partial _ _ _ (by decide) (by decide) (by decide) (by decide) (by decide)
example : accepts { sloppy with pos := .fn } "static" false = true :=
  legal_accepted_partial _ _ _ (by decide) (by decide) (by decide) (by decide) (by decide)
example : accepts { sloppy with pos := .param, strict := true, async := true, lexAsync := true } "of" false = true :=
  legal_accepted_partial _ _ _ (by decide) (by decide) (by decide) (by decide) (by decide)
/-- `let let`, strict `var yield`, strict `eval` as a parameter, `import private from`: refused, as they should be. -/
example : accepts { sloppy with lexical := true } "let" false = false ∧ ¬ Legal { sloppy with lexical := true } "let" := by
  decide
example : accepts { sloppy with strict := true } "yield" false = false := by decide
example : accepts { sloppy with pos := .param, useStrict := true } "eval" false = false := by decide
example : accepts { sloppy with pos := .importDefault, strict := true } "private" false = false := by decide
/-- A name that is accepted, and hence legal, in each of the positions. -/
example : Legal { sloppy with pos := .cls } "of" := accepted_legal_partial _ _ false (by decide) (by decide)
example : Legal { sloppy with pos := .catch_, gen := true } "await" := accepted_legal_partial _ _ false (by decide) (by decide)
example : Legal { sloppy with pos := .catchShort } "get" := accepted_legal_partial _ _ false (by decide) (by decide)
example : Legal { sloppy with pos := .importShort, strict := true } "async" := accepted_legal_partial _ _ false (by decide) (by decide)
example : Legal { sloppy with pos := .varShort } "static" := accepted_legal_partial _ _ false (by decide) (by decide)

/-! ## What is wrong -/

/-- **C84, violated.** `var in`: `in` is no keyword to the lexer is accepted. -/
theorem in_bound_violated : accepts { sloppy with pos := .var } "in" false = true ∧ ¬ Legal { sloppy with pos := .var } "in" := by decide

/-- **C84, violated.** `var const` in sloppy code is accepted. -/
theorem const_bound_violated : accepts { sloppy with pos := .var } "const" false = true ∧ ¬ Legal { sloppy with pos := .var } "const" := by decide

/-- **C84, violated.** `function private() {}` in strict code is accepted. -/
theorem private_function_violated : accepts { sloppy with pos := .fn, strict := true } "private" false = true ∧ ¬ Legal { sloppy with pos := .fn, strict := true } "private" := by decide

/-- **C84, violated.** `class private {}` is accepted. -/
theorem private_class_violated : accepts { sloppy with pos := .cls } "private" false = true ∧ ¬ Legal { sloppy with pos := .cls } "private" := by decide

/-- **C84, violated.** `function f(private) { "use strict" }` is accepted. -/
theorem private_parameter_violated : accepts { sloppy with pos := .param, useStrict := true } "private" false = true ∧ ¬ Legal { sloppy with pos := .param, useStrict := true } "private" := by decide

/-- **C84, violated.** `try {} catch (private) {}` in strict code is accepted. -/
theorem private_catch_violated : accepts { sloppy with pos := .catch_, strict := true } "private" false = true ∧ ¬ Legal { sloppy with pos := .catch_, strict := true } "private" := by decide

/-- **C84, violated.** `try {} catch ({ if }) {}` is accepted. -/
theorem keyword_catch_violated : accepts { sloppy with pos := .catchShort } "if" false = true ∧ ¬ Legal { sloppy with pos := .catchShort } "if" := by decide

/-- **C84, violated.** `class eval {}` is accepted. -/
theorem eval_class_violated : accepts { sloppy with pos := .cls } "eval" false = true ∧ ¬ Legal { sloppy with pos := .cls } "eval" := by decide

/-- **C84, violated.** `import { eval } from "m"` in a module is accepted. -/
theorem eval_import_violated : accepts { sloppy with pos := .importShort, strict := true, module := true } "eval" false = true ∧ ¬ Legal { sloppy with pos := .importShort, strict := true, module := true } "eval" := by decide

/-- **C84, violated.** `function eval() { "use strict" }` is accepted. -/
theorem eval_function_violated : accepts { sloppy with pos := .fn, useStrict := true } "eval" false = true ∧ ¬ Legal { sloppy with pos := .fn, useStrict := true } "eval" := by decide

/-- **C84, violated.** `function* g() { var yield }` is accepted. -/
theorem yield_variable_violated : accepts { sloppy with pos := .var, gen := true } "yield" false = true ∧ ¬ Legal { sloppy with pos := .var, gen := true } "yield" := by decide

/-- **C84, violated.** `function* g(yield) {}` is accepted. -/
theorem yield_parameter_violated : accepts { sloppy with pos := .param, gen := true } "yield" false = true ∧ ¬ Legal { sloppy with pos := .param, gen := true } "yield" := by decide

/-- **C84, violated.** `(function* yield() {})` is accepted. -/
theorem yield_expression_violated : accepts { sloppy with pos := .fn, expr := true, ownGen := true } "yield" false = true ∧ ¬ Legal { sloppy with pos := .fn, expr := true, ownGen := true } "yield" := by decide

/-- **C84, violated.** `function await() {}` in a module is accepted. -/
theorem await_function_violated : accepts { sloppy with pos := .fn, strict := true, module := true } "await" false = true ∧ ¬ Legal { sloppy with pos := .fn, strict := true, module := true } "await" := by decide

/-- **C84, violated.** `class await {}` in a module is accepted. -/
theorem await_class_violated : accepts { sloppy with pos := .cls, strict := true, module := true } "await" false = true ∧ ¬ Legal { sloppy with pos := .cls, strict := true, module := true } "await" := by decide

/-- **C84, violated.** `import * as await from "m"` in a module is accepted. -/
theorem await_import_violated : accepts { sloppy with pos := .importAs, strict := true, module := true } "await" false = true ∧ ¬ Legal { sloppy with pos := .importAs, strict := true, module := true } "await" := by decide

/-- **C84, violated.** An escape hides the name: `let l\u0065t` is accepted. -/
theorem escaped_let_violated : accepts { sloppy with lexical := true } "let" true = true ∧ ¬ Legal { sloppy with lexical := true } "let" := by
  decide

/-- **C84, violated.** `async function f() { function g() { var await } }` is refused in a script: the lexer is still in
the mode of `f`. -/
theorem await_inner_violated : Legal { sloppy with lexAsync := true } "await" ∧ accepts { sloppy with lexAsync := true } "await" false = false := by
  decide

/-- **C84, violated.** So is `async function f() { (function await() {}) }`: a function expression binds its name inside
of itself. -/
theorem await_expression_violated :
    Legal { sloppy with pos := .fn, strict := true, async := true, lexAsync := true, expr := true } "await" ∧
    accepts { sloppy with pos := .fn, strict := true, async := true, lexAsync := true, expr := true } "await" false = false := by
  decide

end Mole.Parser.Bind
