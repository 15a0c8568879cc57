import Verif.Parser.DirectiveLemmas

/-! # C72: directives

`stmts top strict p` is what the parser makes of the statements `p` of a program, function body (`top`) or block: a syntax
error, or whether the code is strict and which statements are directives. -/

namespace Mole.Parser.Directive

open Spec

/-- In a program or function body with no string statement after its prologue: the code is strict exactly if the code around it
is or a directive of the prologue says so, it is rejected exactly if it is strict and has a legacy octal escape (also one before
the directive), and the directives are the statements of the prologue.  Full property: for all statements. -/
theorem directives_partial (strict : Bool) (p : List St) (hw : ∀ s ∈ p, useStrict s → ¬ octal s) (hs : noStray p) :
    (strictBody strict p ∧ (∃ s ∈ p, octal s) ∧ stmts true strict p = none) ∨
    (¬ (strictBody strict p ∧ ∃ s ∈ p, octal s) ∧ ∃ b, (b = true ↔ strictBody strict p) ∧
      stmts true strict p =
        some (b, List.replicate (prologue p).length true ++ List.replicate (p.length - (prologue p).length) false)) := by
  obtain ⟨rest, hp, hr⟩ := split_prologue p
  have hall : ∀ x ∈ rest, isStr x = false := by
    cases rest with
    | nil => simp
    | cons b c =>
      intro x hx
      rcases List.mem_cons.mp hx with rfl | hx
      · exact hr _ c rfl
      · exact hs _ _ _ hp (hr b c rfl) x hx
  have hw' : ∀ x ∈ prologue p, us x = true → x.lo = false := by
    intro x hx hu
    have := hw x (by rw [hp]; simp [hx]) ((us_iff x).mp hu)
    rw [← lo_iff] at this
    simpa using this
  obtain ⟨q, _, _, hq⟩ := loop_prologue (prologue p) ⟨strict, 0, []⟩ (prologue_isStr p) hw' (by simp) (by simp) (by simp)
  have hbody : strictBody strict p ↔ (strict || (prologue p).any us) = true := by
    rw [strictBody, ← any_us]; simp
  have hlen : p.length - (prologue p).length = rest.length := by
    have := congrArg List.length hp
    simp only [List.length_append] at this
    omega
  have hoct : (∃ s ∈ p, octal s) ↔ ((prologue p).any St.lo || rest.any St.lo) = true := by
    rw [← any_lo]
    conv => lhs; rw [hp, List.any_append]
  have hrun : stmts true strict p =
      if (strict || (prologue p).any us) && ((prologue p).any St.lo || rest.any St.lo) then none
      else some (strict || (prologue p).any us, List.replicate (prologue p).length true ++ List.replicate rest.length false) := by
    simp only [stmts]
    conv => lhs; rw [hp, loop_append, hq]
    simp only [List.any_nil, Bool.false_or, List.nil_append]
    generalize hb : (strict || (prologue p).any us) = b
    by_cases h1 : (b && (prologue p).any St.lo) = true
    · simp only [Bool.and_eq_true] at h1
      simp [h1.1, h1.2]
    · rw [if_neg h1]
      obtain ⟨q', hq'⟩ := loop_others rest ⟨b, q, (prologue p).map fun x => (x, true)⟩ hall
      simp only [Option.bind_some, hq']
      have : (b && ((prologue p).any St.lo || rest.any St.lo)) = (b && rest.any St.lo) := by
        revert h1
        generalize (prologue p).any St.lo = x
        cases b <;> cases x <;> simp
      rw [this]
      split
      · rfl
      · simp only [Option.map_some, List.map_append, map_flag]
  rw [hbody, hoct, hlen, hrun]
  generalize (strict || (prologue p).any us) = b
  generalize ((prologue p).any St.lo || rest.any St.lo) = l
  cases b <;> cases l <;> simp

/-- In a block there are no directives, and a legacy octal escape is an error exactly in strict code. -/
theorem block_directives (strict : Bool) (p : List St) :
    (stmts false strict p = none ↔ strict = true ∧ ∃ s ∈ p, octal s) ∧
    ∀ b ds, stmts false strict p = some (b, ds) → b = strict ∧ ds = List.replicate p.length false := by
  have h : stmts false strict p = if strict && p.any St.lo then none else some (strict, List.replicate p.length false) := by
    rw [stmts, loop_block]
    split
    · rfl
    · simp only [Option.map_some, List.map_append, map_flag, List.map_nil, List.nil_append]
  rw [h, ← any_lo]
  constructor
  · cases strict <;> cases p.any St.lo <;> simp
  · intro b ds hb
    split at hb
    · cases hb
    · simp only [Option.some.injEq, Prod.mk.injEq] at hb
      exact ⟨hb.1.symm, hb.2.symm⟩

/-- What the code does for all statements: it is strict exactly if the code around it is, or the first statement is a string and
any statement, be it in the prologue or not, is `use strict`. -/
theorem strict_by_any (strict : Bool) (p : List St) (b : Bool) (ds : List Bool) (h : stmts true strict p = some (b, ds)) :
    b = true ↔ strict = true ∨ ((∃ s r, p = s :: r ∧ isStr s = true) ∧ ∃ s ∈ p, useStrict s) := by
  simp only [stmts] at h
  cases hl : loop true ⟨strict, 0, []⟩ p with
  | none => rw [hl] at h; cases h
  | some s =>
    rw [hl] at h
    simp only [Option.map_some, Option.some.injEq, Prod.mk.injEq] at h
    rw [← h.1]
    clear h
    cases p with
    | nil => simp only [loop, Option.some.injEq] at hl; subst hl; simp
    | cons d r =>
      cases strict with
      | true => rw [loop_strict _ _ (.inl rfl) s hl]; simp
      | false =>
        cases hd : isStr d with
        | true =>
          have ht : turn true ⟨false, 0, []⟩ d = some ⟨us d, 1, [(d, true)]⟩ := by
            simp [turn, isDirective_eq, hd]
          simp only [loop, ht] at hl
          rw [loop_strict r _ (.inr (by simp)) s hl]
          have : (us d || r.any us) = (d :: r).any us := rfl
          rw [this, any_us]
          simp [hd]
        | false =>
          have hu : us d = false := by cases h : us d <;> simp_all [us_isStr]
          have ht : turn true ⟨false, 0, []⟩ d = some ⟨false, -1, [(d, false)]⟩ := by
            simp [turn, isDirective_eq, hd, hu]
          simp only [loop, ht] at hl
          rw [loop_over r _ rfl] at hl
          simp only [Bool.false_and, Bool.false_eq_true, if_false, Option.some.injEq] at hl
          subst hl
          simp only [Bool.false_eq_true, false_or, false_iff, not_and]
          rintro ⟨s, r', he, hs⟩
          simp only [List.cons.injEq] at he
          rw [← he.1, hd] at hs
          cases hs

/-! ## Not vacuous -/

/-- `"a"; 'use strict'; "b"; c;`. -/
def sample : List St := [.str "\"a\"" false, .str "'use strict'" false, .str "\"b\"" false, .other false]

/-- `"\01"; 'use strict'`. -/
def sampleOct : List St := [.str "\"\\01\"" true, .str "'use strict'" false]

theorem noStray_of (p : List St) (h : ∀ x ∈ p.dropWhile isStr, isStr x = false) : noStray p := by
  intro a b c hp hb s hs
  subst hp
  induction a with
  | nil => exact h s (by simp [List.dropWhile_cons, hb, hs])
  | cons x a ih =>
    simp only [List.cons_append, List.dropWhile_cons] at h
    split at h
    · exact ih h
    · exact h s (by simp [hs])

example : noStray sample := noStray_of _ (by decide)
example : ∀ s ∈ sample, useStrict s → ¬ octal s := by simp [sample, octal]
example : stmts true false sample = some (true, [true, true, true, false]) := by decide +kernel
example : strictBody false sample := .inr ⟨.str "'use strict'" false, by decide, false, .inr rfl⟩
example : noStray sampleOct := noStray_of _ (by decide)
example : stmts true false sampleOct = none := by decide +kernel
example : stmts false true sampleOct = none ∧ stmts false false sampleOct = some (false, [false, false]) := by decide +kernel

/-! ## Where the code differs -/

/-- `"a"; b; "use strict"`: the string is not in the prologue and yet makes the code strict. -/
theorem late_strict_violated : ∃ p, ¬ strictBody false p ∧ ∃ ds, stmts true false p = some (true, ds) := by
  refine ⟨[.str "\"a\"" false, .other false, .str "\"use strict\"" false], ?_, [true, false, true], by decide +kernel⟩
  rintro (h | ⟨s, hs, hu⟩)
  · cases h
  · rw [← us_iff] at hu
    revert s
    decide +kernel

/-- `"a"; b; "use strict"; "\01"`: code which is not strict is rejected. -/
theorem late_octal_violated : ∃ p, ¬ strictBody false p ∧ stmts true false p = none := by
  refine ⟨[.str "\"a\"" false, .other false, .str "\"use strict\"" false, .str "\"\\01\"" true], ?_, by decide +kernel⟩
  rintro (h | ⟨s, hs, hu⟩)
  · cases h
  · rw [← us_iff] at hu
    revert s
    decide +kernel

/-- `"a"; b; "c"`: the last statement is reported as a directive. -/
theorem late_directive_violated : ∃ p, (prologue p).length = 1 ∧ stmts true false p = some (false, [true, false, true]) :=
  ⟨[.str "\"a\"" false, .other false, .str "\"c\"" false], by decide, by decide +kernel⟩

end Mole.Parser.Directive
