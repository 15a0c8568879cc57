import Verif.Parser.PatternAccept
/-!
# C25, C29, C30, C55, C56: arrow parameters, assignment targets and what trying them does
-/
namespace Mole.Parser.Pat
open Spec

/-! ## Arguments at depth 0 -/

theorem toParam_top {C : Cfg} {e : E} (h : ∀ es, e ≠ .arrPat es) (h2 : ∀ ps, e ≠ .objPat ps) :
    toParam C false true e = toParam C false false e := by
  cases e with
  | arrPat es => exact absurd rfl (h es)
  | objPat ps => exact absurd rfl (h2 ps)
  | _ => simp [toParam, simpleLVal]

theorem build_not_pat {C : Cfg} {e e' : E} (hr : ∀ es, e ≠ .arrPat es) (hr2 : ∀ ps, e ≠ .objPat ps)
    (h : build C e = .ok e') : (∀ es, e' ≠ .arrPat es) ∧ (∀ ps, e' ≠ .objPat ps) := by
  cases e <;> rw [build] at h <;>
    first
    | exact absurd rfl (hr _)
    | exact absurd rfl (hr2 _)
    | (cases h; exact ⟨nofun, nofun⟩)
    | (split at h
       · first
         | (cases h; exact ⟨nofun, nofun⟩)
         | (split at h
            · first
              | (cases h; exact ⟨nofun, nofun⟩)
              | (split at h
                 · cases h; exact ⟨nofun, nofun⟩
                 · cases h)
            · cases h)
       · cases h)
    | skip
  all_goals nofun

/-- No element is itself a pattern. -/
def NoPat : Elems → Prop
  | .nil => True
  | .hole es => NoPat es
  | .cons e es => (∀ x, e ≠ .arrPat x) ∧ (∀ x, e ≠ .objPat x) ∧ NoPat es
  | .spread _ _ es => NoPat es
  | .rest _ es => NoPat es

theorem toParams_eq (C : Cfg) : ∀ es, NoPat es → toParams C es = toElems C false es
  | .nil, h => by rw [toParams, toElems]
  | .hole es, h => by rw [toParams, toElems, toParams_eq C es h]
  | .cons e es, h => by rw [toParams, toElems, toParams_eq C es h.2.2, toParam_top h.1 h.2.1]
  | .rest e es, h => by rw [toParams, toElems, toParams_eq C es h]
  | .spread tc e es, h => by
    rw [toParams, toElems]
    cases tc with
    | true => simp
    | false =>
      simp only [Bool.false_eq_true, if_false, and_false, false_or]
      by_cases hk : e.kind = .name ∨ e.kind = .lit ∧ C.nestedRest = true
      · rw [if_pos hk, if_pos hk]
        have : (∀ x, e ≠ .arrPat x) ∧ (∀ x, e ≠ .objPat x) := by
          refine ⟨?_, ?_⟩ <;> rintro x rfl <;> simp [E.kind] at hk
        rw [toParam_top this.1 this.2, toParams_eq C es h]
      · rw [if_neg hk, if_neg hk]

theorem buildElems_noPat (C : Cfg) : ∀ es es', RawElems es → buildElems C es = .ok es' → NoPat es'
  | .nil, es', hr, h => by rw [buildElems] at h; cases h; trivial
  | .hole es, es', hr, h => by
    rw [buildElems] at h
    split at h
    · rename_i h1
      cases h
      have := buildElems_noPat C es _ hr h1
      exact this
    · cases h
  | .cons e es, es', hr, h => by
    rw [buildElems] at h
    split at h
    · rename_i h1
      split at h
      · rename_i h2
        cases h
        have := build_not_pat (C := C) (e := e)
          (by rintro x rfl; exact hr.1) (by rintro x rfl; exact hr.1) h1
        exact ⟨this.1, this.2, buildElems_noPat C es _ hr.2 h2⟩
      · cases h
    · cases h
  | .spread tc e es, es', hr, h => by
    rw [buildElems] at h
    split at h
    · split at h
      · rename_i h2
        cases h
        have := buildElems_noPat C es _ hr.2 h2
        exact this
      · cases h
    · cases h
  | .rest e es, es', hr, h => hr.elim

/-! ## C30 -/

/-- **C30, no loss.** The parameters made from arguments, with pattern nodes read back as the
literals, assignments and spreads they came from, are the arguments as written: every name, key,
default and rest element is in its place. -/
theorem arrow_params_same (C : Cfg) (args built ps : Elems) (hr : RawElems args)
    (hb : buildElems C args = .ok built) (h : toParams C built = .ok ps) :
    stripElems ps = stripElems args := by
  rw [toParams_eq C _ (buildElems_noPat C _ _ hr hb)] at h
  rw [toElems_strip C false _ _ h, (buildElems_held C _ _ hr hb).2]

/-- **C30, names.** The parameters bind exactly the names that stand in binding position in the
arguments, in order. -/
theorem arrow_params_names (C : Cfg) (args built ps : Elems) (hr : RawElems args)
    (hb : buildElems C args = .ok built) (h : toParams C built = .ok ps) :
    namesInElems ps = boundElems args := by
  have hs := arrow_params_same C args built ps hr hb h
  rw [toParams_eq C _ (buildElems_noPat C _ _ hr hb)] at h
  rw [namesElems_conv ps (toElems_conv C false _ _ (buildElems_held C _ _ hr hb).1 h),
    ← boundElems_strip, hs, boundElems_strip]

mutual
theorem Plain.noPat (C : Cfg) (d lhs : Bool) : ∀ e, Plain C d lhs e → (∀ x, e ≠ .arrPat x) ∧ ∀ x, e ≠ .objPat x
  | e, h => by refine ⟨?_, ?_⟩ <;> rintro x rfl <;> exact h
end

theorem buildElems_noPat_plain (C : Cfg) (d lhs : Bool) : ∀ es es', PlainElems C d lhs es →
    buildElems C es = .ok es' → NoPat es'
  | .nil, es', hr, h => by rw [buildElems] at h; cases h; trivial
  | .hole es, es', hr, h => by
    rw [buildElems] at h
    split at h
    · rename_i h1
      cases h
      have := buildElems_noPat_plain C d lhs es _ hr h1
      exact this
    · cases h
  | .cons e es, es', hr, h => by
    rw [buildElems] at h
    split at h
    · rename_i h1
      split at h
      · rename_i h2
        cases h
        have hp := Plain.noPat C d lhs e hr.1
        have := build_not_pat hp.1 hp.2 h1
        exact ⟨this.1, this.2, buildElems_noPat_plain C d lhs es _ hr.2 h2⟩
      · cases h
    · cases h
  | .spread tc e es, es', hr, h => by
    rw [buildElems] at h
    split at h
    · split at h
      · rename_i h2
        cases h
        have := buildElems_noPat_plain C d lhs es _ hr.2.2.1 h2
        exact this
      · cases h
    · cases h
  | .rest e es, es', hr, h => hr.elim

/-- **C30, acceptance** (partial: for argument lists outside the forms listed at `Plain`).
Arguments are accepted as arrow parameters exactly when they are a list of binding elements with
an optional rest element at the end. -/
theorem arrow_accepts_iff_partial (C : Cfg) (hC : Sane C) (args : Elems)
    (hp : PlainElems C false false args) :
    (∃ built ps, buildElems C args = .ok built ∧ toParams C built = .ok ps) ↔
      TargetElems C false args := by
  rw [← accElems_iff C hC false false args hp]
  constructor
  · rintro ⟨b, ps, h1, h2⟩
    rw [toParams_eq C _ (buildElems_noPat_plain C _ _ _ _ hp h1)] at h2
    exact ⟨b, ps, h1, h2⟩
  · rintro ⟨b, ps, h1, h2⟩
    exact ⟨b, ps, h1, by rw [toParams_eq C _ (buildElems_noPat_plain C _ _ _ _ hp h1)]; exact h2⟩

/-! ## C29, assignment targets -/

/-- **C29, targets of `=`** (partial: outside the forms listed at `Plain`).  A left side of `=` is
accepted exactly when it is a valid assignment target: a name, a member expression, one of these
in parentheses, or a pattern of such. -/
theorem target_iff_partial (C : Cfg) (hC : Sane C) (l : E) (hp : Plain C true true l) :
    (∃ l' p, build C l = .ok l' ∧ target C true true l' = .ok p) ↔ Target C true false l := by
  have hraw := Plain.noPat C true true l hp
  rw [target_init, ← acc_iff C hC true true l hp]
  constructor
  · rintro ⟨l', p, h1, h2⟩
    obtain ⟨h3, h4⟩ := target_ok h2
    refine ⟨⟨_, _, h1, h3⟩, ?_⟩
    cases l with
    | assign p' a b =>
      exfalso
      have hs := h4 rfl
      have hk := (build_kind h1).1
      cases l' with
      | assign p2 a2 b2 =>
        rw [toParam] at h3
        split at h3
        · cases h3
        · split at h3
          · split at h3
            · cases h3
              simp [simpleLVal] at hs
            · cases h3
          · cases h3
      | _ => simp [E.kind] at hk
    | _ => rfl
  · rintro ⟨⟨l', p, h1, h2⟩, hna⟩
    exact ⟨l', p, h1, by simp [target, h2, first_pass_simple hC hna hraw.1 hraw.2 h1 h2]⟩

/-- **C29, targets of `+=` and the like** (partial, as above).  Accepted exactly when simple: a
name, a member expression, or one of these in parentheses. -/
theorem op_target_iff_partial (C : Cfg) (hC : Sane C) (l : E) (hp : Plain C true true l) :
    (∃ l' p, build C l = .ok l' ∧ target C true false l' = .ok p) ↔ Simple C l := by
  have hraw := Plain.noPat C true true l hp
  have hacc := acc_iff C hC true true l hp
  constructor
  · rintro ⟨l', p, h1, h2⟩
    obtain ⟨h3, h4⟩ := target_ok h2
    have hs := h4 rfl
    have ht := hacc.1 ⟨_, _, h1, h3⟩
    cases l with
    | name n => exact ht
    | member n => exact True.intro
    | paren e => exact ht.2
    | arr es =>
      rw [build] at h1
      split at h1
      · cases h1
        rw [toParam] at h3
        split at h3
        · cases h3; simp [simpleLVal] at hs
        · cases h3
      · cases h1
    | obj ps =>
      rw [build] at h1
      split at h1
      · cases h1
        rw [toParam] at h3
        split at h3
        · cases h3; simp [simpleLVal] at hs
        · cases h3
      · cases h1
    | assign p' a b =>
      have hk := (build_kind h1).1
      cases l' with
      | assign p2 a2 b2 =>
        rw [toParam] at h3
        split at h3
        · cases h3
        · split at h3
          · split at h3
            · cases h3
              simp [simpleLVal] at hs
            · cases h3
          · cases h3
      | _ => simp [E.kind] at hk
    | _ => cases ht
  · intro hs
    have hgood : ∀ n, ¬ Reserved C n → simpleLVal C true true (.name n) = true := by
      intro n hn
      simp only [simpleLVal, Bool.not_eq_true']
      cases hbad : C.badTarget n
      · rfl
      · exact absurd (hC.bad n hbad) hn
    cases l with
    | name n =>
      have hn := nameParam_ok.2 hs
      refine ⟨_, .name n, rfl, ?_⟩
      unfold target
      rw [toParam, hn]
      simp [hgood n hs]
    | member n => exact ⟨.member n, .member n, rfl, by simp [target, toParam, simpleLVal]⟩
    | paren e =>
      cases e with
      | name n =>
        have hn := nameParam_ok.2 hs
        refine ⟨.paren (.name n), .name n, rfl, ?_⟩
        unfold target
        rw [toParam, if_pos (by rfl), toParam, hn]
        have := hgood n hs
        simp [this]
      | member n => exact absurd hp.1 (by simp [E.isMemberOrParen])
      | paren n => exact absurd hp.1 (by simp [E.isMemberOrParen])
      | _ => cases hs
    | _ => cases hs

/-! ## Where they fail -/

/-- Nothing is reserved but the name 99. -/
def cfg : Cfg := ⟨true, fun n => n == 99, fun _ => false, fun _ => false, false, true⟩

theorem cfg_sane : Sane cfg := ⟨by simp [cfg], by simp [cfg]⟩

/-- One argument. -/
def one (e : E) : Elems := .cons e .nil

/-- **C30 is violated**: `([a.b] = c) => …` is accepted, a member expression bound. -/
theorem member_bound_violated : ∃ b ps,
    buildElems cfg (one (.assign true (.arr (one (.member 0))) (.name 1))) = .ok b ∧
    toParams cfg b = .ok ps ∧
    ¬ TargetElems cfg false (one (.assign true (.arr (one (.member 0))) (.name 1))) :=
  ⟨_, _, rfl, rfl, by simp [one, TargetElems, Target]⟩

/-- **C30 is violated**: `((a) = 1) => …` is accepted. -/
theorem paren_bound_violated : ∃ b ps,
    buildElems cfg (one (.assign true (.paren (.name 0)) (.prim 1))) = .ok b ∧
    toParams cfg b = .ok ps ∧
    ¬ TargetElems cfg false (one (.assign true (.paren (.name 0)) (.prim 1))) :=
  ⟨_, _, rfl, rfl, by simp [one, TargetElems, Target]⟩

/-- **C30 is violated**: `({ k: a = 1 } = b) => …` is rejected. -/
theorem nested_default_violated : ∃ b,
    buildElems cfg (one (.assign true (.obj (.kv 5 (.assign true (.name 0) (.prim 1)) .nil)) (.name 2))) =
      .ok b ∧
    toParams cfg b = .error .err ∧
    TargetElems cfg false
      (one (.assign true (.obj (.kv 5 (.assign true (.name 0) (.prim 1)) .nil)) (.name 2))) :=
  ⟨_, rfl, rfl, by simp [one, TargetElems, Target, TargetProps, Reserved, cfg]⟩

/-- **C30 is violated**: `({ a = function () {} }) => …` is rejected. -/
theorem function_default_violated :
    toParams cfg (one (.obj (.init 0 (.fn 1) .nil))) = .error .err ∧
    TargetElems cfg false (one (.obj (.init 0 (.fn 1) .nil))) :=
  ⟨rfl, by simp [one, TargetElems, Target, TargetProps, Reserved, cfg]⟩

/-- **C30 is violated**: `({ [k] = 1 }) => …` is accepted. -/
theorem computed_default_violated : ∃ ps,
    toParams cfg (one (.obj (.initKey (.name 0) (.prim 1) .nil))) = .ok ps ∧
    ¬ TargetElems cfg false (one (.obj (.initKey (.name 0) (.prim 1) .nil))) :=
  ⟨_, rfl, by simp [one, TargetElems, Target, TargetProps]⟩

/-- **C29 is violated**: `(a.b) = 1` is rejected. -/
theorem paren_member_violated : target cfg true true (.paren (.member 0)) = .error .err ∧
    Target cfg true false (.paren (.member 0)) := ⟨rfl, by simp [Target, Simple]⟩

/-- **C29 is violated**: `((a)) = 1` is rejected. -/
theorem double_paren_violated : target cfg true true (.paren (.paren (.name 0))) = .error .err ∧
    Target cfg true false (.paren (.paren (.name 0))) := ⟨rfl, by simp [Target, Simple, Reserved, cfg]⟩

/-- **C29 is violated**: `[...a.b] = c` is rejected. -/
theorem rest_member_violated :
    target cfg true true (.arr (.spread false (.member 0) .nil)) = .error .err ∧
    Target cfg true false (.arr (.spread false (.member 0) .nil)) :=
  ⟨rfl, by simp [Target, TargetElems, E.kind]⟩

/-- **C29 is violated**: as an argument (`f([a] += 1)`), where the left side is not checked, a pattern is
accepted left of `+=`. -/
theorem op_pattern_violated : ∃ p, target cfg false false (.arr (one (.name 0))) = .ok p ∧
    ¬ Simple cfg (.arr (one (.name 0))) := ⟨_, rfl, by simp [Simple]⟩

/-- parser.go:4368, 4411: whether `updateExpr` accepts an operand of `++` or `--`. -/
def updateOperand (C : Cfg) (e : E) : Bool := simpleLVal C true false e

/-- An array or object literal, or such or a member expression in parentheses. -/
def OddOperand (paren : Bool) : E → Prop
  | .arr _ | .obj _ | .arrPat _ | .objPat _ => True
  | .member _ => paren = true
  | .paren e => OddOperand true e
  | _ => False

/-- **C29, operands of `++` and `--`** (partial: outside the forms of `OddOperand`).  Accepted exactly when simple. -/
theorem update_operand_iff_partial (C : Cfg) (hC : ∀ n, C.badTarget n = true ↔ Reserved C n) (e : E)
    (h : ¬ OddOperand false e) : updateOperand C e = true ↔ Simple C e := by
  have key : ∀ (e : E) (p : Bool), ¬ OddOperand p e → (simpleLVal C (!p) false e = true ↔ Simple C e) := by
    intro e p h
    fun_induction OddOperand p e with
    | case7 t =>
      cases t <;> simp_all [simpleLVal, Simple, ← hC]
    | _ => simp_all [simpleLVal, Simple, OddOperand]
  exact key e false h

/-- **C29 is violated**: `[a]++` is accepted and `(a.b)++` rejected. -/
theorem update_operand_violated :
    (updateOperand cfg (.arr (one (.name 0))) = true ∧ ¬ Simple cfg (.arr (one (.name 0)))) ∧
    updateOperand cfg (.paren (.member 0)) = false ∧ Simple cfg (.paren (.member 0)) :=
  ⟨⟨rfl, by simp [Simple]⟩, rfl, by simp [Simple]⟩

example : ¬ OddOperand false (.paren (.paren (.name 3))) ∧ ¬ OddOperand false (.member 3) := by simp [OddOperand]

/-- **C55 is violated**: `(a = [,])`, arrow or not, panics, and so does `(a = { 5 })`. -/
theorem hole_panics_violated :
    toParams cfg (one (.assign true (.name 0) (.arr (.hole .nil)))) = .error .panic ∧
    toParams cfg (one (.assign true (.name 0) (.obj (.bare 5 .nil)))) = .error .panic := ⟨rfl, rfl⟩

/-- The hypotheses of the theorems above hold of `({ k: [a, ...b], c = 1 } , [d] = e, ...f)`. -/
example : PlainElems cfg false false
    (.cons (.obj (.kv 5 (.arr (.cons (.name 0) (.spread false (.name 1) .nil))) (.init 2 (.prim 1) .nil)))
      (.cons (.assign true (.arr (one (.name 3))) (.name 4)) (.spread false (.name 5) .nil))) ∧
    TargetElems cfg false
    (.cons (.obj (.kv 5 (.arr (.cons (.name 0) (.spread false (.name 1) .nil))) (.init 2 (.prim 1) .nil)))
      (.cons (.assign true (.arr (one (.name 3))) (.name 4)) (.spread false (.name 5) .nil))) := by
  refine ⟨?_, ?_⟩
  · have h1 : DefaultFine cfg (.prim 1) := ⟨_, rfl, by intro d; simp [checkDef]⟩
    have h4 : DefaultFine cfg (.name 4) := ⟨_, rfl, by intro d; simp [checkDef, cfg]⟩
    simp [PlainElems, Plain, PlainProps, E.isMember, E.isFn, one, h1, h4]
  · simp [TargetElems, Target, TargetProps, one, Reserved, cfg, E.kind]

/-- Both sides of the equivalence can be false: `(a.b) => …`. -/
example : PlainElems cfg false false (one (.member 0)) ∧ ¬ TargetElems cfg false (one (.member 0)) := by
  simp [one, PlainElems, Plain, TargetElems, Target]

example : boundElems (.cons (.obj (.kv 5 (.arr (.cons (.name 0) (.spread false (.name 1) .nil)))
    (.init 2 (.prim 1) .nil))) .nil) = [0, 1, 2] := rfl

/-! ## C25 -/

theorem dupName_iff (seen ns : List Nat) :
    checkParams.dupName seen ns = true ↔ ¬ (ns.Nodup ∧ ∀ n ∈ ns, n ∉ seen) := by
  induction ns generalizing seen with
  | nil => simp [checkParams.dupName]
  | cons n ns ih =>
    rw [checkParams.dupName]
    by_cases hn : n ∈ seen
    · simp [hn]
    · have : seen.contains n = false := by simpa using hn
      rw [this]
      simp only [Bool.false_eq_true, if_false, ih, List.nodup_cons, List.mem_cons]
      constructor
      · intro h ⟨⟨h1, h2⟩, h3⟩
        refine h ⟨h2, fun m hm => ?_⟩
        rintro (rfl | h4)
        · exact h1 hm
        · exact h3 m (.inr hm) h4
      · intro h ⟨h1, h2⟩
        refine h ⟨⟨fun hm => h2 n hm (.inl rfl), h1⟩, ?_⟩
        rintro m (rfl | hm)
        · exact hn
        · exact fun h3 => h2 m hm (.inr h3)

/-- **C25, where duplicates are forbidden and the code knows it**: in strict mode, or with a
parameter that is not a plain name, a list is rejected exactly when two bound names are equal. -/
theorem params_dup_iff (strict compl : Bool) (names : List Nat) (h : strict = true ∨ compl = true) :
    checkParams strict compl names = .error .err ↔ ¬ names.Nodup := by
  have hs : (strict || compl) = true := by rcases h with rfl | rfl <;> simp
  unfold checkParams
  have hd := dupName_iff [] names
  simp only [List.not_mem_nil, not_false_eq_true, implies_true, and_true] at hd
  by_cases hn : names.Nodup
  · have : checkParams.dupName [] names = false := by
      cases hx : checkParams.dupName [] names
      · rfl
      · exact absurd hn (hd.1 hx)
    rw [this]
    simp [hn]
  · rw [hd.2 hn]
    simp [hn, hs]

/-- **C25**, outright: nothing else is ever rejected, and without strictness and with plain names only,
nothing is. -/
theorem params_error_iff (strict compl : Bool) (names : List Nat) :
    checkParams strict compl names = .error .err ↔
      (strict = true ∨ compl = true) ∧ ¬ names.Nodup := by
  by_cases h : strict = true ∨ compl = true
  · rw [params_dup_iff strict compl names h]; simp [h]
  · have hs : strict = false ∧ compl = false := by simpa using h
    unfold checkParams
    rw [hs.1, hs.2]
    simp

/-- Nothing but names. -/
inductive PlainNames : Elems → Prop
  | nil : PlainNames .nil
  | cons {n : Nat} {es : Elems} : PlainNames es → PlainNames (.cons (.name n) es)

theorem complicated_iff : ∀ es : Elems, complicated es = true ↔ ¬PlainNames es
  | .nil => by simp [complicated, PlainNames.nil]
  | .cons e es => by
    by_cases h : ∃ n, e = .name n
    · obtain ⟨n, rfl⟩ := h
      rw [complicated, complicated_iff es]
      exact not_congr ⟨.cons, fun h => by cases h; assumption⟩
    · rw [complicated]
      · simp only [true_iff]
        intro hp; cases hp; exact h ⟨_, rfl⟩
      · nofun
      · intro n es' he; cases he; exact h ⟨_, rfl⟩
  | .hole _ => by simp only [complicated, true_iff]; nofun
  | .spread _ _ _ => by simp only [complicated, true_iff]; nofun
  | .rest _ _ => by simp only [complicated, true_iff]; nofun

/-- **C25 for arrow functions** (partial: the language forbids duplicates in every arrow function).
Accepted parameters that are strict or not all plain names bind pairwise different names, those in
binding position of the arguments. -/
theorem arrow_nodup_partial (C : Cfg) (strict : Bool) (args built ps : Elems) (hr : RawElems args)
    (hb : buildElems C args = .ok built) (h : arrowParams C strict built = .ok ps)
    (hs : strict = true ∨ ¬PlainNames ps) : (boundElems args).Nodup := by
  rw [← complicated_iff] at hs
  unfold arrowParams at h
  split at h
  · rename_i qs hq
    split at h
    · rename_i hc
      cases h
      have hnames := arrow_params_names C args built _ hr hb hq
      by_cases hn : (boundElems args).Nodup
      · exact hn
      · rw [← hnames] at hn
        rw [(params_dup_iff strict _ _ hs).2 hn] at hc
        cases hc
    · cases h
  · cases h

/-- **C25 is violated**: `(a, a) => …` is accepted in sloppy mode (and `{ m(a, a) {} }` alike). -/
theorem arrow_dup_violated : ∃ ps,
    arrowParams cfg false (.cons (.name 0) (one (.name 0))) = .ok ps ∧
    ¬ (boundElems (.cons (.name 0) (one (.name 0)))).Nodup :=
  ⟨_, rfl, by decide⟩

example : arrowParams cfg true (.cons (.name 0) (one (.arr (one (.name 0))))) = .error .err := rfl

end Mole.Parser.Pat
