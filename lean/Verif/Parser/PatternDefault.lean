import Verif.Parser.Pattern
/-!
# C30: default values of parameters and assignment targets
-/
namespace Mole.Parser.Pat

/-- What a default value may contain that matters: a name used, a `yield`, an `await`, and the
two places the parser has no node for (a hole of an array literal, a property that has no value). -/
inductive Thing where
  | name (n : Nat) | yield | await | gap
  deriving DecidableEq

mutual
/-- The things in a default value, in the order of the source.  Functions, member expressions, calls, string
literals, assignments and patterns are opaque. -/
def things : E → List Thing
  | .name n => [.name n]
  | .yield _ => [.yield]
  | .await e => .await :: things e
  | .un e => things e
  | .bin a b => things a ++ things b
  | .paren e => things e
  | .arr es => thingsElems es
  | .obj ps => thingsProps ps
  | .assignPat l r => things l ++ things r
  | .prim _ | .member _ | .fn _ | .other _ | .assign _ _ _ | .arrPat _ | .objPat _ => []
def thingsElems : Elems → List Thing
  | .nil => []
  | .hole es => .gap :: thingsElems es
  | .cons e es => things e ++ thingsElems es
  | .spread _ e es => things e ++ thingsElems es
  | .rest _ es => thingsElems es
def thingsProps : Props → List Thing
  | .nil => []
  | .short n ps => .name n :: thingsProps ps
  | .kv _ v ps => things v ++ thingsProps ps
  | .init _ v ps => things v ++ thingsProps ps
  | .initKey _ v ps => things v ++ thingsProps ps
  | .initPat k v ps => things k ++ things v ++ thingsProps ps
  | .bare _ ps => .gap :: thingsProps ps
  | .spread _ e ps => things e ++ thingsProps ps
  | .rest _ ps => thingsProps ps
end

/-- Which things are allowed in the default value of a parameter (`target = false`) or of an assignment
target: in parameters neither `yield` nor `await`, in targets `yield` in generators only. -/
def Allowed (C : Cfg) (target : Bool) : Thing → Prop
  | .name n => C.checkName = true → C.prohibitedVal n = false
  | .yield => target = true ∧ C.gen = true
  | .await => target = true
  | .gap => False

mutual
theorem checkDef_things (C : Cfg) (d : Bool) (e : E) :
    checkDef C d e = .ok () ↔ ∀ t ∈ things e, Allowed C d t := by
  match e with
  | .name n =>
    simp only [checkDef, things, List.mem_singleton, forall_eq, Allowed]
    cases C.checkName <;> cases C.prohibitedVal n <;> simp
  | .yield _ =>
    simp only [checkDef, things, List.mem_singleton, forall_eq, Allowed]
    cases d <;> cases C.gen <;> simp
  | .await e =>
    simp only [checkDef, things, List.mem_cons, forall_eq_or_imp]
    rw [← checkDef_things C d e]
    cases d <;> simp [Allowed]
  | .un e => simp only [checkDef, things]; exact checkDef_things C d e
  | .paren e => simp only [checkDef, things]; exact checkDef_things C d e
  | .bin a b =>
    simp only [checkDef, things, List.mem_append, or_imp, forall_and]
    rw [← checkDef_things C d a, ← checkDef_things C d b]
    cases checkDef C d a <;> simp
  | .assignPat a b =>
    simp only [checkDef, things, List.mem_append, or_imp, forall_and]
    rw [← checkDef_things C d a, ← checkDef_things C d b]
    cases checkDef C d a <;> simp
  | .arr es => simp only [checkDef, things]; exact checkDefElems_things C d es
  | .obj ps => simp only [checkDef, things]; exact checkDefProps_things C d ps
  | .prim _ | .member _ | .fn _ | .other _ | .assign _ _ _ | .arrPat _ | .objPat _ => simp [checkDef, things]
theorem checkDefElems_things (C : Cfg) (d : Bool) (es : Elems) :
    checkDefElems C d es = .ok () ↔ ∀ t ∈ thingsElems es, Allowed C d t := by
  match es with
  | .nil => simp [checkDefElems, thingsElems]
  | .hole es => simp [checkDefElems, thingsElems, Allowed]
  | .cons e es =>
    simp only [checkDefElems, thingsElems, List.mem_append, or_imp, forall_and]
    rw [← checkDef_things C d e, ← checkDefElems_things C d es]
    cases checkDef C d e <;> simp
  | .spread _ e es =>
    simp only [checkDefElems, thingsElems, List.mem_append, or_imp, forall_and]
    rw [← checkDef_things C d e, ← checkDefElems_things C d es]
    cases checkDef C d e <;> simp
  | .rest _ es => simp only [checkDefElems, thingsElems]; exact checkDefElems_things C d es
theorem checkDefProps_things (C : Cfg) (d : Bool) (ps : Props) :
    checkDefProps C d ps = .ok () ↔ ∀ t ∈ thingsProps ps, Allowed C d t := by
  match ps with
  | .nil => simp [checkDefProps, thingsProps]
  | .short n ps =>
    simp only [checkDefProps, thingsProps, List.mem_cons, forall_eq_or_imp]
    rw [← checkDefProps_things C d ps]
    simp only [Allowed]
    cases C.checkName <;> cases C.prohibitedVal n <;> simp
  | .kv _ v ps | .init _ v ps | .initKey _ v ps | .spread _ v ps =>
    simp only [checkDefProps, thingsProps, List.mem_append, or_imp, forall_and]
    rw [← checkDef_things C d v, ← checkDefProps_things C d ps]
    cases checkDef C d v <;> simp
  | .initPat k v ps =>
    simp only [checkDefProps, thingsProps, List.mem_append, or_imp, forall_and]
    rw [← checkDef_things C d k, ← checkDef_things C d v, ← checkDefProps_things C d ps]
    cases checkDef C d k <;> cases checkDef C d v <;> simp
  | .bare _ ps => simp [checkDefProps, thingsProps, Allowed]
  | .rest _ ps => simp only [checkDefProps, thingsProps]; exact checkDefProps_things C d ps
end

mutual
/-- The default values in an expression read as a parameter: what follows the `=` of an assignment or of a
property. -/
def defaults : E → List E
  | .arr es => defaultsElems es
  | .obj ps | .objPat ps => defaultsProps ps
  | .assign _ l r => r :: defaults l
  | .paren e => defaults e
  | _ => []
def defaultsElems : Elems → List E
  | .nil => []
  | .hole es => defaultsElems es
  | .cons e es => defaults e ++ defaultsElems es
  | .spread _ e es => defaults e ++ defaultsElems es
  | .rest _ es => defaultsElems es
def defaultsProps : Props → List E
  | .nil => []
  | .short _ ps => defaultsProps ps
  | .kv _ v ps => defaults v ++ defaultsProps ps
  | .init _ v ps => v :: defaultsProps ps
  | .initKey k v ps => v :: defaults k ++ defaultsProps ps
  | .initPat k v ps => v :: defaults k ++ defaultsProps ps
  | .bare _ ps => defaultsProps ps
  | .spread _ e ps => defaults e ++ defaultsProps ps
  | .rest _ ps => defaultsProps ps
end

mutual
theorem toParam_defaults {C : Cfg} {d top : Bool} {e e' : E} (h : toParam C d top e = .ok e') :
    ∀ r ∈ defaults e, checkDef C d r = .ok () := by
  match e with
  | .arr es =>
    simp only [toParam] at h
    split at h
    · rename_i es' h1; exact toElems_defaults h1
    · cases h
  | .obj ps | .objPat ps =>
    simp only [toParam] at h
    split at h
    · rename_i es' h1; exact toProps_defaults h1
    · cases h
  | .assign plain l r =>
    simp only [toParam] at h
    split at h
    · cases h
    split at h
    · rename_i l' h1
      split at h
      · rename_i h2
        intro x hx
        rcases List.mem_cons.1 hx with rfl | hx
        · exact h2
        · exact toParam_defaults h1 x hx
      · cases h
    · cases h
  | .paren e =>
    simp only [toParam] at h
    split at h
    · simp only [defaults]; exact toParam_defaults h
    · cases h
  | .name _ | .prim _ | .member _ | .fn _ | .other _ | .yield _ | .await _ | .un _ | .bin _ _ | .arrPat _
  | .assignPat _ _ => simp [defaults]
theorem toElems_defaults {C : Cfg} {d : Bool} {es es' : Elems} (h : toElems C d es = .ok es') :
    ∀ r ∈ defaultsElems es, checkDef C d r = .ok () := by
  match es with
  | .nil => simp [defaultsElems]
  | .hole es | .rest _ es =>
    simp only [toElems] at h
    split at h
    · rename_i es' h1; simp only [defaultsElems]; exact toElems_defaults h1
    · cases h
  | .cons e es =>
    simp only [toElems] at h
    split at h
    · rename_i e' h1
      split at h
      · rename_i es' h2
        intro x hx
        rcases List.mem_append.1 hx with hx | hx
        · exact toParam_defaults h1 x hx
        · exact toElems_defaults h2 x hx
      · cases h
    · cases h
  | .spread tc e es =>
    simp only [toElems] at h
    split at h
    · cases h
    split at h
    · split at h
      · rename_i e' h1
        split at h
        · rename_i es' h2
          intro x hx
          rcases List.mem_append.1 hx with hx | hx
          · exact toParam_defaults h1 x hx
          · exact toElems_defaults h2 x hx
        · cases h
      · cases h
    · cases h
theorem toProps_defaults {C : Cfg} {d : Bool} {ps ps' : Props} (h : toProps C d ps = .ok ps') :
    ∀ r ∈ defaultsProps ps, checkDef C d r = .ok () := by
  match ps with
  | .nil => simp [defaultsProps]
  | .rest _ ps =>
    simp only [toProps] at h
    split at h
    · rename_i es' h1; simp only [defaultsProps]; exact toProps_defaults h1
    · cases h
  | .short n ps =>
    simp only [toProps] at h
    split at h
    · split at h
      · rename_i es' h1; simp only [defaultsProps]; exact toProps_defaults h1
      · cases h
    · cases h
  | .kv k v ps =>
    simp only [toProps] at h
    split at h
    · cases h
    split at h
    · rename_i e' h1
      split at h
      · rename_i es' h2
        intro x hx
        rcases List.mem_append.1 hx with hx | hx
        · exact toParam_defaults h1 x hx
        · exact toProps_defaults h2 x hx
      · cases h
    · cases h
  | .init n v ps =>
    simp only [toProps] at h
    split at h
    · cases h
    split at h
    · split at h
      · rename_i h1
        split at h
        · rename_i es' h2
          intro x hx
          rcases List.mem_cons.1 hx with rfl | hx
          · exact h1
          · exact toProps_defaults h2 x hx
        · cases h
      · cases h
    · cases h
  | .initKey k v ps =>
    simp only [toProps] at h
    split at h
    · cases h
    split at h
    · rename_i k' h0
      split at h
      · rename_i h1
        split at h
        · rename_i es' h2
          intro x hx
          simp only [defaultsProps, List.cons_append, List.mem_cons, List.mem_append] at hx
          rcases hx with rfl | hx | hx
          · exact h1
          · exact toParam_defaults h0 x hx
          · exact toProps_defaults h2 x hx
        · cases h
      · cases h
    · cases h
  | .initPat k v ps =>
    simp only [toProps] at h
    split at h
    · rename_i k' h0
      split at h
      · rename_i h1
        split at h
        · rename_i es' h2
          intro x hx
          simp only [defaultsProps, List.cons_append, List.mem_cons, List.mem_append] at hx
          rcases hx with rfl | hx | hx
          · simp only [checkDef] at h1
            split at h1
            · exact h1
            · cases h1
          · exact toParam_defaults h0 x hx
          · exact toProps_defaults h2 x hx
        · cases h
      · cases h
    · cases h
  | .bare _ _ => simp [toProps] at h
  | .spread tc e ps =>
    simp only [toProps] at h
    split at h
    · cases h
    split at h
    · split at h
      · rename_i e' h1
        split at h
        · rename_i es' h2
          intro x hx
          rcases List.mem_append.1 hx with hx | hx
          · exact toParam_defaults h1 x hx
          · exact toProps_defaults h2 x hx
        · cases h
      · cases h
    · cases h
end

theorem toParams_defaults {C : Cfg} {es es' : Elems} (h : toParams C es = .ok es') :
    ∀ r ∈ defaultsElems es, checkDef C false r = .ok () := by
  match es with
  | .nil => simp [defaultsElems]
  | .hole es | .rest _ es =>
    simp only [toParams] at h
    split at h
    · rename_i es' h1; simp only [defaultsElems]; exact toParams_defaults h1
    · cases h
  | .cons e es =>
    simp only [toParams] at h
    split at h
    · rename_i e' h1
      split at h
      · rename_i es' h2
        intro x hx
        rcases List.mem_append.1 hx with hx | hx
        · exact toParam_defaults h1 x hx
        · exact toParams_defaults h2 x hx
      · cases h
    · cases h
  | .spread tc e es =>
    simp only [toParams] at h
    split at h
    · cases h
    split at h
    · split at h
      · rename_i e' h1
        split at h
        · rename_i es' h2
          intro x hx
          rcases List.mem_append.1 hx with hx | hx
          · exact toParam_defaults h1 x hx
          · exact toParams_defaults h2 x hx
        · cases h
      · cases h
    · cases h

/-- **C30** (partial: calls, member expressions and assignments in a default value are opaque here, and the code
does not look into them).  Arrow parameters whose default values, at any depth of the patterns, contain a
`yield` or an `await` are rejected; so are, where names are checked, those that use a prohibited name. -/
theorem arrow_defaults_partial {C : Cfg} {args ps : Elems} (h : toParams C args = .ok ps)
    {r : E} (hr : r ∈ defaultsElems args) :
    Thing.yield ∉ things r ∧ Thing.await ∉ things r ∧
    (C.checkName = true → ∀ n, Thing.name n ∈ things r → C.prohibitedVal n = false) := by
  have k := (checkDef_things C false r).1 (toParams_defaults h r hr)
  refine ⟨fun hy => ?_, fun ha => ?_, fun hc n hn => k _ hn hc⟩
  · exact absurd (k _ hy).1 (by decide)
  · exact absurd (k _ ha) (by simp [Allowed])

/-- **C30** (partial as above).  In the default values of a destructuring assignment `await` is fine, and
`yield` is in a generator. -/
theorem target_defaults_partial {C : Cfg} {top : Bool} {e e' : E} (h : toParam C true top e = .ok e')
    {r : E} (hr : r ∈ defaults e) (hg : C.gen = false) : Thing.yield ∉ things r := by
  have k := (checkDef_things C true r).1 (toParam_defaults h r hr)
  intro hy
  have := (k _ hy).2
  rw [hg] at this; cases this

/-- **C30**: which default values are accepted, exactly (for the operators modelled): `x = e` with a plain
left side is a parameter if and only if everything in `e` is allowed. -/
theorem default_accepted_iff (C : Cfg) (d top : Bool) (n : Nat) (e : E)
    (hn : C.checkName = true → C.prohibited n = false) :
    (∃ p, toParam C d top (.assign true (.name n) e) = .ok p) ↔ ∀ t ∈ things e, Allowed C d t := by
  rw [← checkDef_things]
  have h1 : nameParam C n = .ok () := by
    unfold nameParam
    cases hc : C.checkName
    · simp
    · simp [hn hc]
  simp only [toParam, h1]
  cases checkDef C d e <;> simp

/-- `({ x: [a = b + 1] }) => …` is accepted, `({ x: [a = b + await c] }) => …` is not. -/
example :
    let C : Cfg := ⟨true, fun _ => false, fun _ => false, fun _ => false, true, true⟩
    let args (v : E) : Elems := .cons (.obj (.kv 0 (.arr (.cons (.assign true (.name 1) v) .nil)) .nil)) .nil
    (toParams C (args (.bin (.name 2) (.prim 1)))).toOption.isSome = true ∧
    .bin (.name 2) (.prim 1) ∈ defaultsElems (args (.bin (.name 2) (.prim 1))) ∧
    (toParams C (args (.bin (.name 2) (.await (.name 3))))).toOption.isSome = false ∧
    (toParam C true false (.assign true (.name 1) (.yield 0))).toOption.isSome = true := by
  refine ⟨rfl, ?_, rfl, rfl⟩
  simp [defaultsElems, defaults, defaultsProps]

end Mole.Parser.Pat
