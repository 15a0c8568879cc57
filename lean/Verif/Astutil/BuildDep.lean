import Verif.Astutil.FnDep

/-! Model of ecma/astutil/astutil.go 350-467, building the function dependency graph (C61). -/

namespace Mole.Astutil

/-- The initialiser of a variable's declarator (astutil.go 442-447): the name may be bound by a pattern, for which
GetVarDec finds none. -/
inductive Init where
  | pattern
  | absent
  | fn (id : Nat)
  | other
deriving DecidableEq

/-- The declaration of a captured name, as astutil.go 435-451 looks at it: none, a variable statement, a function or another
one. -/
inductive Dec where
  | none
  | var (dec : Nat) (init : Init)
  | fn (dec : Nat)
  | other (dec : Nat)
deriving DecidableEq

/-- The declaration's node. -/
def Dec.id : Dec → Option Nat
  | .none => Option.none
  | .var d _ => some d
  | .fn d => some d
  | .other d => some d

mutual
/-- What matters of a program: the names that are not local to the scope they are in but bound in one around it, with
their declarations, and the functions around them. -/
inductive Item where
  | use (d : Dec)
  | fn (id : Nat) (body : Items)
inductive Items where
  | nil
  | cons (i : Item) (rest : Items)
end

/-- The state of BuildFnDepGraph: the current function, the stack, and the captures and dependencies recorded, each with
the function they are recorded for.  A function's graph node is the function itself. -/
structure Build where
  cur : Option Nat := none
  stk : List Nat := []
  caps : List (Nat × Option Nat) := []
  deps : List (Nat × Nat) := []

/-- astutil.go 369-378 (fnBefore). -/
def enterFn (f : Nat) (b : Build) : Build :=
  { b with
    stk := f :: b.stk
    deps := match b.cur with
      | some c => b.deps ++ [(c, f)]
      | none => b.deps
    cur := some f }

/-- astutil.go 380-388 (fnAfter). -/
def leaveFn (b : Build) : Build :=
  match b.stk with
  | f :: r => { b with cur := some f, stk := r }
  | [] => { b with cur := none }

/-- astutil.go 440-451: the function a declaration stands for; the outer `none` is the panic of `IsFn(nil)`. -/
def fnOf : Dec → Option (Option Nat)
  | .none => some none
  | .var _ .absent => none
  | .var _ (.fn f) => some (some f)
  | .var _ _ => some none
  | .fn f => some (some f)
  | .other _ => some none

/-- astutil.go 453-458. -/
def addDep (c : Nat) (f : Option Nat) (deps : List (Nat × Nat)) : List (Nat × Nat) :=
  match f with
  | none => deps
  | some f => if (c, f) ∈ deps then deps else deps ++ [(c, f)]

/-- astutil.go 418-461: a captured name. -/
def useName (d : Dec) (b : Build) : Option Build :=
  match b.cur with
  | none => some b
  | some c => (fnOf d).map fun f => { b with caps := b.caps ++ [(c, d.id)], deps := addDep c f b.deps }

mutual
/-- astutil.go 464: the walk. -/
def buildItem : Item → Build → Option Build
  | .use d, b => useName d b
  | .fn f body, b => (buildItems body (enterFn f b)).map leaveFn
def buildItems : Items → Build → Option Build
  | .nil, b => some b
  | .cons i r, b => (buildItem i b).bind (buildItems r)
end

/-- astutil.go 350-467 (BuildFnDepGraph); `none` is a panic. -/
def build (p : Items) : Option Build := buildItems p {}

/-! ## Specification -/

mutual
/-- The captures by the function they occur in. -/
def capturesI (cur : Option Nat) : Item → List (Nat × Option Nat)
  | .use d => match cur with
    | some c => [(c, d.id)]
    | none => []
  | .fn f body => captures (some f) body
def captures (cur : Option Nat) : Items → List (Nat × Option Nat)
  | .nil => []
  | .cons i r => capturesI cur i ++ captures cur r
end

mutual
/-- The functions a function depends on: those directly inside it, and those its captured names stand for, a function or a
variable initialised with one. -/
def dependsI (cur : Option Nat) : Item → List (Nat × Nat)
  | .use d => match cur, d with
    | some c, .fn f => [(c, f)]
    | some c, .var _ (.fn f) => [(c, f)]
    | _, _ => []
  | .fn f body => (match cur with
    | some c => [(c, f)]
    | none => []) ++ depends (some f) body
def depends (cur : Option Nat) : Items → List (Nat × Nat)
  | .nil => []
  | .cons i r => dependsI cur i ++ depends cur r
end

mutual
/-- Whether the program has no captured variable without an initialiser. -/
def initialisedI : Item → Prop
  | .use d => ∀ v, d ≠ .var v .absent
  | .fn _ body => initialised body
def initialised : Items → Prop
  | .nil => True
  | .cons i r => initialisedI i ∧ initialised r
end

mutual
/-- The declarations of all captured names of a program, in order. -/
def usesI : Item → List (Option Nat)
  | .use d => [d.id]
  | .fn _ body => uses body
def uses : Items → List (Option Nat)
  | .nil => []
  | .cons i r => usesI i ++ uses r
end

/-- A list of items in which nothing follows a function: names, and then at most one function, of the same form. -/
def Chain : Items → Prop
  | .nil => True
  | .cons (.use _) r => Chain r
  | .cons (.fn _ body) r => Chain body ∧ r = .nil

/-! ## Proofs -/

theorem fnOf_some (d : Dec) (h : ∀ v, d ≠ .var v .absent) : ∃ f, fnOf d = some f := by
  cases d with
  | var v i =>
    cases i with
    | absent => exact absurd rfl (h v)
    | _ => exact ⟨_, rfl⟩
  | _ => exact ⟨_, rfl⟩

mutual
theorem build_someI : ∀ (i : Item), initialisedI i → ∀ b, ∃ b', buildItem i b = some b'
  | .use d, h, b => by
    obtain ⟨f, hf⟩ := fnOf_some d h
    simp only [buildItem, useName]
    cases b.cur <;> simp [hf]
  | .fn f body, h, b => by
    obtain ⟨b', hb⟩ := build_some body h (enterFn f b)
    simp [buildItem, hb]
theorem build_some : ∀ (p : Items), initialised p → ∀ b, ∃ b', buildItems p b = some b'
  | .nil, _, b => ⟨b, rfl⟩
  | .cons i r, h, b => by
    obtain ⟨b1, h1⟩ := build_someI i h.1 b
    obtain ⟨b2, h2⟩ := build_some r h.2 b1
    exact ⟨b2, by rw [buildItems, h1, Option.bind_some, h2]⟩
end

mutual
/-- Inside a function, every use is recorded, for some function, and the stack is restored. -/
theorem build_usesI : ∀ (i : Item) (b b' : Build) (c : Nat), b.cur = some c → buildItem i b = some b' →
    b'.caps.map (·.2) = b.caps.map (·.2) ++ usesI i ∧ b'.stk = b.stk ∧ ∃ c', b'.cur = some c'
  | .use d, b, b', c, hc, h => by
    simp only [buildItem, useName, hc, Option.map_eq_some_iff] at h
    obtain ⟨f, _, rfl⟩ := h
    simp [usesI, hc]
  | .fn f body, b, b', c, hc, h => by
    simp only [buildItem, Option.map_eq_some_iff] at h
    obtain ⟨b1, h1, rfl⟩ := h
    obtain ⟨e1, e2, _⟩ := build_uses body (enterFn f b) b1 f rfl h1
    simp only [leaveFn, e2, enterFn, usesI]
    exact ⟨by rw [e1]; rfl, trivial, f, rfl⟩
theorem build_uses : ∀ (p : Items) (b b' : Build) (c : Nat), b.cur = some c → buildItems p b = some b' →
    b'.caps.map (·.2) = b.caps.map (·.2) ++ uses p ∧ b'.stk = b.stk ∧ ∃ c', b'.cur = some c'
  | .nil, b, b', c, hc, h => by
    simp only [buildItems, Option.some.injEq] at h; subst h
    exact ⟨by simp [uses], rfl, c, hc⟩
  | .cons i r, b, b', c, hc, h => by
    simp only [buildItems, Option.bind_eq_some_iff] at h
    obtain ⟨b1, h1, h2⟩ := h
    obtain ⟨e1, e2, c1, e3⟩ := build_usesI i b b1 c hc h1
    obtain ⟨f1, f2, f3⟩ := build_uses r b1 b' c1 e3 h2
    exact ⟨by rw [f1, e1, uses, List.append_assoc], by rw [f2, e2], f3⟩
end

theorem chain_caps : ∀ (p : Items), Chain p → ∀ (b b' : Build), buildItems p b = some b' →
    b'.caps = b.caps ++ captures b.cur p
  | .nil, _, b, b', h => by
    simp only [buildItems, Option.some.injEq] at h; subst h
    simp [captures]
  | .cons (.use d) r, hp, b, b', h => by
    simp only [buildItems, buildItem, Option.bind_eq_some_iff] at h
    obtain ⟨b1, h1, h2⟩ := h
    have ih := chain_caps r hp b1 b' h2
    rw [ih, captures]
    simp only [useName] at h1
    cases hc : b.cur with
    | none =>
      rw [hc] at h1
      simp only [Option.some.injEq] at h1
      subst h1
      simp [hc, capturesI]
    | some c =>
      rw [hc] at h1
      simp only [Option.map_eq_some_iff] at h1
      obtain ⟨f, _, rfl⟩ := h1
      simp [hc, capturesI]
  | .cons (.fn f body) r, hp, b, b', h => by
    obtain ⟨hb, rfl⟩ := hp
    simp only [buildItems, buildItem, Option.bind_eq_some_iff, Option.map_eq_some_iff, Option.some.injEq] at h
    obtain ⟨b1, ⟨b2, h2, rfl⟩, rfl⟩ := h
    have ih := chain_caps body hb (enterFn f b) b2 h2
    have hl : (leaveFn b2).caps = b2.caps := by
      simp only [leaveFn]; cases b2.stk <;> rfl
    rw [hl, ih, captures, capturesI, captures]
    simp [enterFn]

theorem mem_addDep (c : Nat) (f : Option Nat) (deps : List (Nat × Nat)) (x : Nat × Nat) :
    x ∈ addDep c f deps ↔ x ∈ deps ∨ ∃ g, f = some g ∧ x = (c, g) := by
  cases f with
  | none => simp [addDep]
  | some g =>
    simp only [addDep, Option.some.injEq]
    split
    · rename_i h
      constructor
      · exact .inl
      · rintro (h' | ⟨g', rfl, rfl⟩)
        · exact h'
        · exact h
    · simp

theorem chain_deps : ∀ (p : Items), Chain p → ∀ (b b' : Build), buildItems p b = some b' → ∀ x,
    x ∈ b'.deps ↔ x ∈ b.deps ∨ x ∈ depends b.cur p
  | .nil, _, b, b', h, x => by
    simp only [buildItems, Option.some.injEq] at h; subst h
    simp [depends]
  | .cons (.use d) r, hp, b, b', h, x => by
    simp only [buildItems, buildItem, Option.bind_eq_some_iff] at h
    obtain ⟨b1, h1, h2⟩ := h
    have ih := chain_deps r hp b1 b' h2 x
    rw [ih, depends]
    simp only [useName] at h1
    cases hc : b.cur with
    | none =>
      rw [hc] at h1
      simp only [Option.some.injEq] at h1
      subst h1
      simp [hc, dependsI]
    | some c =>
      rw [hc] at h1
      simp only [Option.map_eq_some_iff] at h1
      obtain ⟨f, hf, rfl⟩ := h1
      simp only [hc, mem_addDep, List.mem_append, or_assoc]
      have : (∃ g, f = some g ∧ x = (c, g)) ↔ x ∈ dependsI (some c) (.use d) := by
        cases d with
        | var v i => cases i <;> simp_all [fnOf, dependsI] <;> subst hf <;> simp
        | _ => simp_all [fnOf, dependsI] <;> subst hf <;> simp
      rw [this]
  | .cons (.fn f body) r, hp, b, b', h, x => by
    obtain ⟨hb, rfl⟩ := hp
    simp only [buildItems, buildItem, Option.bind_eq_some_iff, Option.map_eq_some_iff, Option.some.injEq] at h
    obtain ⟨b1, ⟨b2, h2, rfl⟩, rfl⟩ := h
    have ih := chain_deps body hb (enterFn f b) b2 h2 x
    have hl : (leaveFn b2).deps = b2.deps := by
      simp only [leaveFn]; cases b2.stk <;> rfl
    rw [hl, ih]
    cases hc : b.cur <;> simp [enterFn, hc, depends, dependsI, or_assoc]

/-! ## Properties (C61) -/

/-- **C61, captures** (partial: for programs in which nothing follows a function, see `after_inner_violated` and
`sibling_violated`).  The captures recorded are exactly the captured names, each for the function it occurs in. -/
theorem build_captures_partial (p : Items) (h : Chain p) (b : Build) (hb : build p = some b) : b.caps = captures none p := by
  have := chain_caps p h {} b hb
  simpa using this

/-- **C61, dependencies** (partial, likewise).  A function depends on exactly the functions directly inside it and those its
captured names stand for. -/
theorem build_depends_partial (p : Items) (h : Chain p) (b : Build) (hb : build p = some b) (x : Nat × Nat) :
    x ∈ b.deps ↔ x ∈ depends none p := by
  have := chain_deps p h {} b hb x
  simpa using this

/-- `function g() {…} function f() { g }` -/
example : depends none (.cons (.fn 10 (.cons (.use (.fn 9)) (.cons (.use (.var 1 (.fn 8))) .nil))) .nil) = [(10, 9), (10, 8)] := by
  decide

/-- **C61, nothing is lost** (partial: the function they are recorded for may be wrong).  In a program that is one function, every
captured name is recorded. -/
theorem build_uses_partial (f : Nat) (body : Items) (b : Build) (hb : build (.cons (.fn f body) .nil) = some b) :
    b.caps.map (·.2) = uses body := by
  simp only [build, buildItems, buildItem, Option.bind_eq_some_iff, Option.map_eq_some_iff, Option.some.injEq] at hb
  obtain ⟨b1, ⟨b2, h2, rfl⟩, rfl⟩ := hb
  obtain ⟨e1, e2, _⟩ := build_uses body _ b2 f rfl h2
  have hl : (leaveFn b2).caps = b2.caps := by
    simp only [leaveFn]; cases b2.stk <;> rfl
  rw [hl, e1]
  simp [enterFn]

/-- **C61, panics** (partial, see `no_init_panics_violated`).  Building never panics if every captured variable has an
initialiser. -/
theorem build_no_panic_partial (p : Items) (h : initialised p) : ∃ b, build p = some b := build_some p h {}

/-- `function f() { a; function g() { b } }`, where `a` and `b` are imported by 1 and 2. -/
def nested : Items :=
  .cons (.fn 10 (.cons (.use (.other 1)) (.cons (.fn 11 (.cons (.use (.other 2)) .nil)) .nil))) .nil

example : Chain nested ∧ initialised nested := by simp [nested, Chain, initialised, initialisedI]

example : (build nested).map Build.caps = some [(10, some 1), (11, some 2)] ∧ (build nested).map Build.deps = some [(10, 11)] := by
  decide

/-- **C61 is violated** by `function f() { function g() {} a }`: the use of `a` is recorded for `g`. -/
theorem after_inner_violated :
    (build (.cons (.fn 10 (.cons (.fn 11 .nil) (.cons (.use (.other 1)) .nil))) .nil)).map Build.caps = some [(11, some 1)] ∧
    captures none (.cons (.fn 10 (.cons (.fn 11 .nil) (.cons (.use (.other 1)) .nil))) .nil) = [(10, some 1)] := by decide

/-- **C61 is violated** by `function f() {} function g() { a }`: `f` depends on `g`, so that it is said to depend on `a`. -/
theorem sibling_violated :
    (build (.cons (.fn 10 .nil) (.cons (.fn 11 (.cons (.use (.other 1)) .nil)) .nil))).map (fun b => (b.deps, b.caps)) =
      some ([(10, 11)], [(11, some 1)]) := by decide

/-- **C61 is violated** by `var a; function f() { a }`: `IsFn` is called with a nil initialiser, which panics. -/
theorem no_init_panics_violated : build (.cons (.fn 10 (.cons (.use (.var 1 .absent)) .nil)) .nil) = none := rfl

end Mole.Astutil
