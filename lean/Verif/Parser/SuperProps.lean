import Verif.Parser.SuperLemmas

/-!
# C83: `super` and `new.target` are accepted where the language has them

`accepts` is the parser (`Super`), `legal` the language (`SuperSpec`).
-/
namespace Mole.Parser.Super

/-- A list of items. -/
def items : List Item → Items
  | [] => .nil
  | i :: is => .cons i (items is)

/-- **C83, partial.**  Of a program the parser accepts, in any nesting: a `super.x` is in the body of a class or in a
method; a `super(…)` is in a constructor, with at most blocks and arrow functions that are not async between, and some
class around has `extends`; a `new.target` is in a function, an arrow function or a class; there is no `super[x]`.
Missing: the same with the rules of the language, see the counterexamples. -/
theorem accepted_uses_partial (p : Items) (h : accepts p = true) : p.ok atMost ⟨false, false, false, false⟩ = true := by
  rw [accepts, Option.isSome_iff_exists] at h
  obtain ⟨k, hk⟩ := h
  exact Items.run_most p ⟨by simp [view, root], by simp [view, root], by simp [view, root], by simp [view, root]⟩ hk

/-- **C83, partial.**  Every program whose uses are where `atLeast` has them is accepted, and those are all where the
language has them: no program loses its uses in class methods, constructors, fields and static blocks, through any
blocks and arrow functions.  Missing: the rest of the language, see the counterexamples. -/
theorem legal_uses_partial (p : Items) (h : p.ok atLeast ⟨false, false, false, false⟩ = true) :
    accepts p = true ∧ legal p = true := by
  refine ⟨?_, Items.ok_sim least_lang p ?_ h⟩
  · rw [accepts, Option.isSome_iff_exists]
    exact Items.run_least p ⟨by simp, by simp, by simp, by simp⟩ h
  · simp

/-- **C83, partial.**  A program without the forms listed at `Item.tame` is accepted if and only if all its uses are
where the language has them.  Missing: programs with these forms. -/
theorem accepted_iff_legal_partial (p : Items) (h : p.tame false false false = true) : accepts p = legal p := by
  have ha : Agree false false false ⟨false, false, false, false⟩ ⟨false, false, false⟩ ⟨false, false, false, false⟩ :=
    ⟨⟨rfl, rfl⟩, ⟨rfl, rfl⟩, ⟨rfl, rfl⟩, ⟨rfl, rfl, rfl⟩, by simp⟩
  obtain ⟨h1, h2⟩ := Items.tame_ok p ha h
  rw [Bool.eq_iff_iff]
  constructor
  · intro hp; rw [legal, ← h1]; exact accepted_uses_partial p hp
  · intro hp; rw [legal, ← h2] at hp; exact (legal_uses_partial p hp).1

theorem items_split {k k' : Sym.Kind} (a : List Item) (i : Item) (c : List Item) (h : (items (a ++ i :: c)).run k = some k') :
    ∃ k₁ k₂, Same k k₁ ∧ i.run k₁ = some k₂ := by
  induction a generalizing k with
  | nil =>
    simp only [items, List.nil_append, Items.run, Option.bind_eq_bind, Option.bind_eq_some_iff] at h
    obtain ⟨k₁, h₁, _⟩ := h
    exact ⟨k, k₁, Same.refl k, h₁⟩
  | cons x a ih =>
    simp only [items, List.cons_append, Items.run, Option.bind_eq_bind, Option.bind_eq_some_iff] at h
    obtain ⟨k₁, h₁, h₂⟩ := h
    obtain ⟨k₂, k₃, hs, hr⟩ := ih h₂
    exact ⟨k₂, k₃, (Item.run_same x h₁).trans hs, hr⟩

/-- **C83, partial.**  A `new.target` right in the body of an arrow function that is outside of all functions and classes is an error,
whatever is before and behind.  Missing: the same for one in a block or another arrow function in it, see `target_in_arrow_violated`. -/
theorem arrow_target_rejected_partial (a c : List Item) (ps : Items) (b d : List Item) :
    accepts (items (a ++ .arrow ps (items (b ++ .use .target :: d)) :: c)) = false := by
  rw [← Bool.not_eq_true]
  intro h
  rw [accepts, Option.isSome_iff_exists] at h
  obtain ⟨k, hk⟩ := h
  obtain ⟨k₁, k₂, hs, hr⟩ := items_split a _ c hk
  rw [Item.run] at hr
  simp only [Option.bind_eq_bind, Option.bind_eq_some_iff, Option.pure_def, Option.some.injEq] at hr
  obtain ⟨_, _, k₃, hb, _⟩ := hr
  obtain ⟨k₄, k₅, hs', hu⟩ := items_split b _ d hb
  rw [Item.run] at hu
  split at hu
  · rename_i ht
    have e1 := hs.1
    have e2 := hs'.1
    simp only [view, root, View.mk.injEq, add, enter, Sym.inherit, Use.check, seesTarget] at e1 e2 ht
    simp_all
  · cases hu

/-- `x = 1; f(() => { g(); new.target })` is one of these. -/
example : accepts (items [.scope .nil, .arrow .nil (items [.scope .nil, .use .target])]) = false :=
  arrow_target_rejected_partial [.scope .nil] [] .nil [.scope .nil] []

/-- `class A extends B { constructor(a = super()) { new.target; (() => { super.x }) } y = super.z; static { super.z } m() { { super.x } } }` -/
def good : Items := items [.derived .nil
  (.ctor (items [.use .call, .use .target, .scope (items [.arrow .nil (items [.use .dot])])])
    (.field .nil (items [.use .dot]) (.static (items [.use .dot]) (.method false .nil (items [.scope (items [.use .dot])]) .nil))))]

example : good.tame false false false = true ∧ accepts good = true ∧ legal good = true ∧
    good.ok atLeast ⟨false, false, false, false⟩ = true := by decide +kernel

/-- The tests of the repository: harmony_test.go 5053, 12636, 26125, 26230, 24035, class_features_test.go 1550, 1614,
1679, 1754; harmony_fail_test.go 31, 155, 159, 163, 180, 843, 847, 876, 1011; class_features_fail_test.go 27. -/
example : [items [.method false .nil (items [.use .dot])],
    items [.derived .nil (.ctor (items [.scope (items [.arrow .nil (items [.use .call])])]) .nil)],
    items [.derived .nil (.ctor (items [.use .call]) .nil)],
    items [.cls (.method false .nil (items [.use .dot]) .nil)],
    items [.fn (items [.arrow .nil (items [.use .target])])],
    items [.cls (.field .nil (items [.use .target]) .nil)],
    items [.cls (.field .nil (items [.use .dot]) .nil)],
    items [.cls (.field .nil (items [.arrow .nil (items [.arrow .nil (items [.use .dot])])]) .nil)]].map accepts
      = [true, true, true, true, true, true, true, true] ∧
    [items [.method false .nil (items [.use .call])],
     items [.scope (items [.cls (.ctor (items [.use .call]) .nil)])],
     items [.scope (items [.derived .nil (.ctor (items [.fn (items [.use .call])]) .nil)])],
     items [.scope (items [.derived .nil (.method false .nil (items [.use .call]) .nil)])],
     items [.use .target],
     items [.arrow .nil (items [.use .target])],
     items [.use .dot],
     items [.cls (.ctor (items [.use .call]) .nil)],
     items [.cls (.field (items [.use .dot]) .nil .nil)]].map accepts
      = [false, false, false, false, false, false, false, false, false] := by decide +kernel

/-- **C83, violated.**  `class A { m() { function f() { super.x } } }` is accepted. -/
theorem super_in_function_violated :
    let p := items [.cls (.method false .nil (items [.fn (items [.use .dot])]) .nil)]
    accepts p = true ∧ legal p = false := by decide +kernel

/-- **C83, violated.**  `class A { [(super.x)]() {} }` is accepted: the flag of computed keys is not that of the
parentheses. -/
theorem super_in_key_violated :
    let p := items [.cls (.method false (items [.scope (items [.use .dot])]) .nil .nil)]
    accepts p = true ∧ legal p = false := by decide +kernel

/-- **C83, violated.**  `class A { [[{ [a]: 1 }, super.x]]() {} }` is accepted: the flag is taken away by the inner key. -/
theorem super_after_key_violated :
    let p := items [.cls (.method false (items [.prop .nil .nil, .use .dot]) .nil .nil)]
    accepts p = true ∧ legal p = false := by decide +kernel

/-- **C83, violated.**  `class A { m() { return { [super.x]: 1 } } }` is an error. -/
theorem super_in_object_key_violated :
    let p := items [.cls (.method false .nil (items [.prop (items [.use .dot]) .nil]) .nil)]
    accepts p = false ∧ legal p = true := by decide +kernel

/-- **C83, violated.**  `x = { m() { return (super.x) } }` is an error, as is `super.x` in a block of the method. -/
theorem super_in_parens_violated :
    let p := items [.method false .nil (items [.scope (items [.use .dot])])]
    accepts p = false ∧ legal p = true := by decide +kernel

/-- **C83, violated.**  `x = { m() { return () => super.x } }` is an error. -/
theorem super_in_arrow_violated :
    let p := items [.method false .nil (items [.arrow .nil (items [.use .dot])])]
    accepts p = false ∧ legal p = true := by decide +kernel

/-- **C83, violated.**  `class A { m() { super[x] } }` is an error. -/
theorem super_index_violated :
    let p := items [.cls (.method false .nil (items [.use .index]) .nil)]
    accepts p = false ∧ legal p = true := by decide +kernel

/-- **C83, violated.**  `class A { m() { new super() } }` is accepted. -/
theorem new_super_violated :
    let p := items [.cls (.method false .nil (items [.use .construct]) .nil)]
    accepts p = true ∧ legal p = false := by decide +kernel

/-- **C83, violated.**  `class A extends B { m() { class C { constructor() { super() } } } }` is accepted, though `C` has
no `extends`. -/
theorem inner_super_call_violated :
    let p := items [.derived .nil (.method false .nil (items [.cls (.ctor (items [.use .call]) .nil)]) .nil)]
    accepts p = true ∧ legal p = false := by decide +kernel

/-- **C83, violated.**  `class A extends B { constructor() { (async () => { super() })() } }` is an error: the scope is
entered before it is known to be that of an arrow function. -/
theorem async_super_call_violated :
    let p := items [.derived .nil (.ctor (items [.scope (items [.asyncArrow .nil (items [.use .call])])]) .nil)]
    accepts p = false ∧ legal p = true := by decide +kernel

/-- **C83, violated.**  `let y = () => () => new.target` and `let y = () => { { new.target } }` are accepted, though
`() => new.target` is not. -/
theorem target_in_arrow_violated :
    let p := items [.arrow .nil (items [.arrow .nil (items [.use .target])])]
    let q := items [.arrow .nil (items [.scope (items [.use .target])])]
    accepts p = true ∧ legal p = false ∧ accepts q = true ∧ legal q = false := by decide +kernel

/-- **C83, violated.**  `class A { [new.target]() {} }` is accepted. -/
theorem target_in_key_violated :
    let p := items [.cls (.method false (items [.use .target]) .nil .nil)]
    accepts p = true ∧ legal p = false := by decide +kernel

end Mole.Parser.Super
