import Verif.Parser.SuperSpec

/-! # The parser's checks on `super` and `new.target` are between two sets of rules: lemmas -/
namespace Mole.Parser.Super
open Sym (Kind Flag)

/-- The flags that are read, but for the one that is given and taken away. -/
structure View where
  cls : Bool
  clsIndirect : Bool
  method : Bool
  ctor : Bool
  hasSuper : Bool
  func : Bool
  funcIndirect : Bool
  arrow : Bool

def view (k : Kind) : View :=
  ⟨k .cls, k .clsIndirect, k .method, k .ctor, k .clsHasSuper, k .func, k .funcIndirect, k .arrow⟩

/-- The same scope, with perhaps the flag of computed keys taken away. -/
def Same (k k' : Kind) : Prop := view k' = view k ∧ (k' .propName = true → k .propName = true)

theorem Same.refl (k : Kind) : Same k k := ⟨rfl, id⟩

theorem Same.trans {a b c : Kind} (h : Same a b) (g : Same b c) : Same a c :=
  ⟨g.1.trans h.1, fun x => h.2 (g.2 x)⟩

theorem view_add {k : Kind} {f : Flag} (h : f ∈ [Flag.propName, .clsExtendSuper, .formalParams, .paren, .async, .strict, .strictDir]) :
    view (add k f) = view k := by
  simp only [List.mem_cons, List.not_mem_nil, or_false] at h
  rcases h with h | h | h | h | h | h | h <;> subst h <;> simp [view, add]

theorem view_erase {k : Kind} {f : Flag} (h : f ∈ [Flag.propName, .clsExtendSuper, .formalParams]) :
    view (erase k f) = view k := by
  simp only [List.mem_cons, List.not_mem_nil, or_false] at h
  rcases h with h | h | h <;> subst h <;> simp [view, erase]

theorem same_key {k k₁ : Kind} (h : Same (add k .propName) k₁) : Same k (erase k₁ .propName) := by
  refine ⟨?_, fun x => ?_⟩
  · rw [view_erase (by simp), h.1, view_add (by simp)]
  · simp [erase] at x

theorem same_ext {k k₁ : Kind} (h : Same (add k .clsExtendSuper) k₁) : Same k (erase k₁ .clsExtendSuper) := by
  refine ⟨?_, fun x => ?_⟩
  · rw [view_erase (by simp), h.1, view_add (by simp)]
  · simp only [erase, Bool.and_eq_true] at x
    have := h.2 x.1
    simpa [add] using this

mutual
theorem Item.run_same : ∀ (i : Item) {k k' : Kind}, i.run k = some k' → Same k k'
  | .use u, k, k', h => by
    rw [Item.run] at h; split at h
    · cases h; exact Same.refl _
    · cases h
  | .scope b, k, k', h => by
    rw [Item.run] at h
    simp only [Option.bind_eq_bind, Option.bind_eq_some_iff, Option.pure_def, Option.some.injEq] at h
    obtain ⟨_, _, rfl⟩ := h; exact Same.refl _
  | .fn b, k, k', h => by
    rw [Item.run] at h
    simp only [Option.bind_eq_bind, Option.bind_eq_some_iff, Option.pure_def, Option.some.injEq] at h
    obtain ⟨_, _, rfl⟩ := h; exact Same.refl _
  | .arrow ps b, k, k', h => by
    rw [Item.run] at h
    simp only [Option.bind_eq_bind, Option.bind_eq_some_iff, Option.pure_def, Option.some.injEq] at h
    obtain ⟨_, _, _, _, rfl⟩ := h; exact Same.refl _
  | .asyncArrow ps b, k, k', h => by
    rw [Item.run] at h
    simp only [Option.bind_eq_bind, Option.bind_eq_some_iff, Option.pure_def, Option.some.injEq] at h
    obtain ⟨_, _, _, _, rfl⟩ := h; exact Same.refl _
  | .prop key v, k, k', h => by
    rw [Item.run] at h
    simp only [Option.bind_eq_bind, Option.bind_eq_some_iff] at h
    obtain ⟨k₁, h₁, h₂⟩ := h
    exact (same_key (Items.run_same key h₁)).trans (Items.run_same v h₂)
  | .method late key b, k, k', h => by
    rw [Item.run] at h
    split at h <;>
    · simp only [Option.bind_eq_bind, Option.bind_eq_some_iff, Option.pure_def, Option.some.injEq] at h
      obtain ⟨k₁, h₁, _, _, rfl⟩ := h
      first | exact Same.refl _ | exact same_key (Items.run_same key h₁)
  | .cls es, k, k', h => by
    rw [Item.run] at h
    simp only [Option.bind_eq_bind, Option.bind_eq_some_iff, Option.pure_def, Option.some.injEq] at h
    obtain ⟨_, _, rfl⟩ := h; exact Same.refl _
  | .derived hh es, k, k', h => by
    rw [Item.run] at h
    simp only [Option.bind_eq_bind, Option.bind_eq_some_iff, Option.pure_def, Option.some.injEq] at h
    obtain ⟨k₁, h₁, _, _, rfl⟩ := h
    exact same_ext (Items.run_same hh h₁)
theorem Items.run_same : ∀ (is : Items) {k k' : Kind}, is.run k = some k' → Same k k'
  | .nil, k, k', h => by rw [Items.run] at h; cases h; exact Same.refl _
  | .cons i is, k, k', h => by
    rw [Items.run] at h
    simp only [Option.bind_eq_bind, Option.bind_eq_some_iff] at h
    obtain ⟨k₁, h₁, h₂⟩ := h
    exact (Item.run_same i h₁).trans (Items.run_same is h₂)
end

/-! ## The upper bound -/

/-- What the flags say is what `atMost` knows. -/
def Up (v : View) (e : Most) : Prop :=
  ((v.cls || v.clsIndirect || v.method) = true → e.prop = true) ∧ (v.hasSuper = true → e.derived = true) ∧
  ((v.ctor && v.hasSuper) = true → e.call = true) ∧
  ((v.func || v.funcIndirect || v.cls || v.clsIndirect) = true → e.target = true)

theorem Up.use {k : Kind} {e : Most} {u : Use} (h : Up (view k) e) (hc : u.check k = true) : atMost.may e u = true := by
  obtain ⟨h1, h2, h3, h4⟩ := h
  cases u <;> simp only [Use.check, seesSuper, seesTarget, atMost, view] at * <;> grind

theorem Up.scope {k : Kind} {e : Most} (h : Up (view k) e) : Up (view (enter k false false)) (atMost.scope e) := by
  obtain ⟨h1, h2, h3, h4⟩ := h
  simp only [Up, view, enter, Sym.inherit, atMost] at *; grind

theorem Up.fn {k : Kind} {e : Most} (h : Up (view k) e) : Up (view (enter k true false)) (atMost.fn e) := by
  obtain ⟨h1, h2, h3, h4⟩ := h
  simp only [Up, view, enter, Sym.inherit, atMost] at *; grind

theorem Up.arrow {k : Kind} {e : Most} (h : Up (view k) e) : Up (view (add (enter k true true) .arrow)) (atMost.arrow e) := by
  obtain ⟨h1, h2, h3, h4⟩ := h
  simp only [Up, view, add, enter, Sym.inherit, atMost] at *; grind

theorem Up.async {k : Kind} {e : Most} (h : Up (view k) e) : Up (view (asyncScope k)) (atMost.asyncArrow e) := by
  obtain ⟨h1, h2, h3, h4⟩ := h
  simp only [Up, view, add, enter, asyncScope, Sym.inherit, atMost] at *; grind

theorem Up.addArrow {k : Kind} {e : Most} (h : Up (view k) e) : Up (view (add k .arrow)) e := by
  obtain ⟨h1, h2, h3, h4⟩ := h
  simp only [Up, view, add] at *; grind

theorem Up.method {k : Kind} {e : Most} (h : Up (view k) e) : Up (view (methodScope k)) (atMost.method e) := by
  obtain ⟨h1, h2, h3, h4⟩ := h
  simp only [Up, view, add, enter, methodScope, Sym.inherit, atMost] at *; grind

theorem Up.cls {k : Kind} {e : Most} (ext : Bool) (h : Up (view k) e) : Up (view (classScope k ext)) (atMost.init ext e) := by
  obtain ⟨h1, h2, h3, h4⟩ := h
  cases ext <;> simp [Up, view, add, enter, classScope, Sym.inherit, atMost] at * <;> grind

theorem Up.clsMethod {k : Kind} {e : Most} (ext : Bool) (h : Up (view k) (atMost.init ext e)) :
    Up (view (methodScope k)) (atMost.clsMethod ext e) := by
  obtain ⟨h1, h2, h3, h4⟩ := h
  simp only [Up, view, add, enter, methodScope, Sym.inherit, atMost] at *; grind

theorem Up.ctor {k : Kind} {e : Most} (ext : Bool) (h : Up (view k) (atMost.init ext e)) :
    Up (view (add (methodScope k) .ctor)) (atMost.ctor ext e) := by
  obtain ⟨h1, h2, h3, h4⟩ := h
  simp only [Up, view, add, enter, methodScope, Sym.inherit, atMost] at *; grind

mutual
theorem Item.run_most : ∀ (i : Item) {k k' : Kind} {e : Most}, Up (view k) e → i.run k = some k' → i.ok atMost e = true
  | .use u, k, k', e, hu, h => by
    rw [Item.run] at h; rw [Item.ok]; split at h
    · next hc => exact hu.use hc
    · cases h
  | .scope b, k, k', e, hu, h => by
    rw [Item.run] at h; rw [Item.ok]
    simp only [Option.bind_eq_bind, Option.bind_eq_some_iff, Option.pure_def, Option.some.injEq] at h
    obtain ⟨_, h₁, _⟩ := h; exact Items.run_most b hu.scope h₁
  | .fn b, k, k', e, hu, h => by
    rw [Item.run] at h; rw [Item.ok]
    simp only [Option.bind_eq_bind, Option.bind_eq_some_iff, Option.pure_def, Option.some.injEq] at h
    obtain ⟨_, h₁, _⟩ := h; exact Items.run_most b hu.fn h₁
  | .arrow ps b, k, k', e, hu, h => by
    rw [Item.run] at h; rw [Item.ok, Bool.and_eq_true]
    simp only [Option.bind_eq_bind, Option.bind_eq_some_iff, Option.pure_def, Option.some.injEq] at h
    obtain ⟨_, h₁, _, h₂, _⟩ := h
    exact ⟨Items.run_most ps (by rw [view_add (by simp)]; exact hu.scope) h₁, Items.run_most b hu.arrow h₂⟩
  | .asyncArrow ps b, k, k', e, hu, h => by
    rw [Item.run] at h; rw [Item.ok, Bool.and_eq_true]
    simp only [Option.bind_eq_bind, Option.bind_eq_some_iff, Option.pure_def, Option.some.injEq] at h
    obtain ⟨k₁, h₁, _, h₂, _⟩ := h
    have hv : Up (view (add (asyncScope k) .formalParams)) (atMost.asyncArrow e) := by
      rw [view_add (by simp)]; exact hu.async
    refine ⟨Items.run_most ps hv h₁, Items.run_most b (Up.addArrow ?_) h₂⟩
    rw [view_erase (by simp), (Items.run_same ps h₁).1]; exact hv
  | .prop key v, k, k', e, hu, h => by
    rw [Item.run] at h; rw [Item.ok, Bool.and_eq_true]
    simp only [Option.bind_eq_bind, Option.bind_eq_some_iff] at h
    obtain ⟨k₁, h₁, h₂⟩ := h
    exact ⟨Items.run_most key (by rw [view_add (by simp)]; exact hu) h₁,
      Items.run_most v (by rw [(same_key (Items.run_same key h₁)).1]; exact hu) h₂⟩
  | .method late key b, k, k', e, hu, h => by
    rw [Item.run] at h; rw [Item.ok, Bool.and_eq_true]
    cases late
    · simp only [Bool.false_eq_true, if_false, Option.bind_eq_bind, Option.bind_eq_some_iff, Option.pure_def, Option.some.injEq] at h
      obtain ⟨k₁, h₁, _, h₂, rfl⟩ := h
      exact ⟨Items.run_most key (by rw [view_add (by simp)]; exact hu) h₁,
        Items.run_most b (Up.method (by rw [(same_key (Items.run_same key h₁)).1]; exact hu)) h₂⟩
    · simp only [if_true, Option.bind_eq_bind, Option.bind_eq_some_iff, Option.pure_def, Option.some.injEq] at h
      obtain ⟨k₁, h₁, _, h₂, rfl⟩ := h
      exact ⟨Items.run_most key (by rw [view_add (by simp)]; exact hu.method) h₁,
        Items.run_most b (by rw [(same_key (Items.run_same key h₁)).1]; exact hu.method) h₂⟩
  | .cls es, k, k', e, hu, h => by
    rw [Item.run] at h; rw [Item.ok]
    simp only [Option.bind_eq_bind, Option.bind_eq_some_iff, Option.pure_def, Option.some.injEq] at h
    obtain ⟨_, h₁, _⟩ := h; exact Elems.run_most es (hu.cls false) h₁
  | .derived hh es, k, k', e, hu, h => by
    rw [Item.run] at h; rw [Item.ok, Bool.and_eq_true]
    simp only [Option.bind_eq_bind, Option.bind_eq_some_iff, Option.pure_def, Option.some.injEq] at h
    obtain ⟨k₁, h₁, _, h₂, rfl⟩ := h
    exact ⟨Items.run_most hh (by rw [view_add (by simp)]; exact hu) h₁,
      Elems.run_most es (Up.cls true (by rw [(same_ext (Items.run_same hh h₁)).1]; exact hu)) h₂⟩
theorem Items.run_most : ∀ (is : Items) {k k' : Kind} {e : Most}, Up (view k) e → is.run k = some k' → is.ok atMost e = true
  | .nil, _, _, _, _, _ => by rw [Items.ok]
  | .cons i is, k, k', e, hu, h => by
    rw [Items.run] at h; rw [Items.ok, Bool.and_eq_true]
    simp only [Option.bind_eq_bind, Option.bind_eq_some_iff] at h
    obtain ⟨k₁, h₁, h₂⟩ := h
    exact ⟨Item.run_most i hu h₁, Items.run_most is (by rw [(Item.run_same i h₁).1]; exact hu) h₂⟩
theorem Elems.run_most : ∀ (es : Elems) {k k' : Kind} {e : Most} {ext : Bool}, Up (view k) (atMost.init ext e) →
    es.run k = some k' → es.ok atMost ext e = true
  | .nil, _, _, _, _, _, _ => by rw [Elems.ok]
  | .ctor b es, k, k', e, ext, hu, h => by
    rw [Elems.run] at h; rw [Elems.ok, Bool.and_eq_true]
    simp only [Option.bind_eq_bind, Option.bind_eq_some_iff] at h
    obtain ⟨_, h₁, h₂⟩ := h
    exact ⟨Items.run_most b (hu.ctor ext) h₁, Elems.run_most es hu h₂⟩
  | .method late key b es, k, k', e, ext, hu, h => by
    rw [Elems.run] at h; rw [Elems.ok, Bool.and_eq_true, Bool.and_eq_true]
    cases late
    · simp only [Bool.false_eq_true, if_false, Option.bind_eq_bind, Option.bind_eq_some_iff] at h
      obtain ⟨k₁, h₁, _, h₂, h₃⟩ := h
      have hs : Up (view (erase k₁ .propName)) (atMost.init ext e) := by
        rw [(same_key (Items.run_same key h₁)).1]; exact hu
      exact ⟨⟨Items.run_most key (by rw [view_add (by simp)]; exact hu) h₁,
        Items.run_most b (hs.clsMethod ext) h₂⟩, Elems.run_most es hs h₃⟩
    · simp only [if_true, Option.bind_eq_bind, Option.bind_eq_some_iff] at h
      obtain ⟨k₁, h₁, _, h₂, h₃⟩ := h
      exact ⟨⟨Items.run_most key (by rw [view_add (by simp)]; exact hu.clsMethod ext) h₁,
        Items.run_most b (by rw [(same_key (Items.run_same key h₁)).1]; exact hu.clsMethod ext) h₂⟩, Elems.run_most es hu h₃⟩
  | .field key v es, k, k', e, ext, hu, h => by
    rw [Elems.run] at h; rw [Elems.ok, Bool.and_eq_true, Bool.and_eq_true]
    simp only [Option.bind_eq_bind, Option.bind_eq_some_iff] at h
    obtain ⟨k₁, h₁, k₂, h₂, h₃⟩ := h
    have hs : Up (view (erase k₁ .propName)) (atMost.init ext e) := by
      rw [(same_key (Items.run_same key h₁)).1]; exact hu
    exact ⟨⟨Items.run_most key (by rw [view_add (by simp)]; exact hu) h₁, Items.run_most v hs h₂⟩,
      Elems.run_most es (by rw [(Items.run_same v h₂).1]; exact hs) h₃⟩
  | .static b es, k, k', e, ext, hu, h => by
    rw [Elems.run] at h; rw [Elems.ok, Bool.and_eq_true]
    simp only [Option.bind_eq_bind, Option.bind_eq_some_iff] at h
    obtain ⟨_, h₁, h₂⟩ := h
    exact ⟨Items.run_most b hu.scope h₁, Elems.run_most es hu h₂⟩
end

/-! ## The lower bound -/

/-- What `atLeast` knows is what the flags say. -/
def Lo (k : Kind) (e : Least) : Prop :=
  (e.prop = true → seesSuper k = true) ∧ (e.inCls = true → (k .cls || k .clsIndirect) = true) ∧
  (e.call = true → e.inCls = true ∧ k .propName = false ∧ k .ctor = true ∧ k .clsHasSuper = true) ∧
  (e.target = true → seesTarget k = true ∧ (k .func || k .funcIndirect) = true)

theorem Lo.same {k k' : Kind} {e : Least} (h : Lo k e) (s : Same k k') : Lo k' e := by
  obtain ⟨h1, h2, h3, h4⟩ := h
  obtain ⟨s1, s2⟩ := s
  simp only [view, View.mk.injEq] at s1
  obtain ⟨a1, a2, a3, a4, a5, a6, a7, a8⟩ := s1
  simp only [Lo, seesSuper, seesTarget, a1, a2, a3, a4, a5, a6, a7, a8] at *
  grind

theorem Lo.use {k : Kind} {e : Least} {u : Use} (h : Lo k e) (hm : atLeast.may e u = true) : u.check k = true := by
  obtain ⟨h1, h2, h3, h4⟩ := h
  cases u <;> simp only [Use.check, seesSuper, atLeast] at * <;> grind

theorem Lo.scope {k : Kind} {e : Least} (h : Lo k e) : Lo (enter k false false) (atLeast.scope e) := by
  obtain ⟨h1, h2, h3, h4⟩ := h
  simp only [Lo, seesSuper, seesTarget, enter, Sym.inherit, atLeast] at *; grind

theorem Lo.paren {k : Kind} {e : Least} (h : Lo k e) : Lo (add k .paren) e := by
  obtain ⟨h1, h2, h3, h4⟩ := h
  simp only [Lo, seesSuper, seesTarget, add] at *; grind

theorem Lo.ext {k : Kind} {e : Least} (h : Lo k e) : Lo (add k .clsExtendSuper) e := by
  obtain ⟨h1, h2, h3, h4⟩ := h
  simp only [Lo, seesSuper, seesTarget, add] at *; grind

theorem Lo.fn {k : Kind} {e : Least} (h : Lo k e) : Lo (enter k true false) (atLeast.fn e) := by
  obtain ⟨h1, h2, h3, h4⟩ := h
  simp only [Lo, seesSuper, seesTarget, enter, Sym.inherit, atLeast] at *; grind

theorem Lo.arrow {k : Kind} {e : Least} (h : Lo k e) : Lo (add (enter k true true) .arrow) (atLeast.arrow e) := by
  obtain ⟨h1, h2, h3, h4⟩ := h
  simp only [Lo, seesSuper, seesTarget, add, enter, Sym.inherit, atLeast] at *; grind

theorem Lo.async {k : Kind} {e : Least} (h : Lo k e) : Lo (add (asyncScope k) .formalParams) (atLeast.asyncArrow e) := by
  obtain ⟨h1, h2, h3, h4⟩ := h
  simp only [Lo, seesSuper, seesTarget, asyncScope, add, enter, Sym.inherit, atLeast] at *; grind

theorem Lo.asyncBody {k k₁ : Kind} {e : Least} (h : Lo k e) (s : Same (add (asyncScope k) .formalParams) k₁) :
    Lo (add (erase k₁ .formalParams) .arrow) (atLeast.asyncArrow e) := by
  obtain ⟨h1, h2, h3, h4⟩ := h
  obtain ⟨s1, s2⟩ := s
  simp only [view, View.mk.injEq] at s1
  obtain ⟨a1, a2, a3, a4, a5, a6, a7, a8⟩ := s1
  simp only [Lo, seesSuper, seesTarget, asyncScope, add, erase, enter, Sym.inherit, atLeast, a1, a2, a3, a4, a5, a6, a7, a8] at *
  grind

theorem Lo.key {k : Kind} {e : Least} (late : Bool) (h : Lo k e) : Lo (add k .propName) (atLeast.key late e) := by
  obtain ⟨h1, h2, h3, h4⟩ := h
  simp only [Lo, seesSuper, seesTarget, add, atLeast] at *; grind

theorem Lo.lateKey {k : Kind} {e : Least} (h : Lo k e) : Lo (add (methodScope k) .propName) (atLeast.key true e) := by
  obtain ⟨h1, h2, h3, h4⟩ := h
  simp only [Lo, seesSuper, seesTarget, add, methodScope, enter, Sym.inherit, atLeast] at *; grind

theorem Lo.method {k : Kind} {e : Least} (h : Lo k e) : Lo (methodScope k) (atLeast.method e) := by
  obtain ⟨h1, h2, h3, h4⟩ := h
  simp only [Lo, seesSuper, seesTarget, add, methodScope, enter, Sym.inherit, atLeast] at *; grind

theorem Lo.erase {k k₁ : Kind} {e : Least} (h : Lo k e) (s : Same (add k .propName) k₁) : Lo (erase k₁ .propName) e :=
  h.same (same_key s)

/-- The scope of a class. -/
def Body (ext : Bool) (k : Kind) : Prop :=
  k .cls = true ∧ k .func = true ∧ k .propName = false ∧ (ext = true → k .clsHasSuper = true)

theorem Body.of (k : Kind) (ext : Bool) : Body ext (classScope k ext) := by
  cases ext <;> simp [Body, classScope, add, enter, Sym.inherit]

theorem Body.same {k k' : Kind} {ext : Bool} (h : Body ext k) (s : Same k k') : Body ext k' := by
  obtain ⟨h1, h2, h3, h4⟩ := h
  obtain ⟨s1, s2⟩ := s
  simp only [view, View.mk.injEq] at s1
  obtain ⟨a1, a2, a3, a4, a5, a6, a7, a8⟩ := s1
  simp only [Body, a1, a5, a6] at *
  grind

theorem Body.init {k : Kind} {ext : Bool} (h : Body ext k) (e : Least) : Lo k (atLeast.init ext e) := by
  obtain ⟨h1, h2, h3, h4⟩ := h
  simp only [Lo, seesSuper, seesTarget, atLeast] at *; grind

theorem Body.key {k : Kind} {ext : Bool} (h : Body ext k) (late : Bool) (e : Least) :
    Lo (add k .propName) (atLeast.clsKey ext late e) := by
  obtain ⟨h1, h2, h3, h4⟩ := h
  simp only [Lo, seesSuper, seesTarget, add, atLeast] at *; grind

theorem Body.lateKey {k : Kind} {ext : Bool} (h : Body ext k) (late : Bool) (e : Least) :
    Lo (add (methodScope k) .propName) (atLeast.clsKey ext late e) := by
  obtain ⟨h1, h2, h3, h4⟩ := h
  simp only [Lo, seesSuper, seesTarget, add, methodScope, enter, Sym.inherit, atLeast] at *; grind

theorem Body.method {k : Kind} {ext : Bool} (h : Body ext k) (e : Least) : Lo (methodScope k) (atLeast.clsMethod ext e) := by
  obtain ⟨h1, h2, h3, h4⟩ := h
  simp only [Lo, seesSuper, seesTarget, add, methodScope, enter, Sym.inherit, atLeast] at *; grind

theorem Body.ctor {k : Kind} {ext : Bool} (h : Body ext k) (e : Least) :
    Lo (add (methodScope k) .ctor) (atLeast.ctor ext e) := by
  obtain ⟨h1, h2, h3, h4⟩ := h
  simp only [Lo, seesSuper, seesTarget, add, methodScope, enter, Sym.inherit, atLeast] at *; grind

mutual
theorem Item.run_least : ∀ (i : Item) {k : Kind} {e : Least}, Lo k e → i.ok atLeast e = true → ∃ k', i.run k = some k'
  | .use u, k, e, hl, h => by
    rw [Item.ok] at h; rw [Item.run]; simp [hl.use h]
  | .scope b, k, e, hl, h => by
    rw [Item.ok] at h
    obtain ⟨_, h₁⟩ := Items.run_least b hl.scope h
    exact ⟨k, by rw [Item.run]; simp [h₁]⟩
  | .fn b, k, e, hl, h => by
    rw [Item.ok] at h
    obtain ⟨_, h₁⟩ := Items.run_least b hl.fn h
    exact ⟨k, by rw [Item.run]; simp [h₁]⟩
  | .arrow ps b, k, e, hl, h => by
    rw [Item.ok, Bool.and_eq_true] at h
    obtain ⟨_, h₁⟩ := Items.run_least ps hl.scope.paren h.1
    obtain ⟨_, h₂⟩ := Items.run_least b hl.arrow h.2
    exact ⟨k, by rw [Item.run]; simp [h₁, h₂]⟩
  | .asyncArrow ps b, k, e, hl, h => by
    rw [Item.ok, Bool.and_eq_true] at h
    obtain ⟨_, h₁⟩ := Items.run_least ps hl.async h.1
    obtain ⟨_, h₂⟩ := Items.run_least b (hl.asyncBody (Items.run_same ps h₁)) h.2
    exact ⟨k, by rw [Item.run]; simp [h₁, h₂]⟩
  | .prop key v, k, e, hl, h => by
    rw [Item.ok, Bool.and_eq_true] at h
    obtain ⟨_, h₁⟩ := Items.run_least key (hl.key false) h.1
    obtain ⟨k₂, h₂⟩ := Items.run_least v (hl.erase (Items.run_same key h₁)) h.2
    exact ⟨k₂, by rw [Item.run]; simp [h₁, h₂]⟩
  | .method late key b, k, e, hl, h => by
    rw [Item.ok, Bool.and_eq_true] at h
    cases late
    · obtain ⟨k₁, h₁⟩ := Items.run_least key (hl.key false) h.1
      obtain ⟨_, h₂⟩ := Items.run_least b (Lo.method (hl.erase (Items.run_same key h₁))) h.2
      exact ⟨erase k₁ .propName, by rw [Item.run]; simp [h₁, h₂]⟩
    · obtain ⟨_, h₁⟩ := Items.run_least key hl.lateKey h.1
      obtain ⟨_, h₂⟩ := Items.run_least b (hl.method.erase (Items.run_same key h₁)) h.2
      exact ⟨k, by rw [Item.run]; simp [h₁, h₂]⟩
  | .cls es, k, e, hl, h => by
    rw [Item.ok] at h
    obtain ⟨_, h₁⟩ := Elems.run_least es (Body.of k false) h
    exact ⟨k, by rw [Item.run]; simp [h₁]⟩
  | .derived hh es, k, e, hl, h => by
    rw [Item.ok, Bool.and_eq_true] at h
    obtain ⟨k₁, h₁⟩ := Items.run_least hh hl.ext h.1
    obtain ⟨_, h₂⟩ := Elems.run_least es (Body.of (erase k₁ .clsExtendSuper) true) h.2
    exact ⟨erase k₁ .clsExtendSuper, by rw [Item.run]; simp [h₁, h₂]⟩
theorem Items.run_least : ∀ (is : Items) {k : Kind} {e : Least}, Lo k e → is.ok atLeast e = true → ∃ k', is.run k = some k'
  | .nil, k, e, hl, h => ⟨k, by rw [Items.run]⟩
  | .cons i is, k, e, hl, h => by
    rw [Items.ok, Bool.and_eq_true] at h
    obtain ⟨k₁, h₁⟩ := Item.run_least i hl h.1
    obtain ⟨k₂, h₂⟩ := Items.run_least is (hl.same (Item.run_same i h₁)) h.2
    exact ⟨k₂, by rw [Items.run]; simp [h₁, h₂]⟩
theorem Elems.run_least : ∀ (es : Elems) {k : Kind} {e : Least} {ext : Bool}, Body ext k → es.ok atLeast ext e = true →
    ∃ k', es.run k = some k'
  | .nil, k, e, ext, hb, h => ⟨k, by rw [Elems.run]⟩
  | .ctor b es, k, e, ext, hb, h => by
    rw [Elems.ok, Bool.and_eq_true] at h
    obtain ⟨_, h₁⟩ := Items.run_least b (hb.ctor e) h.1
    obtain ⟨k₂, h₂⟩ := Elems.run_least es hb h.2
    exact ⟨k₂, by rw [Elems.run]; simp [h₁, h₂]⟩
  | .method late key b es, k, e, ext, hb, h => by
    rw [Elems.ok, Bool.and_eq_true, Bool.and_eq_true] at h
    cases late
    · obtain ⟨k₁, h₁⟩ := Items.run_least key (hb.key false e) h.1.1
      have hs := hb.same (same_key (Items.run_same key h₁))
      obtain ⟨_, h₂⟩ := Items.run_least b (hs.method e) h.1.2
      obtain ⟨k₃, h₃⟩ := Elems.run_least es hs h.2
      exact ⟨k₃, by rw [Elems.run]; simp [h₁, h₂, h₃]⟩
    · obtain ⟨k₁, h₁⟩ := Items.run_least key (hb.lateKey true e) h.1.1
      obtain ⟨_, h₂⟩ := Items.run_least b ((hb.method e).erase (Items.run_same key h₁)) h.1.2
      obtain ⟨k₃, h₃⟩ := Elems.run_least es hb h.2
      exact ⟨k₃, by rw [Elems.run]; simp [h₁, h₂, h₃]⟩
  | .field key v es, k, e, ext, hb, h => by
    rw [Elems.ok, Bool.and_eq_true, Bool.and_eq_true] at h
    obtain ⟨k₁, h₁⟩ := Items.run_least key (hb.key false e) h.1.1
    have hs := hb.same (same_key (Items.run_same key h₁))
    obtain ⟨k₂, h₂⟩ := Items.run_least v (hs.init e) h.1.2
    obtain ⟨k₃, h₃⟩ := Elems.run_least es (hs.same (Items.run_same v h₂)) h.2
    exact ⟨k₃, by rw [Elems.run]; simp [h₁, h₂, h₃]⟩
  | .static b es, k, e, ext, hb, h => by
    rw [Elems.ok, Bool.and_eq_true] at h
    obtain ⟨_, h₁⟩ := Items.run_least b (hb.init e).scope h.1
    obtain ⟨k₂, h₂⟩ := Elems.run_least es hb h.2
    exact ⟨k₂, by rw [Elems.run]; simp [h₁, h₂]⟩
end

/-! ## Comparing rules -/

/-- Knowing `a` under `R` allows no more than knowing `b` under `S`, also further in. -/
structure Sim {σ τ : Type} (R : Rules σ) (S : Rules τ) (rel : σ → τ → Prop) : Prop where
  may : ∀ {a b}, rel a b → ∀ u, R.may a u = true → S.may b u = true
  scope : ∀ {a b}, rel a b → rel (R.scope a) (S.scope b)
  fn : ∀ {a b}, rel a b → rel (R.fn a) (S.fn b)
  arrow : ∀ {a b}, rel a b → rel (R.arrow a) (S.arrow b)
  asyncArrow : ∀ {a b}, rel a b → rel (R.asyncArrow a) (S.asyncArrow b)
  key : ∀ {a b}, rel a b → ∀ l, rel (R.key l a) (S.key l b)
  method : ∀ {a b}, rel a b → rel (R.method a) (S.method b)
  clsKey : ∀ {a b}, rel a b → ∀ x l, rel (R.clsKey x l a) (S.clsKey x l b)
  ctor : ∀ {a b}, rel a b → ∀ x, rel (R.ctor x a) (S.ctor x b)
  clsMethod : ∀ {a b}, rel a b → ∀ x, rel (R.clsMethod x a) (S.clsMethod x b)
  init : ∀ {a b}, rel a b → ∀ x, rel (R.init x a) (S.init x b)

mutual
theorem Item.ok_sim {σ τ} {R : Rules σ} {S : Rules τ} {rel} (hs : Sim R S rel) :
    ∀ (i : Item) {a b}, rel a b → i.ok R a = true → i.ok S b = true
  | .use u, a, b, r, h => by rw [Item.ok] at *; exact hs.may r u h
  | .scope _, a, b, r, h => by rw [Item.ok] at *; exact Items.ok_sim hs _ (hs.scope r) h
  | .fn _, a, b, r, h => by rw [Item.ok] at *; exact Items.ok_sim hs _ (hs.fn r) h
  | .arrow _ _, a, b, r, h => by
    rw [Item.ok, Bool.and_eq_true] at *
    exact ⟨Items.ok_sim hs _ (hs.scope r) h.1, Items.ok_sim hs _ (hs.arrow r) h.2⟩
  | .asyncArrow _ _, a, b, r, h => by
    rw [Item.ok, Bool.and_eq_true] at *
    exact ⟨Items.ok_sim hs _ (hs.asyncArrow r) h.1, Items.ok_sim hs _ (hs.asyncArrow r) h.2⟩
  | .prop _ _, a, b, r, h => by
    rw [Item.ok, Bool.and_eq_true] at *
    exact ⟨Items.ok_sim hs _ (hs.key r _) h.1, Items.ok_sim hs _ r h.2⟩
  | .method _ _ _, a, b, r, h => by
    rw [Item.ok, Bool.and_eq_true] at *
    exact ⟨Items.ok_sim hs _ (hs.key r _) h.1, Items.ok_sim hs _ (hs.method r) h.2⟩
  | .cls _, a, b, r, h => by rw [Item.ok] at *; exact Elems.ok_sim hs _ r h
  | .derived _ _, a, b, r, h => by
    rw [Item.ok, Bool.and_eq_true] at *
    exact ⟨Items.ok_sim hs _ r h.1, Elems.ok_sim hs _ r h.2⟩
theorem Items.ok_sim {σ τ} {R : Rules σ} {S : Rules τ} {rel} (hs : Sim R S rel) :
    ∀ (i : Items) {a b}, rel a b → i.ok R a = true → i.ok S b = true
  | .nil, _, _, _, _ => by rw [Items.ok]
  | .cons _ _, a, b, r, h => by
    rw [Items.ok, Bool.and_eq_true] at *
    exact ⟨Item.ok_sim hs _ r h.1, Items.ok_sim hs _ r h.2⟩
theorem Elems.ok_sim {σ τ} {R : Rules σ} {S : Rules τ} {rel} (hs : Sim R S rel) :
    ∀ (es : Elems) {x : Bool} {a b}, rel a b → es.ok R x a = true → es.ok S x b = true
  | .nil, _, _, _, _, _ => by rw [Elems.ok]
  | .ctor _ _, x, a, b, r, h => by
    rw [Elems.ok, Bool.and_eq_true] at *
    exact ⟨Items.ok_sim hs _ (hs.ctor r x) h.1, Elems.ok_sim hs _ r h.2⟩
  | .method _ _ _ _, x, a, b, r, h => by
    rw [Elems.ok, Bool.and_eq_true, Bool.and_eq_true] at *
    exact ⟨⟨Items.ok_sim hs _ (hs.clsKey r x _) h.1.1, Items.ok_sim hs _ (hs.clsMethod r x) h.1.2⟩, Elems.ok_sim hs _ r h.2⟩
  | .field _ _ _, x, a, b, r, h => by
    rw [Elems.ok, Bool.and_eq_true, Bool.and_eq_true] at *
    exact ⟨⟨Items.ok_sim hs _ (hs.clsKey r x _) h.1.1, Items.ok_sim hs _ (hs.init r x) h.1.2⟩, Elems.ok_sim hs _ r h.2⟩
  | .static _ _, x, a, b, r, h => by
    rw [Elems.ok, Bool.and_eq_true] at *
    exact ⟨Items.ok_sim hs _ (hs.scope (hs.init r x)) h.1, Elems.ok_sim hs _ r h.2⟩
end

theorem least_lang : Sim atLeast lang (fun a b => (a.prop = true → b.prop = true) ∧ (a.call = true → b.call = true) ∧
    (a.target = true → b.target = true)) := by
  constructor <;> intro a b h <;> try intro u
  all_goals simp only [atLeast, lang] at *
  all_goals first | (cases u <;> grind) | grind

/-! ## Programs without the troublesome forms -/

/-- The three kinds of knowledge agree; `c`, `d`, `f` as for `Item.tame`. -/
structure Agree (c d f : Bool) (m : Most) (l : Lang) (w : Least) : Prop where
  prop : m.prop = l.prop ∧ w.prop = l.prop
  call : m.call = l.call ∧ w.call = l.call
  target : m.target = l.target ∧ w.target = l.target
  known : m.derived = d ∧ w.inCls = c ∧ l.target = (c || f)
  inCls : l.prop = true → c = true

theorem Items.none_ok {σ} {R : Rules σ} {e : σ} : ∀ {is : Items}, is.none = true → is.ok R e = true
  | .nil, _ => by rw [Items.ok]
  | .cons _ _, h => by simp [Items.none] at h

theorem Agree.scope {c d f m l w} (h : Agree c d f m l w) : Agree c d f (atMost.scope m) (lang.scope l) (atLeast.scope w) := by
  obtain ⟨h1, h2, h3, h4, h5⟩ := h
  constructor <;> simp only [atMost, lang, atLeast] <;> grind

theorem Agree.fn {d f m l w} (h : Agree false d f m l w) : Agree false d true (atMost.fn m) (lang.fn l) (atLeast.fn w) := by
  obtain ⟨h1, h2, h3, h4, h5⟩ := h
  constructor <;> simp only [atMost, lang, atLeast] <;> grind

theorem Agree.arrow {c d f m l w} (h : Agree c d f m l w) (hf : (c || f) = true) :
    Agree c d f (atMost.arrow m) (lang.arrow l) (atLeast.arrow w) := by
  obtain ⟨h1, h2, h3, h4, h5⟩ := h
  constructor <;> simp only [atMost, lang, atLeast] <;> grind

theorem Agree.method {d f m l w} (h : Agree true d f m l w) :
    Agree true d f (atMost.method m) (lang.method l) (atLeast.method w) := by
  obtain ⟨h1, h2, h3, h4, h5⟩ := h
  constructor <;> simp only [atMost, lang, atLeast] <;> grind

/-- What is around a class of which the flag `d` of the elements is known. -/
def Around (ext d : Bool) (m : Most) : Prop := (m.derived || ext) = d ∧ ext = d

theorem Around.ctor {ext d m} (h : Around ext d m) (l w) :
    Agree true d true (atMost.ctor ext m) (lang.ctor ext l) (atLeast.ctor ext w) := by
  obtain ⟨h1, h2⟩ := h
  constructor <;> simp only [atMost, lang, atLeast] <;> grind

theorem Around.method {ext d m} (h : Around ext d m) (l w) :
    Agree true d true (atMost.clsMethod ext m) (lang.clsMethod ext l) (atLeast.clsMethod ext w) := by
  obtain ⟨h1, h2⟩ := h
  constructor <;> simp only [atMost, lang, atLeast] <;> grind

theorem Around.init {ext d m} (h : Around ext d m) (l w) :
    Agree true d true (atMost.init ext m) (lang.init ext l) (atLeast.init ext w) := by
  obtain ⟨h1, h2⟩ := h
  constructor <;> simp only [atMost, lang, atLeast] <;> grind

mutual
theorem Item.tame_ok : ∀ (i : Item) {c d f m l w}, Agree c d f m l w → i.tame c d f = true →
    i.ok atMost m = i.ok lang l ∧ i.ok atLeast w = i.ok lang l
  | .use u, c, d, f, m, l, w, a, h => by
    rw [Item.tame] at h; rw [Item.ok, Item.ok, Item.ok]
    obtain ⟨h1, h2, h3, h4, h5⟩ := a
    cases u <;> simp_all [atMost, lang, atLeast]
  | .scope b, c, d, f, m, l, w, a, h => by
    rw [Item.tame] at h; rw [Item.ok, Item.ok, Item.ok]
    exact Items.tame_ok b a.scope h
  | .fn b, c, d, f, m, l, w, a, h => by
    rw [Item.tame, Bool.and_eq_true] at h; rw [Item.ok, Item.ok, Item.ok]
    have : c = false := by simpa using h.1
    subst this
    exact Items.tame_ok b a.fn h.2
  | .arrow ps b, c, d, f, m, l, w, a, h => by
    rw [Item.tame, Bool.and_eq_true, Bool.and_eq_true] at h; rw [Item.ok, Item.ok, Item.ok]
    have h1 := Items.tame_ok ps a.scope h.1.2
    have h2 := Items.tame_ok b (a.arrow h.1.1) h.2
    rw [h1.1, h1.2, h2.1, h2.2]; exact ⟨rfl, rfl⟩
  | .asyncArrow _ _, c, d, f, m, l, w, a, h => by simp [Item.tame] at h
  | .prop key v, c, d, f, m, l, w, a, h => by
    rw [Item.tame, Bool.and_eq_true] at h; rw [Item.ok, Item.ok, Item.ok]
    rw [Items.none_ok h.1, Items.none_ok h.1, Items.none_ok h.1]
    simpa using Items.tame_ok v a h.2
  | .method _ key b, c, d, f, m, l, w, a, h => by
    rw [Item.tame, Bool.and_eq_true, Bool.and_eq_true] at h; rw [Item.ok, Item.ok, Item.ok]
    rw [Items.none_ok h.1.2, Items.none_ok h.1.2, Items.none_ok h.1.2]
    have hc := h.1.1
    subst hc
    simpa using Items.tame_ok b a.method h.2
  | .cls es, c, d, f, m, l, w, a, h => by
    rw [Item.tame, Bool.and_eq_true] at h; rw [Item.ok, Item.ok, Item.ok]
    have hd : d = false := by simpa using h.1
    exact Elems.tame_ok es ⟨by simp [a.known.1], hd.symm⟩ l w h.2
  | .derived hh es, c, d, f, m, l, w, a, h => by
    rw [Item.tame, Bool.and_eq_true] at h; rw [Item.ok, Item.ok, Item.ok]
    have h1 := Items.tame_ok hh a h.1
    have h2 := Elems.tame_ok es (ext := true) (m := m) ⟨by simp, rfl⟩ l w h.2
    rw [h1.1, h1.2, h2.1, h2.2]; exact ⟨rfl, rfl⟩
theorem Items.tame_ok : ∀ (is : Items) {c d f m l w}, Agree c d f m l w → is.tame c d f = true →
    is.ok atMost m = is.ok lang l ∧ is.ok atLeast w = is.ok lang l
  | .nil, _, _, _, _, _, _, _, _ => by simp [Items.ok]
  | .cons i is, c, d, f, m, l, w, a, h => by
    rw [Items.tame, Bool.and_eq_true] at h; rw [Items.ok, Items.ok, Items.ok]
    have h1 := Item.tame_ok i a h.1
    have h2 := Items.tame_ok is a h.2
    rw [h1.1, h1.2, h2.1, h2.2]; exact ⟨rfl, rfl⟩
theorem Elems.tame_ok : ∀ (es : Elems) {ext d m}, Around ext d m → ∀ l w, es.tame d = true →
    es.ok atMost ext m = es.ok lang ext l ∧ es.ok atLeast ext w = es.ok lang ext l
  | .nil, _, _, _, _, _, _, _ => by simp [Elems.ok]
  | .ctor b es, ext, d, m, a, l, w, h => by
    rw [Elems.tame, Bool.and_eq_true] at h; rw [Elems.ok, Elems.ok, Elems.ok]
    have h1 := Items.tame_ok b (a.ctor l w) h.1
    have h2 := Elems.tame_ok es a l w h.2
    rw [h1.1, h1.2, h2.1, h2.2]; exact ⟨rfl, rfl⟩
  | .method _ key b es, ext, d, m, a, l, w, h => by
    rw [Elems.tame, Bool.and_eq_true, Bool.and_eq_true] at h; rw [Elems.ok, Elems.ok, Elems.ok]
    have h1 := Items.tame_ok b (a.method l w) h.1.2
    have h2 := Elems.tame_ok es a l w h.2
    rw [Items.none_ok h.1.1, Items.none_ok h.1.1, Items.none_ok h.1.1, h1.1, h1.2, h2.1, h2.2]; exact ⟨rfl, rfl⟩
  | .field key v es, ext, d, m, a, l, w, h => by
    rw [Elems.tame, Bool.and_eq_true, Bool.and_eq_true] at h; rw [Elems.ok, Elems.ok, Elems.ok]
    have h1 := Items.tame_ok v (a.init l w) h.1.2
    have h2 := Elems.tame_ok es a l w h.2
    rw [Items.none_ok h.1.1, Items.none_ok h.1.1, Items.none_ok h.1.1, h1.1, h1.2, h2.1, h2.2]; exact ⟨rfl, rfl⟩
  | .static b es, ext, d, m, a, l, w, h => by
    rw [Elems.tame, Bool.and_eq_true] at h; rw [Elems.ok, Elems.ok, Elems.ok]
    have h1 := Items.tame_ok b (a.init l w).scope h.1
    have h2 := Elems.tame_ok es a l w h.2
    rw [h1.1, h1.2, h2.1, h2.2]; exact ⟨rfl, rfl⟩
end

end Mole.Parser.Super
