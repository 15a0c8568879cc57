import Verif.Parser.ClassBodyLemmas

/-!
# The early errors of class bodies: the theorems
-/
namespace Mole.Parser.Cls

/-- Consecutive declarations of the same private name are a getter and a setter. -/
def Alternating (l : List Elem) : Prop := ∀ i a b, l[i]? = some a → l[i + 1]? = some b → Pair a b

theorem chain_some (l : List Elem) (p : Elem) : Chain (some p) l ↔ Alternating (p :: l) := by
  induction l generalizing p with
  | nil =>
    simp only [Chain, true_iff]
    intro i a b _ hb
    simp at hb
  | cons e es ih =>
    simp only [Chain, ih]
    constructor
    · rintro ⟨h1, h2⟩ i a b ha hb
      cases i with
      | zero => simp at ha hb; subst ha; subst hb; exact h1
      | succ i => exact h2 i a b (by simpa using ha) (by simpa using hb)
    · intro h
      exact ⟨h 0 p e (by simp) (by simp), fun i a b ha hb => h (i + 1) a b (by simpa using ha) (by simpa using hb)⟩

theorem chain_none (l : List Elem) : Chain none l ↔ Alternating l := by
  cases l with
  | nil =>
    simp only [Chain, true_iff]
    intro i a b ha _
    simp at ha
  | cons e es => exact chain_some es e

/-- What a class body may contain, exactly: every element keeps its rules, there is at most one constructor, and the
declarations of a private name alternate between getter and setter. -/
theorem class_body_exact_partial (es : List Elem) (h : ∀ e ∈ es, e.Plain) :
    accepts es = true ↔
      (∀ e ∈ es, ElemOk e) ∧
      (es.filter (fun e => decide e.IsConstructor)).length ≤ 1 ∧
      ∀ t, Alternating (declaring t es) := by
  rw [accepts, classBody_iff]
  have h1 : (∀ e ∈ es, nameOk e = true) ↔ ∀ e ∈ es, ElemOk e :=
    ⟨fun hh e he => (nameOk_iff (h e he)).mp (hh e he), fun hh e he => (nameOk_iff (h e he)).mpr (hh e he)⟩
  have h2 : es.filter countsCtor = es.filter (fun e => decide e.IsConstructor) := by
    apply List.filter_congr
    intro e he
    have := countsCtor_iff (h e he)
    cases hc : countsCtor e <;> simp_all
  simp only [h1, h2, List.lookup, chain_none, Bool.false_eq_true, if_false]

theorem valid_iff (es : List Elem) :
    Valid es ↔ (∀ e ∈ es, ElemOk e) ∧
      (es.filter (fun e => decide e.IsConstructor)).length ≤ 1 ∧
      ∀ t, Alternating (declaring t es) ∧ (declaring t es).length ≤ 2 := by
  constructor
  · intro h
    refine ⟨h.elems, h.ctor, fun t => ?_⟩
    have := h.pvt t
    match hd : declaring t es, this with
    | [], _ => exact ⟨fun i a b ha _ => by simp at ha, by simp⟩
    | [x], _ => exact ⟨fun i a b _ hb => by simp at hb, by simp⟩
    | [x, y], this =>
      simp only [hd] at this
      refine ⟨fun i a b ha hb => ?_, by simp⟩
      cases i with
      | zero => simp at ha hb; subst ha; subst hb; exact this
      | succ i => simp at hb
    | x :: y :: z :: l, this => simp [hd] at this
  · rintro ⟨h1, h2, h3⟩
    refine ⟨h1, h2, fun t => ?_⟩
    have := h3 t
    match hd : declaring t es, this with
    | [], _ => trivial
    | [x], _ => trivial
    | [x, y], this => exact this.1 0 x y (by simp) (by simp)
    | x :: y :: z :: l, this => simp at this

/-- A class body written plainly, and that declares no private name more than twice, is accepted exactly when it has
no early error.  (What is missing: the elements that are not plain and the third declaration, see the violations
below.) -/
theorem class_body_iff_partial (es : List Elem) (h : ∀ e ∈ es, e.Plain)
    (hd : ∀ t, (declaring t es).length ≤ 2) : accepts es = true ↔ Valid es := by
  rw [class_body_exact_partial es h, valid_iff]
  constructor
  · rintro ⟨h1, h2, h3⟩; exact ⟨h1, h2, fun t => ⟨h3 t, hd t⟩⟩
  · rintro ⟨h1, h2, h3⟩; exact ⟨h1, h2, fun t => (h3 t).1⟩

/-- No valid class body written plainly is rejected. -/
theorem valid_accepted_partial (es : List Elem) (h : ∀ e ∈ es, e.Plain) (hv : Valid es) : accepts es = true := by
  rw [class_body_exact_partial es h]
  have := (valid_iff es).mp hv
  exact ⟨this.1, this.2.1, fun t => (this.2.2 t).1⟩

/-- `constructor(){} get #a(){} set #a(v){} static prototype(){}`. -/
example :
    let es : List Elem := [.method false .normal (.ident .constructor false), .method false .getter (.pvt (.other 0) false),
      .method false .setter (.pvt (.other 0) false)]
    (∀ e ∈ es, e.Plain) ∧ accepts es = true ∧
      accepts (es ++ [.method true .normal (.ident .prototype false)]) = false ∧
      accepts (es ++ [.method false .normal (.str .constructor)]) = false ∧
      accepts (es ++ [.field false (.pvt (.other 0) false)]) = false := by
  refine ⟨?_, by decide, by decide, by decide, by decide⟩
  intro e he
  simp only [List.mem_cons, List.not_mem_nil, or_false] at he
  rcases he with rfl | rfl | rfl <;> simp [Elem.Plain, Key.Plain, Txt.Special, Key.propName]

/-! ## Where the parser and the language disagree -/

/-- `get #a(){} set #a(v){} get #a(){}` is accepted. -/
theorem third_accessor_violated :
    ∃ es : List Elem, (∀ e ∈ es, e.Plain) ∧ accepts es = true ∧ ¬Valid es := by
  refine ⟨[.method false .getter (.pvt (.other 0) false), .method false .setter (.pvt (.other 0) false),
    .method false .getter (.pvt (.other 0) false)], ?_, by decide, ?_⟩
  · intro e he
    simp only [List.mem_cons, List.not_mem_nil, or_false] at he
    rcases he with rfl | rfl | rfl <;> simp [Elem.Plain, Key.Plain, Txt.Special, Key.propName]
  · intro h
    simpa [declaring, Elem.privateName] using h.pvt (.other 0)

/-- `#constructor(){}` is accepted, and so is a second constructor written with an escape. -/
theorem accepted_ctor_violated :
    (accepts [.method false .normal (.pvt .constructor false)] = true ∧
      ¬Valid [.method false .normal (.pvt .constructor false)]) ∧
    (accepts [.method false .normal (.ident .constructor true), .method false .normal (.ident .constructor false)] = true ∧
      ¬Valid [.method false .normal (.ident .constructor true), .method false .normal (.ident .constructor false)]) := by
  refine ⟨⟨by decide, fun h => ?_⟩, ⟨by decide, fun h => ?_⟩⟩
  · exact (h.elems _ (List.mem_singleton.mpr rfl)).1 rfl
  · have := h.ctor
    revert this
    decide

theorem valid_of (es : List Elem) (h1 : ∀ e ∈ es, ElemOk e)
    (h2 : (es.filter (fun e => decide e.IsConstructor)).length ≤ 1) (h3 : ∀ e ∈ es, e.privateName = none) : Valid es := by
  refine ⟨h1, h2, fun t => ?_⟩
  have : declaring t es = [] := by
    simp only [declaring, List.filter_eq_nil_iff]
    intro e he
    simp [h3 e he]
  rw [this]
  trivial

/-- Valid and rejected: two static methods called `constructor`, a static getter called `constructor`, a computed
`['constructor']` beside the constructor, a field `['constructor']`, a static method `['prototype']`. -/
theorem rejected_violated :
    ∀ es ∈ ([[.method true .normal (.ident .constructor false), .method false .normal (.ident .constructor false)],
      [.method true .getter (.ident .constructor false)],
      [.method true .async (.ident .constructor false)],
      [.method false .normal (.computed (.str .constructor)), .method false .normal (.ident .constructor false)],
      [.method false .normal (.computed (.ref .constructor false)), .method false .normal (.ident .constructor false)],
      [.field false (.computed (.str .constructor))],
      [.method true .normal (.computed (.str .prototype))]] : List (List Elem)),
    accepts es = false ∧ Valid es := by
  intro es hes
  simp only [List.mem_cons, List.not_mem_nil, or_false] at hes
  rcases hes with rfl | rfl | rfl | rfl | rfl | rfl | rfl <;>
    refine ⟨by decide, valid_of _ ?_ (by decide) (by simp [Elem.privateName])⟩ <;>
    simp [ElemOk, Elem.privateName, Key.propName]

/-- `static #prototype(){}` is rejected and valid. -/
theorem private_prototype_violated :
    accepts [.method true .normal (.pvt .prototype false)] = false ∧ Valid [.method true .normal (.pvt .prototype false)] := by
  refine ⟨by decide, ⟨by simp [ElemOk, Elem.privateName, Key.propName], by decide, fun t => ?_⟩⟩
  cases t <;> simp [declaring, Elem.privateName]

/-! ## Object literals -/

/-- Methods of object literals have no such rules.  They are accepted but for accessors, generators and async methods
called `constructor`. -/
theorem object_method_partial (kind : Kind) (key : Key) :
    methodName false false kind key = true ↔
      kind = .normal ∨ ¬((∃ t, key = .ident t false ∧ t = .constructor) ∨ key = .str .constructor ∨
        key = .pvt .constructor false) := by
  cases key with
  | ident t esc => cases t <;> cases esc <;> cases kind <;> simp [methodName, isName, Key.isComputed]
  | str t => cases t <;> cases kind <;> simp [methodName, isName, Key.isComputed]
  | num => simp [methodName, isName]
  | pvt t esc => cases t <;> cases esc <;> cases kind <;> simp [methodName, isName, Key.isComputed]
  | computed e => simp [methodName, Key.isComputed]

/-- `({ get constructor() {} })` is rejected. -/
theorem object_method_violated : methodName false false .getter (.ident .constructor false) = false := by decide

/-! ## How an element begins -/

/-- An element is taken for what the grammar says, if `get` and `set` are not quoted or escaped, and are not followed
by `*` on the same line. -/
theorem shape_iff_partial (w : Word) (q e : Bool) (a : After) (nl : Bool)
    (h1 : w ≠ .other → a = .key → q = false ∧ e = false) (h2 : w ≠ .other → a = .star → nl = true) :
    shape w q e a nl = Grammar w q e a nl := by
  cases w <;> cases a <;> cases nl <;> simp_all [shape, isField, Grammar]

example : shape .get false false .key true = some .getter ∧ shape .get false false .ends false = some .field ∧
    shape .other false false .key false = none := by decide

/-- `'get' x(){}` is taken for an accessor, `get x(){}` too when `get` is written with an escape, and `get *x(){}` for a field and a generator. -/
theorem shape_violated :
    (shape .get true false .key false = some .getter ∧ Grammar .get true false .key false = none) ∧
    (shape .get false true .key false = some .getter ∧ Grammar .get false true .key false = none) ∧
    (shape .get false false .star false = some .field ∧ Grammar .get false false .star false = none) := by decide

end Mole.Parser.Cls
