import Verif.Parser.SymProps
/-!
# C26, C28: exports and imports of a module

ecma/parser/parser.go: `namesInNode` 262-282, `checkExp` 285-333, `addExp` 629-647, the end of `importDec`
918-932.
-/
namespace Mole.Parser.Sym

/-- The declaration or expression of an export, as far as `namesInNode` looks: variables with the names of their
patterns, functions and classes with an optional name (and whether a function has a body), an expression
statement around another, anything else. -/
inductive Dec where
  | vars (names : List Nat)
  | fn (id : Option Nat) (body : Bool)
  | cls (id : Option Nat)
  | stmt (d : Dec)
  | other

/-- parser.go:262-282 `namesInNode`. -/
def namesInNode : Dec → List Nat
  | .vars ns => ns
  | .fn (some i) _ | .cls (some i) => [i]
  | .stmt d => namesInNode d
  | _ => []

/-- `ExportSpec`; `id` is nil for `* as local`. -/
structure Spc where
  loc : Nat
  id : Option Nat
  ts : Bool := false

/-- `ExportDec`; `def` is `export default`, `src` a `from` clause. -/
structure Exp where
  deflt : Bool := false
  dec : Option Dec := none
  specs : List Spc := []
  src : Bool := false

/-- parser.go:290-303: the names an export is counted under; `dflt` is the name `default`. -/
def subnames (dflt : Nat) (e : Exp) : List Nat :=
  if e.deflt then [dflt]
  else match e.dec with
    | some d => namesInNode d
    | none => e.specs.filterMap fun s => if s.ts then none else s.id

/-- parser.go:304-312: the names go into a map one by one; a name already there is an error. -/
def addNames (seen : List Nat) : List Nat → Option (List Nat)
  | [] => some seen
  | n :: ns => if n ∈ seen then none else addNames (n :: seen) ns

/-- parser.go:286-313, the first loop. -/
def checkDup (dflt : Nat) (seen : List Nat) : List Exp → Option (List Nat)
  | [] => some seen
  | e :: es => match addNames seen (subnames dflt e) with
    | none => none
    | some seen' => checkDup dflt seen' es

/-- parser.go:319-331, the second loop: `HasName` is `BindingOf` from the current scope. -/
def checkDef (chain : List Scope) : List Exp → Bool
  | [] => true
  | e :: es => (e.src || e.specs.all fun s => (bindingOf s.loc chain).isSome) && checkDef chain es

/-- Why a module is rejected. -/
inductive ExpErr where
  | dup | undefined
  deriving DecidableEq, Repr

/-- parser.go:285-333 `checkExp`. -/
def checkExp (dflt : Nat) (chain : List Scope) (es : List Exp) : Except ExpErr Unit :=
  match checkDup dflt [] es with
  | none => .error .dup
  | some _ => if checkDef chain es then .ok () else .error .undefined

/-- parser.go:629-647 `addExp` in the global scope: an overload signature is not recorded. -/
def addExp (es : List Exp) (e : Exp) : List Exp :=
  match e.dec with
  | some (.fn _ false) => es
  | _ => es ++ [e]

/-- parser.go:918-932: the names of an import are declared in the program's scope, and `if
p.addLocalBinding(…); err != nil` looks at another error. -/
def importNames (s : Scope) : List (Nat × Nat) → Scope
  | [] => s
  | (x, d) :: xs =>
    match addLocal [s] { dec := d, bind := .const, typ := { imp := true } } x true with
    | .ok (s' :: _) => importNames s' xs
    | _ => importNames s xs

namespace Spec

/-- ECMA-262 16.2.3.2 `ExportedNames`: `* as n` exports n; type-only exports do not count. -/
def declared : Dec → List Nat
  | .vars ns => ns
  | .fn i _ => i.toList
  | .cls i => i.toList
  | .stmt d => declared d
  | .other => []

def exported (dflt : Nat) (e : Exp) : List Nat :=
  if e.deflt then [dflt]
  else match e.dec with
    | some d => declared d
    | none => (e.specs.filter fun s => !s.ts).map fun s => s.id.getD s.loc

/-- The names a module exports, in order. -/
def exports (dflt : Nat) (es : List Exp) : List Nat := es.flatMap (exported dflt)

/-- The local names it exports: those of specifiers without `from`. -/
def locals (es : List Exp) : List Nat := es.flatMap fun e => if e.src then [] else e.specs.map Spc.loc

end Spec
open Spec

theorem addNames_eq (seen ns : List Nat) :
    addNames seen ns = if ns.Nodup ∧ ∀ n ∈ ns, n ∉ seen then some (ns.reverse ++ seen) else none := by
  induction ns generalizing seen with
  | nil => simp [addNames]
  | cons n ns ih =>
    rw [addNames]
    split
    · rename_i h
      rw [if_neg]
      intro ⟨_, h2⟩
      exact h2 n (List.mem_cons_self ..) h
    · rename_i h
      rw [ih]
      have key : (ns.Nodup ∧ ∀ m ∈ ns, m ∉ n :: seen) ↔ ((n :: ns).Nodup ∧ ∀ m ∈ n :: ns, m ∉ seen) := by
        rw [List.nodup_cons]
        constructor
        · rintro ⟨h1, h2⟩
          refine ⟨⟨fun hn => h2 n hn (List.mem_cons_self ..), h1⟩, fun m hm => ?_⟩
          rcases List.mem_cons.1 hm with rfl | hm
          · exact h
          · exact fun hs => h2 m hm (List.mem_cons_of_mem _ hs)
        · rintro ⟨⟨h0, h1⟩, h2⟩
          refine ⟨h1, fun m hm hs => ?_⟩
          rcases List.mem_cons.1 hs with rfl | hs
          · exact h0 hm
          · exact h2 m (List.mem_cons_of_mem _ hm) hs
      by_cases hc : ns.Nodup ∧ ∀ m ∈ ns, m ∉ n :: seen
      · rw [if_pos hc, if_pos (key.1 hc)]; simp
      · rw [if_neg hc, if_neg (fun h => hc (key.2 h))]

theorem addNames_append (seen a b : List Nat) :
    addNames seen (a ++ b) = (addNames seen a).bind fun s => addNames s b := by
  induction a generalizing seen with
  | nil => rfl
  | cons n a ih =>
    simp only [List.cons_append, addNames]
    split
    · rfl
    · exact ih _

theorem checkDup_eq (dflt : Nat) (seen : List Nat) (es : List Exp) :
    checkDup dflt seen es = addNames seen (es.flatMap (subnames dflt)) := by
  induction es generalizing seen with
  | nil => rfl
  | cons e es ih =>
    rw [checkDup, List.flatMap_cons, addNames_append]
    cases addNames seen (subnames dflt e) with
    | none => rfl
    | some s => exact ih s

theorem namesInNode_eq (d : Dec) : namesInNode d = declared d := by
  induction d with
  | fn i b => cases i <;> rfl
  | cls i => cases i <;> rfl
  | stmt d ih => exact ih
  | vars => rfl
  | other => rfl

/-- No export is `* as name`. -/
def NoStarAs (es : List Exp) : Prop := ∀ e ∈ es, ∀ s ∈ e.specs, s.id.isSome = true

theorem subnames_eq (dflt : Nat) (e : Exp) (h : ∀ s ∈ e.specs, s.id.isSome = true) :
    subnames dflt e = exported dflt e := by
  unfold subnames exported
  split
  · rfl
  · cases e.dec with
    | some d => exact namesInNode_eq d
    | none =>
      simp only
      generalize e.specs = ss at h
      induction ss with
      | nil => rfl
      | cons s ss ih =>
        have h1 := h s (List.mem_cons_self ..)
        have h2 := ih fun q hq => h q (List.mem_cons_of_mem _ hq)
        simp only [List.filterMap_cons, List.filter_cons]
        cases hs : s.ts
        · simp only [Bool.false_eq_true, if_false, Bool.not_false, if_true, List.map_cons]
          cases hi : s.id with
          | none => rw [hi] at h1; cases h1
          | some i => simp [h2]
        · simpa using h2

theorem checkDef_iff (chain : List Scope) (es : List Exp) :
    checkDef chain es = true ↔ ∀ n ∈ locals es, (bindingOf n chain).isSome = true := by
  induction es with
  | nil => simp [checkDef, locals]
  | cons e es ih =>
    rw [checkDef, Bool.and_eq_true, ih]
    simp only [locals, List.flatMap_cons, List.mem_append]
    cases he : e.src
    · simp only [Bool.false_or, List.all_eq_true, Bool.false_eq_true, if_false, List.mem_map]
      constructor
      · rintro ⟨h1, h2⟩ n (⟨s, hs, rfl⟩ | hn)
        · exact h1 s hs
        · exact h2 n hn
      · intro h
        exact ⟨fun s hs => h _ (.inl ⟨s, hs, rfl⟩), fun n hn => h n (.inr hn)⟩
    · simp

theorem bindingOf_isSome (n : Nat) (c : List Scope) :
    (bindingOf n c).isSome = true ↔ ∃ s ∈ c, (s.refs n).isSome = true := by
  induction c with
  | nil => simp [bindingOf]
  | cons s up ih =>
    rw [bindingOf]
    cases hr : s.refs n with
    | some r => simp [hr]
    | none => simp [hr, ih]

/-- **C26** (partial: no `* as` exports, which are not counted, see `star_as_twice_violated`).  A module is
accepted exactly if its exported names are all different and every local name it exports is declared in its
scope; a name exported twice is reported before an undeclared one. -/
theorem checkExp_iff_partial (dflt : Nat) (chain : List Scope) (es : List Exp) (h : NoStarAs es) :
    (checkExp dflt chain es = .ok () ↔
      (exports dflt es).Nodup ∧ ∀ n ∈ locals es, ∃ s ∈ chain, (s.refs n).isSome = true) ∧
    (checkExp dflt chain es = .error .dup ↔ ¬ (exports dflt es).Nodup) := by
  have hx : es.flatMap (subnames dflt) = exports dflt es := by
    unfold exports
    clear chain
    induction es with
    | nil => rfl
    | cons e es ih =>
      rw [List.flatMap_cons, List.flatMap_cons, subnames_eq dflt e (h e (List.mem_cons_self ..)),
        ih fun q hq => h q (List.mem_cons_of_mem _ hq)]
  have hl : (∀ n ∈ locals es, ∃ s ∈ chain, (s.refs n).isSome = true) ↔ checkDef chain es = true := by
    rw [checkDef_iff]
    exact ⟨fun h n hn => (bindingOf_isSome n chain).2 (h n hn), fun h n hn => (bindingOf_isSome n chain).1 (h n hn)⟩
  rw [hl]
  unfold checkExp
  rw [checkDup_eq, hx, addNames_eq]
  by_cases hd : (exports dflt es).Nodup
  · rw [if_pos ⟨hd, fun _ _ => List.not_mem_nil⟩]
    simp only
    cases hc : checkDef chain es <;> simp [hd]
  · rw [if_neg fun h => hd h.1]
    simp [hd]

/-- An overload signature: a function without a body. -/
def Overload (e : Exp) : Prop := ∃ i, e.dec = some (.fn i false)

instance (e : Exp) : Decidable (Overload e) :=
  match h : e.dec with
  | some (.fn i false) => .isTrue ⟨i, h⟩
  | some (.fn i true) => .isFalse (by rintro ⟨j, hj⟩; rw [h] at hj; cases hj)
  | some (.vars _) | some (.cls _) | some (.stmt _) | some .other | none =>
    .isFalse (by rintro ⟨j, hj⟩; rw [h] at hj; cases hj)

theorem addExp_eq (es : List Exp) (e : Exp) : addExp es e = if Overload e then es else es ++ [e] := by
  unfold addExp
  split
  · rename_i i h; rw [if_pos ⟨i, h⟩]
  · rename_i h; rw [if_neg]; rintro ⟨i, hi⟩; exact h i hi

theorem addExps_eq (a es : List Exp) :
    es.foldl addExp a = a ++ es.filter fun e => ¬ Overload e := by
  induction es generalizing a with
  | nil => simp
  | cons e es ih =>
    rw [List.foldl_cons, ih, addExp_eq]
    by_cases h : Overload e
    · simp [h]
    · simp [h]

/-- **C26** for a module as it is read, one export after the other (partial as above): the overload signatures
do not count, every other export does. -/
theorem module_exports_partial (dflt : Nat) (chain : List Scope) (es : List Exp)
    (h : NoStarAs es) :
    checkExp dflt chain (es.foldl addExp []) = .ok () ↔
      (exports dflt (es.filter fun e => ¬ Overload e)).Nodup ∧
      ∀ n ∈ locals (es.filter fun e => ¬ Overload e), ∃ s ∈ chain, (s.refs n).isSome = true := by
  rw [addExps_eq, List.nil_append]
  exact (checkExp_iff_partial dflt chain _ fun e he => h e (List.mem_filter.1 he).1).1

/-- `export function f(): void; export function f() {}` is accepted, with two bodies it is not. -/
example : checkExp 0 [] ([{ dec := some (.fn (some 4) false) }, { dec := some (.fn (some 4) true) }].foldl addExp [])
      = .ok () ∧
    checkExp 0 [] ([{ dec := some (.fn (some 4) true) }, { dec := some (.fn (some 4) true) }].foldl addExp [])
      = .error .dup := ⟨rfl, rfl⟩

/-- Two variables and a renamed one, in a scope that has them; and a clash of two of them. -/
example (s : Scope) (h5 : (s.refs 5).isSome = true) :
    NoStarAs [{ dec := some (.vars [1, 2]) }, { specs := [{ loc := 5, id := some 6 }] }] ∧
    checkExp 0 [s] [{ dec := some (.vars [1, 2]) }, { specs := [{ loc := 5, id := some 6 }] }] = .ok () ∧
    checkExp 0 [s] [{ dec := some (.vars [1, 2]) }, { specs := [{ loc := 5, id := some 2 }] }] = .error .dup := by
  refine ⟨by intro e he s hs; simp at he; rcases he with rfl | rfl <;> simp at hs; subst hs; rfl, ?_, rfl⟩
  have h : (bindingOf 5 [s]).isSome = true := by
    rw [bindingOf_isSome]; exact ⟨s, List.mem_cons_self .., h5⟩
  simp [checkExp, checkDup, addNames, subnames, namesInNode, checkDef, h]

/-- **C26 is violated**: `export * as a from "x"; export * as a from "y"` is accepted. -/
theorem star_as_twice_violated :
    let es : List Exp := [{ specs := [{ loc := 1, id := none }], src := true },
      { specs := [{ loc := 1, id := none }], src := true }]
    ¬ (exports 0 es).Nodup ∧ checkExp 0 [] es = .ok () := by
  refine ⟨?_, rfl⟩
  simp [exports, exported]

/-! ## C28 -/

/-- **C28 is violated**: `import a from "x"; import a from "y"`, and also `let a; import a from "x"`, is
accepted; the second declaration is dropped. -/
theorem import_twice_violated (s : Scope) (h0 : s.kind .catch_ = false) (hn : s.refs 7 = none) :
    ((importNames s [(7, 1), (7, 2)]).refs 7).map Ref.dec = some 1 := by
  have h1 : addLocal [s] { dec := 1, bind := .const, typ := { imp := true } } 7 true =
      .ok [{ s with refs := put s.refs 7 { dec := 1, bind := .const, typ := { imp := true }, scope := some s.id } }] := by
    simp [addLocal, h0, addCur, hn, curClash, putCur]
  have h2 : addLocal [{ s with refs := put s.refs 7 { dec := 1, bind := .const, typ := { imp := true }, scope := some s.id } }]
      { dec := 2, bind := .const, typ := { imp := true } } 7 true = .error .err := by
    simp [addLocal, h0, addCur, put, curClash, checkRefDup, isCallableClass, isClsAndItf, Typ.isVal, Typ.isPureTyp]
  simp only [importNames, h1, h2]
  simp [put]

/-- A declaration of a name: `let`, `const` or `var`. -/
def plainDecl (b : Bind) (d : Nat) : Ref := { dec := d, bind := b }

/-- What the scope of the program holds for an imported name: the import itself. -/
def Imported (s : Scope) (x : Nat) : Prop :=
  s.kind .catch_ = false ∧ s.isFn = true ∧
  ∃ d, s.refs x = some { dec := d, bind := .const, typ := { imp := true }, scope := some s.id }

/-- **C28** (partial: redeclaring by another import is not rejected, see `import_twice_violated`).
A name that was free is bound by its import; declaring it afterwards at the top level by
`let`, `const` or `var` is rejected. -/
theorem import_redeclared_partial (s : Scope) (hc : s.kind .catch_ = false) (hf : s.isFn = true) (x d : Nat)
    (hn : s.refs x = none) :
    Imported (importNames s [(x, d)]) x ∧
    ∀ b e, b = .let ∨ b = .const ∨ b = .var →
      addLocal [importNames s [(x, d)]] (plainDecl b e) x true = .error .err := by
  have h1 : importNames s [(x, d)] =
      { s with refs := put s.refs x { dec := d, bind := .const, typ := { imp := true }, scope := some s.id } } := by
    simp [importNames, addLocal, hc, addCur, hn, curClash, putCur]
  rw [h1]
  refine ⟨⟨hc, hf, d, by simp [put]⟩, ?_⟩
  intro b e hb
  have hf' : ∀ r, Scope.isFn { s with refs := r } = true := fun r => hf
  rcases hb with rfl | rfl | rfl <;>
  simp [addLocal, plainDecl, hc, addCur, put, curClash, checkRefDup, isCallableClass, isClsAndItf, Typ.isVal,
    Typ.isPureTyp, upperFn, hf', fnClash]

/-- The program's scope is such a scope. -/
example : ∃ s, Tab.new.chain = [s] ∧ s.kind .catch_ = false ∧ s.isFn = true ∧ s.refs 3 = none :=
  ⟨_, rfl, rfl, rfl, rfl⟩

end Mole.Parser.Sym
