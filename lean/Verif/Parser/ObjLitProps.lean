import Verif.Parser.ObjLitLemmas
import Verif.Parser.PatternProps
/-!
# C86: Object literals and patterns are told apart

`readAt C e s` is what the parser makes of the expression `e`, given as it is written, at the site `s`: a tree, or why it is
refused (`dflt`: for `{a = 1}`; `proto`: for a second `__proto__:`; `other`: for something else).  `Fine false e` says
that every object literal in `e` which is no pattern is an object literal (`Verif.Parser.ObjLitSpec`).
-/
namespace Mole.Parser.Pat

theorem take_other {C : Cfg} {N chk : Bool} {check : Option Bool} {e : E} (h : Fine false e) : Other (take C N chk check e) := by
  have h1 := readE_good C e false N chk h
  unfold take
  split
  · rename_i e' he
    split
    · trivial
    · rename_i si
      have h2 := scan_other C N si e' (h1.2 e' he rfl)
      split
      · trivial
      · rename_i x hx; rw [hx] at h2; exact other_err h2
  · rename_i x hx; rw [hx] at h1; exact other_err h1.1

theorem other_iff {α : Type} {r : Except Why α} (h : Other r) : r ≠ .error .dflt ∧ r ≠ .error .proto := by
  constructor <;> (intro e; rw [e] at h; exact h)

/-- **C86** (partial: not before the `of` or `in` of a loop, where it does not hold).  An expression in which each object literal
is one is not refused for a default or a second `__proto__`. -/
theorem fine_kept_partial (C : Cfg) (e : E) (s : Site) (hs : s ≠ .forTarget) (h : Fine false e) :
    readAt C e s ≠ .error .dflt ∧ readAt C e s ≠ .error .proto := by
  apply other_iff
  cases s <;> first | exact (hs rfl).elim | (simp only [readAt]; exact take_other h)

mutual
theorem scan_notIn (C : Cfg) (si : Bool) : ∀ e, scan C true si e ≠ .error .dflt
  | .obj ps => by rw [scan]; exact scanProps_notIn C ps false
  | .paren e => by rw [scan]; exact scan_notIn C si e
  | .arr es => by rw [scan]; exact scanElems_notIn C si es
  | .assign plain l r => by rw [scan]; split <;> simp
  | .name _ | .prim _ | .member _ | .fn _ | .other _ | .yield _ | .await _ | .un _ | .bin _ _
  | .arrPat _ | .objPat _ | .assignPat _ _ => by simp [scan]
theorem scanElems_notIn (C : Cfg) (si : Bool) : ∀ es, scanElems C true si es ≠ .error .dflt
  | .nil => by simp [scanElems]
  | .hole es | .spread _ _ es | .rest _ es => by rw [scanElems]; exact scanElems_notIn C si es
  | .cons e es => by
    rw [scanElems]
    have := scan_notIn C si e
    split
    · exact scanElems_notIn C si es
    · rename_i x hx; rw [hx] at this; exact this
theorem scanProps_notIn (C : Cfg) : ∀ ps seen, scanProps C true seen ps ≠ .error .dflt
  | .nil, seen => by simp [scanProps]
  | .short _ ps, seen | .spread _ _ ps, seen | .rest _ ps, seen | .initPat _ _ ps, seen => by
    rw [scanProps]; exact scanProps_notIn C ps seen
  | .kv k v ps, seen => by
    rw [scanProps]
    have := scan_notIn C false v
    repeat' split
    · simp
    · exact scanProps_notIn C ps true
    · exact scanProps_notIn C ps seen
    · rename_i x hx; rw [hx] at this; exact this
  | .bare k ps, seen => by
    rw [scanProps]
    repeat' split
    · simp
    · exact scanProps_notIn C ps true
    · exact scanProps_notIn C ps seen
  | .init _ v ps, seen | .initKey _ v ps, seen => by
    rw [scanProps]
    have := scan_notIn C false v
    simp only [if_true]
    split
    · exact scanProps_notIn C ps seen
    · rename_i x hx; rw [hx] at this; exact this
end

/-- **C86** (partial: a second `__proto__` is refused there, `target_violated`).  Before the `of` or `in` of a loop, a pattern is
not refused for a default. -/
theorem target_kept_partial (C : Cfg) (e : E) (h : Fine true e) : readAt C e .forTarget ≠ .error .dflt := by
  have h1 := readE_good C e true true true h
  have ht : take C true true (some true) e ≠ .error .dflt := by
    unfold take
    split
    · rename_i e' he
      have := scan_notIn C true e'
      simp only
      split
      · simp
      · rename_i x hx; rw [hx] at this; intro h; cases h; exact this rfl
    · rename_i x hx; rw [hx] at h1; intro h; cases h; exact h1.1
  simp only [readAt]
  split
  · split
    · split
      · unfold lift; split <;> simp
      · unfold lift; split <;> simp
      · simp
    · simp
  · rename_i x hx; rw [hx] at ht; intro h; cases h; exact ht rfl

/-- **C86** (partial: not at the sites where nothing is checked, and not for what is wrong where the check does not look, `Open`;
that these are needed is shown below).  In an expression that is accepted each object literal is one. -/
theorem accepted_fine_partial (C : Cfg) (e r : E) (s : Site) (hs : s = .stmt ∨ s = .arg ∨ s = .dflt)
    (h : readAt C e s = .ok r) (ho : Open false false e) : Fine false e := by
  have key : ∀ chk si, take C false chk (some si) e = .ok r → Fine false e := by
    intro chk si h
    unfold take at h
    split at h
    · rename_i e' he
      split at h
      · rename_i hn; cases hn
      · rename_i si' hn
        split at h
        · rename_i u hu
          exact readE_fine C e false false chk e' he ho (fun _ => scan_clean C si' e' (scan_ok hu)) nofun
        · cases h
    · cases h
  rcases hs with rfl | rfl | rfl <;> (simp only [readAt] at h; exact key _ _ h)

/-! ## Examples and violations -/

/-- `{a = 1}`. -/
def bad : E := .obj (.init 1 (.prim 1) .nil)

/-- `{__proto__: a, __proto__: b}`. -/
def twice : E := .obj (.kv 0 (.name 1) (.kv 0 (.name 2) .nil))

/-- `[{a = 1}, b] = [{c: 1, __proto__: d}]` is fine, and accepted; so are `({x: [{a = 1}]}) = …` without the parentheses, and
`{__proto__: a, __proto__: b} = c` in them. -/
example : Fine false (.assign true (.arr (.cons bad (.cons (.name 2) .nil)))
      (.arr (one (.obj (.kv 3 (.prim 1) (.kv 0 (.name 4) .nil)))))) ∧
    (∃ r, readAt cfg (.assign true (.arr (.cons bad (.cons (.name 2) .nil)))
      (.arr (one (.obj (.kv 3 (.prim 1) (.kv 0 (.name 4) .nil)))))) .stmt = .ok r) ∧
    Open false false (.paren (.assign true twice (.name 3))) ∧
    ∃ r, readAt cfg (.paren (.assign true twice (.name 3))) .stmt = .ok r := by
  refine ⟨?_, ⟨_, rfl⟩, ?_, ⟨_, rfl⟩⟩
  · simp [Fine, FineElems, FineProps, bad, one, protos]
  · simp [Open, OpenProps, twice]

/-- `({a = 1})`, `({__proto__: a, __proto__: b})`, `x = [{a = 1}]`, `f({a = 1})` are refused, and so `Open` expressions. -/
example : readAt cfg (.paren bad) .stmt = .error .dflt ∧ readAt cfg (.paren twice) .stmt = .error .proto ∧
    readAt cfg (.assign true (.name 3) (.arr (one bad))) .comma = .error .dflt ∧ readAt cfg bad .arg = .error .dflt ∧
    Open false false (.paren bad) ∧ Open false false (.paren twice) ∧ Open false false bad ∧
    Open false false (.assign true (.name 3) (.arr (one bad))) := by
  refine ⟨rfl, rfl, rfl, rfl, ?_, ?_, ?_, ?_⟩ <;> simp [Open, OpenElems, OpenProps, bad, twice, one, Fine]

/-- `for ({a = 1} of x)` is accepted, a pattern being read. -/
example : Fine true bad ∧ readAt cfg bad .forTarget = .ok (.objPat (.initPat (.name 1) (.prim 1) .nil)) :=
  ⟨by simp [Fine, FineProps, bad], rfl⟩

theorem bad_wrong : ¬Fine false bad ∧ ¬Fine false twice :=
  ⟨by simp [Fine, FineProps, bad], by simp [Fine, FineProps, twice, protos]⟩

/-- **C86, violated.** Nothing is checked of an initializer, nor behind a comma: `var x = {a = 1}`,
`var x = {__proto__: a, __proto__: b}` and `x, {a = 1}` are accepted. -/
theorem init_violated : ∃ r1 r2 r3, readAt cfg bad .init = .ok r1 ∧ readAt cfg twice .init = .ok r2 ∧
    readAt cfg bad .comma = .ok r3 ∧ ¬Fine false bad ∧ ¬Fine false twice :=
  ⟨_, _, _, rfl, rfl, rfl, bad_wrong⟩

/-- **C86, violated.** Nothing is checked of an operand: the statements `!{a = 1}`, `a + {__proto__: a, __proto__: b}` and
`[...{a = 1}]` are accepted. -/
theorem operand_violated : ∃ r1 r2 r3, readAt cfg (.un bad) .stmt = .ok r1 ∧ readAt cfg (.bin (.name 1) twice) .stmt = .ok r2 ∧
    readAt cfg (.arr (.spread false bad .nil)) .stmt = .ok r3 ∧
    ¬Fine false (.un bad) ∧ ¬Fine false (.bin (.name 1) twice) ∧ ¬Fine false (.arr (.spread false bad .nil)) := by
  refine ⟨_, _, _, rfl, rfl, rfl, ?_, ?_, ?_⟩
  · exact bad_wrong.1
  · exact fun h => bad_wrong.2 h.2
  · exact fun h => bad_wrong.1 h.1

/-- **C86, violated.** In parentheses the values of properties have been made patterns before they are checked, so `({x: {a = 1}})`
and `({x: {__proto__: a, __proto__: b}})` are accepted; without parentheses, as an argument, they are refused. -/
theorem nested_violated :
    (∃ r, readAt cfg (.paren (.obj (.kv 3 bad .nil))) .stmt = .ok r) ∧ (∃ r, readAt cfg (.paren (.obj (.kv 3 twice .nil))) .stmt = .ok r) ∧
    readAt cfg (.obj (.kv 3 bad .nil)) .arg = .error .dflt ∧ readAt cfg (.obj (.kv 3 twice .nil)) .arg = .error .proto ∧
    ¬Fine false (.paren (.obj (.kv 3 bad .nil))) ∧ ¬Fine false (.paren (.obj (.kv 3 twice .nil))) :=
  ⟨⟨_, rfl⟩, ⟨_, rfl⟩, rfl, rfl, fun h => bad_wrong.1 h.1.1, fun h => bad_wrong.2 h.1.1⟩

/-- **C86, violated.** The default of a property of a pattern is not checked: `({a = {a = 1}} = b)` is accepted. -/
theorem default_violated :
    (∃ r, readAt cfg (.paren (.assign true (.obj (.init 1 bad .nil)) (.name 2))) .stmt = .ok r) ∧
    ¬Fine false (.paren (.assign true (.obj (.init 1 bad .nil)) (.name 2))) :=
  ⟨⟨_, rfl⟩, fun h => bad_wrong.1 h.1.1.2.1⟩

/-- **C86, violated.** A key that is no name is taken with a default in a pattern, `({[a] = 1} = b)`, and alone in a literal, `({5})`. -/
theorem key_violated :
    (∃ r, readAt cfg (.paren (.assign true (.obj (.initKey (.name 1) (.prim 1) .nil)) (.name 2))) .stmt = .ok r) ∧
    ¬Fine false (.paren (.assign true (.obj (.initKey (.name 1) (.prim 1) .nil)) (.name 2))) ∧
    (∃ r, readAt cfg (.paren (.obj (.bare 5 .nil))) .stmt = .ok r) ∧ ¬Fine false (.paren (.obj (.bare 5 .nil))) :=
  ⟨⟨_, rfl⟩, fun h => h.1.1.elim, ⟨_, rfl⟩, fun h => h.1.elim⟩

/-- **C86, violated.** In an argument a pattern may stand before any assignment operator: `f({a = 1} += 1)` is accepted. -/
theorem compound_violated :
    (∃ r, readAt cfg (.assign false bad (.prim 1)) .arg = .ok r) ∧ ¬Fine false (.assign false bad (.prim 1)) :=
  ⟨⟨_, rfl⟩, fun h => bad_wrong.1 h.1⟩

/-- **C86, violated.** Before the first `;` of `for` a default is let through: `for ({a = 1};;)` is accepted. -/
theorem for_violated : (∃ r, readAt cfg bad .forInit = .ok r) ∧ ¬Fine false bad := ⟨⟨_, rfl⟩, bad_wrong.1⟩

/-- **C86, violated.** `for ({__proto__: a, __proto__: b} of c)` is refused, though a pattern stands there. -/
theorem target_violated : Fine true twice ∧ readAt cfg twice .forTarget = .error .proto :=
  ⟨by simp [Fine, FineProps, twice], rfl⟩

end Mole.Parser.Pat
