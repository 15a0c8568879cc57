import Verif.Parser.PatternProps
/-!
# C55, C56: trying a parenthesised expression as arrow parameters

`parenExpr` (parser.go:5888) always converts the arguments to parameters, also when no `=>` follows.
-/
namespace Mole.Parser.Pat
open Spec

/-! ## Specification -/
namespace Spec

mutual
/-- No array literal with a hole and no object literal with a property without value. -/
def NoHole : E → Prop
  | .await e => NoHole e
  | .un e => NoHole e
  | .bin a b => NoHole a ∧ NoHole b
  | .paren e => NoHole e
  | .arr es => NoHoleElems es
  | .obj ps => NoHoleProps ps
  | .assignPat l r => NoHole l ∧ NoHole r
  | _ => True
def NoHoleElems : Elems → Prop
  | .nil => True
  | .hole _ => False
  | .cons e es => NoHole e ∧ NoHoleElems es
  | .spread _ e es => NoHole e ∧ NoHoleElems es
  | .rest _ es => NoHoleElems es
def NoHoleProps : Props → Prop
  | .nil => True
  | .short _ ps => NoHoleProps ps
  | .kv _ v ps => NoHole v ∧ NoHoleProps ps
  | .init _ v ps => NoHole v ∧ NoHoleProps ps
  | .initKey _ v ps => NoHole v ∧ NoHoleProps ps
  | .initPat k v ps => NoHole k ∧ NoHole v ∧ NoHoleProps ps
  | .bare _ _ => False
  | .spread _ e ps => NoHole e ∧ NoHoleProps ps
  | .rest _ ps => NoHoleProps ps
end

mutual
/-- The same, but only of the default values in an expression read as a pattern. -/
def Solid : E → Prop
  | .arr es => SolidElems es
  | .obj ps => SolidProps ps
  | .objPat ps => SolidProps ps
  | .assign _ l r => Solid l ∧ NoHole r
  | .paren e => Solid e
  | _ => True
def SolidElems : Elems → Prop
  | .nil => True
  | .hole es => SolidElems es
  | .cons e es => Solid e ∧ SolidElems es
  | .spread _ e es => Solid e ∧ SolidElems es
  | .rest _ es => SolidElems es
def SolidProps : Props → Prop
  | .nil => True
  | .short _ ps => SolidProps ps
  | .kv _ v ps => Solid v ∧ SolidProps ps
  | .init _ v ps => NoHole v ∧ SolidProps ps
  | .initKey k v ps => Solid k ∧ NoHole v ∧ SolidProps ps
  | .initPat k v ps => Solid k ∧ NoHole k ∧ NoHole v ∧ SolidProps ps
  | .bare _ ps => SolidProps ps
  | .spread _ e ps => Solid e ∧ SolidProps ps
  | .rest _ ps => SolidProps ps
end

/-- An expression that is no literal, assignment or pattern. -/
def Leaf : E → Prop
  | .arr _ | .obj _ | .assign _ _ _ | .arrPat _ | .objPat _ | .assignPat _ _ => False
  | _ => True

mutual
/-- Every property of every object literal in pattern position has a plain value, and no literal is
spread. -/
def Still : E → Prop
  | .arr es => StillElems es
  | .obj ps => StillProps ps
  | .objPat _ => False
  | .assign _ l _ => Still l
  | _ => True
def StillElems : Elems → Prop
  | .nil => True
  | .hole es => StillElems es
  | .cons e es => Still e ∧ StillElems es
  | .spread _ e es => Leaf e ∧ StillElems es
  | .rest _ es => StillElems es
def StillProps : Props → Prop
  | .nil => True
  | .short _ ps => StillProps ps
  | .kv _ v ps => Leaf v ∧ StillProps ps
  | .bare _ ps => StillProps ps
  | .spread _ e ps => Leaf e ∧ StillProps ps
  | .rest _ ps => StillProps ps
  | _ => False
end

/-- Some property has a default, `{ a = v }` or `{ [a] = v }`. -/
def Shorthand : Props → Prop
  | .nil => False
  | .init _ _ _ | .initKey _ _ _ | .initPat _ _ _ => True
  | .short _ ps | .kv _ _ ps | .bare _ ps | .spread _ _ ps | .rest _ ps => Shorthand ps
/-- The expression is the value of a property. -/
def ValueIn (e : E) : Props → Prop
  | .nil => False
  | .kv _ v ps | .initKey _ v ps => e = v ∨ ValueIn e ps
  | .init _ _ ps | .short _ ps | .initPat _ _ ps | .bare _ ps | .spread _ _ ps | .rest _ ps => ValueIn e ps
/-- The expression is an element. -/
def ElemIn (e : E) : Elems → Prop
  | .nil => False
  | .cons x es => e = x ∨ ElemIn e es
  | .hole es | .spread _ _ es | .rest _ es => ElemIn e es

/-- What makes `e` no expression: in it, or in the elements, parentheses and property values it is made
of, a shorthand with a default; or, not in a property value, a compound assignment to something that is
no target (`target`). -/
inductive Wrong (target : E → Prop) : Bool → E → Prop
  | shorthand {b ps} : Shorthand ps → Wrong target b (.obj ps)
  | value {b ps v} : ValueIn v ps → Wrong target false v → Wrong target b (.obj ps)
  | paren {b e} : Wrong target b e → Wrong target b (.paren e)
  | elem {b es e} : ElemIn e es → Wrong target b e → Wrong target b (.arr es)
  | compound {l r} : ¬target l → Wrong target true (.assign false l r)

/-- A shorthand with a default in an object that is the expression, one of its elements, and so on. -/
inductive Exposed : E → Prop
  | obj {ps} : Shorthand ps → Exposed (.obj ps)
  | elem {es e} : ElemIn e es → Exposed e → Exposed (.arr es)
end Spec

/-! ## Panics -/

mutual
theorem checkDef_no_panic (C : Cfg) (d : Bool) : ∀ e, NoHole e → checkDef C d e ≠ .error .panic
  | .name n, h => by rw [checkDef]; split <;> simp
  | .yield n, h => by rw [checkDef]; split <;> simp
  | .await e, h => by
    rw [checkDef]; split
    · exact checkDef_no_panic C d e h
    · simp
  | .un e, h => by rw [checkDef]; exact checkDef_no_panic C d e h
  | .bin a b, h => by
    rw [checkDef]; split
    · exact checkDef_no_panic C d b h.2
    · rename_i x hx; rintro ⟨⟩; exact checkDef_no_panic C d a h.1 hx
  | .paren e, h => by rw [checkDef]; exact checkDef_no_panic C d e h
  | .arr es, h => by rw [checkDef]; exact checkDefElems_no_panic C d es h
  | .obj ps, h => by rw [checkDef]; exact checkDefProps_no_panic C d ps h
  | .assignPat a b, h => by
    rw [checkDef]; split
    · exact checkDef_no_panic C d b h.2
    · rename_i x hx; rintro ⟨⟩; exact checkDef_no_panic C d a h.1 hx
  | .prim _, _ => by simp [checkDef]
  | .member _, _ => by simp [checkDef]
  | .fn _, _ => by simp [checkDef]
  | .other _, _ => by simp [checkDef]
  | .assign _ _ _, _ => by simp [checkDef]
  | .arrPat _, _ => by simp [checkDef]
  | .objPat _, _ => by simp [checkDef]
theorem checkDefElems_no_panic (C : Cfg) (d : Bool) :
    ∀ es, NoHoleElems es → checkDefElems C d es ≠ .error .panic
  | .nil, _ => by simp [checkDefElems]
  | .hole _, h => h.elim
  | .cons e es, h => by
    rw [checkDefElems]; split
    · exact checkDefElems_no_panic C d es h.2
    · rename_i x hx; rintro ⟨⟩; exact checkDef_no_panic C d e h.1 hx
  | .spread _ e es, h => by
    rw [checkDefElems]; split
    · exact checkDefElems_no_panic C d es h.2
    · rename_i x hx; rintro ⟨⟩; exact checkDef_no_panic C d e h.1 hx
  | .rest _ es, h => by rw [checkDefElems]; have := checkDefElems_no_panic C d es h; exact this
theorem checkDefProps_no_panic (C : Cfg) (d : Bool) :
    ∀ ps, NoHoleProps ps → checkDefProps C d ps ≠ .error .panic
  | .nil, _ => by simp [checkDefProps]
  | .short n ps, h => by
    rw [checkDefProps]; split
    · simp
    · have := checkDefProps_no_panic C d ps h; exact this
  | .kv _ e ps, h => by
    rw [checkDefProps]; split
    · exact checkDefProps_no_panic C d ps h.2
    · rename_i x hx; rintro ⟨⟩; exact checkDef_no_panic C d e h.1 hx
  | .init _ e ps, h => by
    rw [checkDefProps]; split
    · exact checkDefProps_no_panic C d ps h.2
    · rename_i x hx; rintro ⟨⟩; exact checkDef_no_panic C d e h.1 hx
  | .initKey _ e ps, h => by
    rw [checkDefProps]; split
    · exact checkDefProps_no_panic C d ps h.2
    · rename_i x hx; rintro ⟨⟩; exact checkDef_no_panic C d e h.1 hx
  | .initPat k e ps, h => by
    rw [checkDefProps]; split
    · split
      · exact checkDefProps_no_panic C d ps h.2.2
      · rename_i x hx; rintro ⟨⟩; exact checkDef_no_panic C d e h.2.1 hx
    · rename_i x hx; rintro ⟨⟩; exact checkDef_no_panic C d k h.1 hx
  | .bare _ _, h => h.elim
  | .spread _ e ps, h => by
    rw [checkDefProps]; split
    · exact checkDefProps_no_panic C d ps h.2
    · rename_i x hx; rintro ⟨⟩; exact checkDef_no_panic C d e h.1 hx
  | .rest _ ps, h => by rw [checkDefProps]; have := checkDefProps_no_panic C d ps h; exact this
end

theorem nameParam_no_panic (C : Cfg) (n : Nat) : nameParam C n ≠ .error .panic := by
  unfold nameParam; split <;> simp

mutual
theorem toParam_no_panic (C : Cfg) (d top : Bool) : ∀ e, Solid e → toParam C d top e ≠ .error .panic
  | .arr es, h => by
    rw [toParam]; split
    · simp
    · rename_i x hx; rintro ⟨⟩; exact toElems_no_panic C d es h hx
  | .obj ps, h => by
    rw [toParam]; split
    · simp
    · rename_i x hx; rintro ⟨⟩; exact toProps_no_panic C d ps h hx
  | .objPat ps, h => by
    rw [toParam]; split
    · simp
    · rename_i x hx; rintro ⟨⟩; exact toProps_no_panic C d ps h hx
  | .assign plain l r, h => by
    rw [toParam]; split
    · simp
    · split
      · split
        · simp
        · rename_i x hx; rintro ⟨⟩; exact checkDef_no_panic C d r h.2 hx
      · rename_i x hx; rintro ⟨⟩; exact toParam_no_panic C d false l h.1 hx
  | .name n, _ => by
    rw [toParam]; split
    · simp
    · rename_i x hx; rintro ⟨⟩; exact nameParam_no_panic C n hx
  | .paren e, h => by
    rw [toParam]; split
    · exact toParam_no_panic C d top e h
    · simp
  | .prim _, _ => by simp only [toParam]; repeat (first | split | simp)
  | .member _, _ => by simp only [toParam]; repeat (first | split | simp)
  | .fn _, _ => by simp only [toParam]; repeat (first | split | simp)
  | .other _, _ => by simp only [toParam]; repeat (first | split | simp)
  | .yield _, _ => by simp only [toParam]; repeat (first | split | simp)
  | .await _, _ => by simp only [toParam]; repeat (first | split | simp)
  | .un _, _ => by simp only [toParam]; repeat (first | split | simp)
  | .bin _ _, _ => by simp only [toParam]; repeat (first | split | simp)
  | .arrPat _, _ => by simp only [toParam]; repeat (first | split | simp)
  | .assignPat _ _, _ => by simp only [toParam]; repeat (first | split | simp)
theorem toElems_no_panic (C : Cfg) (d : Bool) : ∀ es, SolidElems es → toElems C d es ≠ .error .panic
  | .nil, _ => by simp [toElems]
  | .hole es, h => by
    rw [toElems]; split
    · simp
    · rename_i x hx; rintro ⟨⟩; exact toElems_no_panic C d es h hx
  | .cons e es, h => by
    rw [toElems]; split
    · split
      · simp
      · rename_i x hx; rintro ⟨⟩; exact toElems_no_panic C d es h.2 hx
    · rename_i x hx; rintro ⟨⟩; exact toParam_no_panic C d false e h.1 hx
  | .spread _ e es, h => by
    rw [toElems]; split
    · simp
    · split
      · split
        · split
          · simp
          · rename_i x hx; rintro ⟨⟩; exact toElems_no_panic C d es h.2 hx
        · rename_i x hx; rintro ⟨⟩; exact toParam_no_panic C d false e h.1 hx
      · simp
  | .rest e es, h => by
    rw [toElems]; split
    · simp
    · rename_i x hx; rintro ⟨⟩; exact toElems_no_panic C d es h hx
theorem toProps_no_panic (C : Cfg) (d : Bool) : ∀ ps, SolidProps ps → toProps C d ps ≠ .error .panic
  | .nil, _ => by simp [toProps]
  | .short n ps, h => by
    rw [toProps]; split
    · split
      · simp
      · rename_i x hx; rintro ⟨⟩; exact toProps_no_panic C d ps h hx
    · rename_i x hx; rintro ⟨⟩; exact nameParam_no_panic C n hx
  | .kv _ v ps, h => by
    rw [toProps]; split
    · simp
    · split
      · split
        · simp
        · rename_i x hx; rintro ⟨⟩; exact toProps_no_panic C d ps h.2 hx
      · rename_i x hx; rintro ⟨⟩; exact toParam_no_panic C d false v h.1 hx
  | .init n v ps, h => by
    rw [toProps]; split
    · simp
    · split
      · split
        · split
          · simp
          · rename_i x hx; rintro ⟨⟩; exact toProps_no_panic C d ps h.2 hx
        · rename_i x hx; rintro ⟨⟩; exact checkDef_no_panic C d v h.1 hx
      · rename_i x hx; rintro ⟨⟩; exact nameParam_no_panic C n hx
  | .initKey k v ps, h => by
    rw [toProps]; split
    · simp
    · split
      · split
        · split
          · simp
          · rename_i x hx; rintro ⟨⟩; exact toProps_no_panic C d ps h.2.2 hx
        · rename_i x hx; rintro ⟨⟩; exact checkDef_no_panic C d v h.2.1 hx
      · rename_i x hx; rintro ⟨⟩; exact toParam_no_panic C d false k h.1 hx
  | .initPat k v ps, h => by
    rw [toProps]; split
    · split
      · split
        · simp
        · rename_i x hx; rintro ⟨⟩; exact toProps_no_panic C d ps h.2.2.2 hx
      · rename_i x hx; rintro ⟨⟩
        exact checkDef_no_panic C d (.assignPat k v) ⟨h.2.1, h.2.2.1⟩ hx
    · rename_i x hx; rintro ⟨⟩; exact toParam_no_panic C d false k h.1 hx
  | .bare _ _, _ => by simp [toProps]
  | .spread _ e ps, h => by
    rw [toProps]; split
    · simp
    · split
      · split
        · split
          · simp
          · rename_i x hx; rintro ⟨⟩; exact toProps_no_panic C d ps h.2 hx
        · rename_i x hx; rintro ⟨⟩; exact toParam_no_panic C d false e h.1 hx
      · simp
  | .rest e ps, h => by
    rw [toProps]; split
    · simp
    · rename_i x hx; rintro ⟨⟩; exact toProps_no_panic C d ps h hx
end

/-- **C55** (partial: for expressions whose default values have no holes; for the others see
`hole_panics_violated`).  Reading `(e)` never panics. -/
theorem paren_no_panic_partial (C : Cfg) (e : E) (h : Solid e) :
    parenthesised C e ≠ .error .panic := by
  unfold parenthesised
  split
  · rename_i hp
    rw [toParams] at hp
    split at hp
    · simp [toParams] at hp
    · rename_i x hx; cases hp
      exact absurd hx (toParam_no_panic C false true e h)
  · split <;> simp

/-- **C55 is violated**: `(a = [,])`, no arrow following, panics. -/
theorem paren_panics_violated :
    parenthesised cfg (.assign true (.name 0) (.arr (.hole .nil))) = .error .panic := rfl

example : Solid (.obj (.kv 1 (.assign true (.arr (.hole (one (.name 0)))) (.arr (one (.prim 1)))) .nil)) := by
  simp [Solid, SolidProps, SolidElems, NoHole, NoHoleElems, one]

/-! ## The expression that stays -/

mutual
theorem residue_strip (C : Cfg) (d : Bool) : ∀ e, strip (residue C d e) = strip e
  | .arr es => by rw [residue, strip, strip, residueElems_strip C d es]
  | .obj ps => by rw [residue, strip, strip, residueProps_strip C d ps]
  | .objPat ps => by rw [residue, strip, strip, residueProps_strip C d ps]
  | .assign plain l r => by
    rw [residue]; split
    · rw [strip, strip, residue_strip C d l]
    · rfl
  | .name _ => by simp [residue]
  | .prim _ => by simp [residue]
  | .member _ => by simp [residue]
  | .fn _ => by simp [residue]
  | .other _ => by simp [residue]
  | .yield _ => by simp [residue]
  | .await _ => by simp [residue]
  | .un _ => by simp [residue]
  | .bin _ _ => by simp [residue]
  | .paren _ => by simp [residue]
  | .arrPat _ => by simp [residue]
  | .assignPat _ _ => by simp [residue]
theorem residueElems_strip (C : Cfg) (d : Bool) : ∀ es, stripElems (residueElems C d es) = stripElems es
  | .nil => by simp [residueElems]
  | .hole es => by rw [residueElems, stripElems, stripElems, residueElems_strip C d es]
  | .cons e es => by
    rw [residueElems]; split
    · rw [stripElems, stripElems, residueElems_strip C d es, residue_strip C d e]
    · rw [stripElems, stripElems, residue_strip C d e]
  | .spread tc e es => by
    rw [residueElems]; split
    · rfl
    · split
      · split
        · rename_i e' he
          rw [stripElems, stripElems, residueElems_strip C d es, toParam_strip C d false e e' he]
        · rw [stripElems, stripElems, residue_strip C d e]
      · rfl
  | .rest _ _ => by simp [residueElems]
theorem residueProps_strip (C : Cfg) (d : Bool) : ∀ ps, stripProps (residueProps C d ps) = stripProps ps
  | .nil => by simp [residueProps]
  | .short n ps => by
    rw [residueProps]; split
    · rw [stripProps, stripProps, residueProps_strip C d ps]
    · rfl
  | .kv k v ps => by
    rw [residueProps]; split
    · rfl
    · split
      · rename_i v' hv
        rw [stripProps, stripProps, residueProps_strip C d ps, toParam_strip C d false v v' hv]
      · rw [stripProps, stripProps, residue_strip C d v]
  | .init n v ps => by
    rw [residueProps]; split
    · rfl
    · split
      · split
        · rw [stripProps, stripProps, residueProps_strip C d ps, strip]; all_goals nofun
        · rfl
      · rfl
  | .initKey k v ps => by
    rw [residueProps]; split
    · rfl
    · split
      · rename_i k' hk
        split
        · rw [stripProps, stripProps, residueProps_strip C d ps, toParam_strip C d false k k' hk]
        · rw [stripProps, stripProps, toParam_strip C d false k k' hk]
      · rw [stripProps, stripProps, residue_strip C d k]
  | .initPat k v ps => by
    rw [residueProps]; split
    · rename_i k' hk
      split
      · rw [stripProps, stripProps, residueProps_strip C d ps, toParam_strip C d false k k' hk]
      · rw [stripProps, stripProps, toParam_strip C d false k k' hk]
    · rw [stripProps, stripProps, residue_strip C d k]
  | .spread tc e ps => by
    rw [residueProps]; split
    · rfl
    · split
      · split
        · rename_i e' he
          rw [stripProps, stripProps, residueProps_strip C d ps, toParam_strip C d false e e' he]
        · rfl
      · rfl
  | .bare _ _ => by simp [residueProps]
  | .rest _ _ => by simp [residueProps]
end

theorem leaf_toParam {C : Cfg} {e e' : E} (hl : Leaf e) (h : toParam C false false e = .ok e') : e' = e := by
  cases e <;> rw [toParam] at h <;>
    first
    | exact hl.elim
    | (simp at h; done)
    | (split at h
       · cases h; rfl
       · cases h)
    | (split at h
       · cases h
       · split at h
         · cases h; rfl
         · cases h)
    | skip
  all_goals first | nofun | simp_all

theorem leaf_residue {C : Cfg} {d : Bool} {e : E} (hl : Leaf e) : residue C d e = e := by
  cases e <;> first | exact hl.elim | simp [residue]

mutual
theorem residue_same (C : Cfg) : ∀ e, Still e → residue C false e = e
  | .arr es, h => by rw [residue, residueElems_same C es h]
  | .obj ps, h => by rw [residue, residueProps_same C ps h]
  | .objPat ps, h => h.elim
  | .assign plain l r, h => by rw [residue, residue_same C l h]; simp
  | .name _, _ => by simp [residue]
  | .prim _, _ => by simp [residue]
  | .member _, _ => by simp [residue]
  | .fn _, _ => by simp [residue]
  | .other _, _ => by simp [residue]
  | .yield _, _ => by simp [residue]
  | .await _, _ => by simp [residue]
  | .un _, _ => by simp [residue]
  | .bin _ _, _ => by simp [residue]
  | .paren _, _ => by simp [residue]
  | .arrPat _, _ => by simp [residue]
  | .assignPat _ _, _ => by simp [residue]
theorem residueElems_same (C : Cfg) : ∀ es, StillElems es → residueElems C false es = es
  | .nil, _ => by simp [residueElems]
  | .hole es, h => by rw [residueElems, residueElems_same C es h]
  | .cons e es, h => by
    rw [residueElems, residueElems_same C es h.2, residue_same C e h.1]
    split <;> rfl
  | .spread tc e es, h => by
    rw [residueElems, residueElems_same C es h.2, leaf_residue h.1]
    split
    · rfl
    · split
      · split
        · rename_i e' he
          rw [leaf_toParam h.1 he]
        · rfl
      · rfl
  | .rest _ _, _ => by simp [residueElems]
theorem residueProps_same (C : Cfg) : ∀ ps, StillProps ps → residueProps C false ps = ps
  | .nil, _ => by simp [residueProps]
  | .short n ps, h => by
    rw [residueProps, residueProps_same C ps h]
    split <;> rfl
  | .kv k v ps, h => by
    rw [residueProps, residueProps_same C ps h.2, leaf_residue h.1]
    split
    · rfl
    · split
      · rename_i v' hv
        rw [leaf_toParam h.1 hv]
      · rfl
  | .spread tc e ps, h => by
    rw [residueProps, residueProps_same C ps h.2]
    split
    · rfl
    · split
      · split
        · rename_i e' he
          rw [leaf_toParam h.1 he]
        · rfl
      · rfl
  | .bare _ _, _ => by simp [residueProps]
  | .rest _ _, _ => by simp [residueProps]
  | .init _ _ _, h => h.elim
  | .initKey _ _ _, h => h.elim
  | .initPat _ _ _, h => h.elim
end

/-- **C56** (partial: for expressions without nested literals in object properties).  `(e)` without
`=>` is the parenthesised expression `e`. -/
theorem paren_same_partial (C : Cfg) (e r : E) (hs : Still e) (h : parenthesised C e = .ok r) :
    r = .paren e := by
  unfold parenthesised at h
  rw [residue_same C e hs] at h
  split at h
  · cases h
  · split at h
    · cases h; rfl
    · cases h

mutual
theorem checkArg_iff (C : Cfg) : ∀ (e : E) (sp si : Bool),
    checkArg C sp si e = false ↔ Wrong (fun l => simpleLVal C true true l = true) si e
  | .obj ps, sp, si => by
    rw [checkArg, checkArgProps_iff C ps]
    exact ⟨fun h => h.elim .shorthand fun ⟨v, hv, hw⟩ => .value hv hw,
      fun h => by cases h with
        | shorthand h => exact .inl h
        | value hv hw => exact .inr ⟨_, hv, hw⟩⟩
  | .paren e, sp, si => by
    rw [checkArg, checkArg_iff C e]
    exact ⟨.paren, fun h => by cases h; assumption⟩
  | .arr es, sp, si => by
    rw [checkArg, checkArgElems_iff C es]
    exact ⟨fun ⟨e, he, hw⟩ => .elem he hw, fun h => by cases h with | elem he hw => exact ⟨_, he, hw⟩⟩
  | .assign plain l r, sp, si => by
    rw [checkArg]
    cases si <;> cases plain <;> simp
    · nofun
    · nofun
    · exact ⟨fun h => .compound (by simp [h]), fun h => by cases h with | compound h => simpa using h⟩
    · nofun
  | .name _, _, _ => by rw [checkArg]; simp; nofun; all_goals nofun
  | .prim _, _, _ => by rw [checkArg]; simp; nofun; all_goals nofun
  | .member _, _, _ => by rw [checkArg]; simp; nofun; all_goals nofun
  | .fn _, _, _ => by rw [checkArg]; simp; nofun; all_goals nofun
  | .other _, _, _ => by rw [checkArg]; simp; nofun; all_goals nofun
  | .yield _, _, _ => by rw [checkArg]; simp; nofun; all_goals nofun
  | .await _, _, _ => by rw [checkArg]; simp; nofun; all_goals nofun
  | .un _, _, _ => by rw [checkArg]; simp; nofun; all_goals nofun
  | .bin _ _, _, _ => by rw [checkArg]; simp; nofun; all_goals nofun
  | .arrPat _, _, _ => by rw [checkArg]; simp; nofun; all_goals nofun
  | .objPat _, _, _ => by rw [checkArg]; simp; nofun; all_goals nofun
  | .assignPat _ _, _, _ => by rw [checkArg]; simp; nofun; all_goals nofun
theorem checkArgElems_iff (C : Cfg) : ∀ (es : Elems) (si : Bool),
    checkArgElems C si es = false ↔
      ∃ e, ElemIn e es ∧ Wrong (fun l => simpleLVal C true true l = true) si e
  | .nil, si => by simp [checkArgElems, ElemIn]
  | .hole es, si => by rw [checkArgElems, checkArgElems_iff C es]; simp [ElemIn]
  | .cons e es, si => by
    rw [checkArgElems, Bool.and_eq_false_iff, checkArg_iff C e, checkArgElems_iff C es]
    simp only [ElemIn, or_and_right, exists_or, exists_eq_left]
  | .spread _ _ es, si => by rw [checkArgElems, checkArgElems_iff C es]; simp [ElemIn]
  | .rest _ es, si => by rw [checkArgElems, checkArgElems_iff C es]; simp [ElemIn]
theorem checkArgProps_iff (C : Cfg) : ∀ (ps : Props),
    checkArgProps C ps = false ↔
      Shorthand ps ∨ ∃ v, ValueIn v ps ∧ Wrong (fun l => simpleLVal C true true l = true) false v
  | .nil => by simp [checkArgProps, ValueIn, Shorthand]
  | .short _ ps => by rw [checkArgProps, checkArgProps_iff C ps]; simp [ValueIn, Shorthand]
  | .kv _ v ps => by
    rw [checkArgProps, Bool.and_eq_false_iff, checkArg_iff C v, checkArgProps_iff C ps]
    simp only [ValueIn, Shorthand, or_and_right, exists_or, exists_eq_left]
    exact or_left_comm
  | .init _ _ _ => by simp [checkArgProps, Shorthand]
  | .initKey _ _ _ => by simp [checkArgProps, Shorthand]
  | .initPat _ _ _ => by simp [checkArgProps, Shorthand]
  | .bare _ ps => by rw [checkArgProps, checkArgProps_iff C ps]; simp [ValueIn, Shorthand]
  | .spread _ _ ps => by rw [checkArgProps, checkArgProps_iff C ps]; simp [ValueIn, Shorthand]
  | .rest _ ps => by rw [checkArgProps, checkArgProps_iff C ps]; simp [ValueIn, Shorthand]
end

/-- **C56** (partial: as in `paren_same_partial`, and without the holes that panic).  `(e)` without `=>` is
accepted exactly if there is neither a shorthand with a default in it nor a compound assignment to
something that is no target. -/
theorem paren_accepted_iff_partial (C : Cfg) (e : E) (hs : Still e) (hp : Solid e) :
    parenthesised C e = .ok (.paren e) ↔ ¬Wrong (fun l => simpleLVal C true true l = true) true e := by
  rw [← checkArg_iff C e false true]
  have hn := paren_no_panic_partial C e hp
  unfold parenthesised at hn ⊢
  rw [residue_same C e hs] at hn ⊢
  split
  · simp_all
  · cases checkArg C false true e <;> simp

example : Still (.arr (one (.assign false (.member 0) (.prim 1)))) ∧
    Solid (.arr (one (.assign false (.member 0) (.prim 1)))) ∧
    parenthesised cfg (.arr (one (.assign false (.member 0) (.prim 1)))) =
      .ok (.paren (.arr (one (.assign false (.member 0) (.prim 1))))) :=
  ⟨by simp [Still, StillElems, one], by simp [Solid, SolidElems, NoHole, one], rfl⟩

theorem shorthand_residue (C : Cfg) : ∀ ps, Shorthand ps → Shorthand (residueProps C false ps)
  | .init n v ps, _ => by
    rw [residueProps]; repeat' split
    all_goals trivial
  | .initPat k v ps, _ | .initKey k v ps, _ => by
    rw [residueProps]; repeat' split
    all_goals trivial
  | .nil, h => h.elim
  | .short n ps, h => by
    have := shorthand_residue C ps h
    rw [residueProps]; split <;> assumption
  | .kv k v ps, h => by
    have := shorthand_residue C ps h
    rw [residueProps]; repeat' split
    all_goals assumption
  | .bare _ _, h => by simpa [residueProps] using h
  | .rest _ _, h => by simpa [residueProps] using h
  | .spread tc e ps, h => by
    have := shorthand_residue C ps h
    rw [residueProps]; repeat' split
    all_goals assumption

mutual
theorem exposed_wrong (C : Cfg) (si : Bool) : ∀ {e : E}, Exposed e →
    Wrong (fun l => simpleLVal C true true l = true) si e ∧
      Wrong (fun l => simpleLVal C true true l = true) si (residue C false e)
  | _, .obj h => ⟨.shorthand h, by rw [residue]; exact .shorthand (shorthand_residue C _ h)⟩
  | .arr es, .elem h he => by
    have ⟨h1, h2⟩ := exposed_wrong C si he
    refine ⟨.elem h h1, ?_⟩
    rw [residue]
    obtain ⟨e', h', hw⟩ := exposed_elems C si es h h1 h2
    exact .elem h' hw
theorem exposed_elems (C : Cfg) (si : Bool) : ∀ (es : Elems) {e : E}, ElemIn e es →
    Wrong (fun l => simpleLVal C true true l = true) si e →
    Wrong (fun l => simpleLVal C true true l = true) si (residue C false e) →
    ∃ e', ElemIn e' (residueElems C false es) ∧ Wrong (fun l => simpleLVal C true true l = true) si e'
  | .nil, e, h, _, _ => h.elim
  | .hole es, e, h, h1, h2 => by
    rw [residueElems]; exact exposed_elems C si es h h1 h2
  | .cons x es, e, h, h1, h2 => by
    rw [residueElems]
    rcases h with rfl | h
    · split
      · exact ⟨_, .inl rfl, h2⟩
      · exact ⟨_, .inl rfl, h2⟩
    · split
      · obtain ⟨e', h', hw⟩ := exposed_elems C si es h h1 h2
        exact ⟨e', .inr h', hw⟩
      · exact ⟨e, .inr h, h1⟩
  | .spread tc x es, e, h, h1, h2 => by
    rw [residueElems]
    repeat' split
    · exact ⟨e, h, h1⟩
    · obtain ⟨e', h', hw⟩ := exposed_elems C si es h h1 h2
      exact ⟨e', h', hw⟩
    · exact ⟨e, h, h1⟩
    · exact ⟨e, h, h1⟩
  | .rest _ es, e, h, h1, h2 => by
    rw [residueElems]
    · exact ⟨e, h, h1⟩
    all_goals nofun
end

/-- **C56**: `({ a = 1 })` is never an expression, nor are `([{ a = 1 }])`, `([[{ a = 1 }], b])` and so on,
whatever else they hold. -/
theorem paren_shorthand_rejected (C : Cfg) (e r : E) (h : Exposed e) : parenthesised C e ≠ .ok r := by
  have := (exposed_wrong C true h).2
  rw [← checkArg_iff C _ false true] at this
  unfold parenthesised
  rw [this]
  split <;> simp

example : Exposed (.arr (one (.obj (.kv 1 (.name 2) (.init 0 (.prim 1) .nil))))) :=
  .elem (.inl rfl) (.obj trivial)

/-- **C56**, in general: reading `(e)` changes at most the labels of nodes, literal to pattern; names,
keys, values and their order stay. -/
theorem paren_content (C : Cfg) (e r : E) (h : parenthesised C e = .ok r) : strip r = strip e := by
  unfold parenthesised at h
  split at h
  · cases h
  · split at h
    · cases h; rw [strip, residue_strip C false e]
    · cases h

/-- **C56 is violated**: `({ k: [a] })` has an array pattern for its value. -/
theorem paren_array_violated :
    parenthesised cfg (.obj (.kv 5 (.arr (one (.name 0))) .nil)) =
      .ok (.paren (.obj (.kv 5 (.arrPat (one (.name 0))) .nil))) := rfl

/-- **C56 is violated**: `({ k: a = 1 })`, an assignment, has an assignment pattern for its value. -/
theorem paren_assign_violated :
    parenthesised cfg (.obj (.kv 5 (.assign true (.name 0) (.prim 1)) .nil)) =
      .ok (.paren (.obj (.kv 5 (.assignPat (.name 0) (.prim 1)) .nil))) := rfl

/-- **C56 is violated**: `({ k: { a = 1 } })`, which is no expression, is accepted as one; without the
trial `{ a = 1 }` is an error. -/
theorem paren_shorthand_violated :
    (∃ r, parenthesised cfg (.obj (.kv 5 (.obj (.init 0 (.prim 1) .nil)) .nil)) = .ok r) ∧
    checkArg cfg false true (.obj (.kv 5 (.obj (.init 0 (.prim 1) .nil)) .nil)) = false := ⟨⟨_, rfl⟩, rfl⟩

example : Still (.obj (.kv 1 (.bin (.name 0) (.arr (one (.name 2)))) (.short 3 .nil))) ∧
    parenthesised cfg (.obj (.kv 1 (.bin (.name 0) (.arr (one (.name 2)))) (.short 3 .nil))) =
      .ok (.paren (.obj (.kv 1 (.bin (.name 0) (.arr (one (.name 2)))) (.short 3 .nil)))) :=
  ⟨by simp [Still, StillProps, Leaf], rfl⟩

end Mole.Parser.Pat
