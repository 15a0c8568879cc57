import Verif.Parser.PatternLemmas
/-!
# When `argToParam` accepts
-/
namespace Mole.Parser.Pat
open Spec

/-- The default value is an expression the parser accepts, and it passes `checkDefaultVal`. -/
def DefaultFine (C : Cfg) (r : E) : Prop :=
  ∃ r', build C r = .ok r' ∧ ∀ d, checkDef C d r' = .ok ()

/-- Names that may not be read, or assigned to, may not be bound either, and are refused. -/
structure Sane (C : Cfg) : Prop where
  val : ∀ n, C.prohibitedVal n = true → C.prohibited n = true
  bad : ∀ n, C.badTarget n = true → C.checkName = true ∧ C.prohibited n = true

def E.isAssign : E → Bool
  | .assign _ _ _ => true
  | _ => false

def E.isMemberOrParen : E → Bool
  | .member _ | .paren _ => true
  | _ => false

def E.isMember : E → Bool
  | .member _ => true
  | _ => false

mutual
/-- The forms on which the code and the language part are left out: parentheses around a member
expression or around parentheses, a rest element that is a member expression, `[k] = v`, a
function as default of `a = v`; and inside a pattern that has itself a default: `k: target =
default`, and, when binding, member expressions and parentheses.  `lhs` tells whether we are
inside a pattern that has a default.  Source text holds no pattern nodes, and in it a spread
without a comma behind is the last. -/
def Plain (C : Cfg) (d lhs : Bool) : E → Prop
  | .member _ => lhs = true → d = true
  | .paren e => e.isMemberOrParen = false ∧ (lhs = true → d = true)
  | .arr es => PlainElems C d lhs es
  | .obj ps => PlainProps C d lhs ps
  | .assign _ l r => Plain C d true l ∧ DefaultFine C r
  | .arrPat _ | .objPat _ | .assignPat _ _ => False
  | _ => True
def PlainElems (C : Cfg) (d lhs : Bool) : Elems → Prop
  | .nil => True
  | .hole es => PlainElems C d lhs es
  | .cons e es => Plain C d lhs e ∧ PlainElems C d lhs es
  | .spread tc e es => Plain C d lhs e ∧ e.isMember = false ∧ PlainElems C d lhs es ∧ (tc = false → es = .nil)
  | .rest _ _ => False
def PlainProps (C : Cfg) (d lhs : Bool) : Props → Prop
  | .nil => True
  | .short _ ps => PlainProps C d lhs ps
  | .kv _ v ps => Plain C d lhs v ∧ (lhs = true → v.isAssign = false) ∧ PlainProps C d lhs ps
  | .init _ v ps => v.isFn = false ∧ DefaultFine C v ∧ PlainProps C d lhs ps
  | .initKey _ _ _ => False
  | .initPat _ _ _ => False
  | .bare _ ps => PlainProps C d lhs ps
  | .spread tc e ps => Plain C d lhs e ∧ e.isMember = false ∧ PlainProps C d lhs ps ∧ (tc = false → ps = .nil)
  | .rest _ _ => False
end

/-- Accepted: it builds, and `argToParam` accepts the result. -/
def Acc (C : Cfg) (d : Bool) (e : E) : Prop :=
  ∃ e' p, build C e = .ok e' ∧ toParam C d false e' = .ok p
def AccElems (C : Cfg) (d : Bool) (es : Elems) : Prop :=
  ∃ es' ps, buildElems C es = .ok es' ∧ toElems C d es' = .ok ps
def AccProps (C : Cfg) (d : Bool) (ps : Props) : Prop :=
  ∃ ps' qs, buildProps C ps = .ok ps' ∧ toProps C d ps' = .ok qs

theorem nameParam_ok {C : Cfg} {n : Nat} : nameParam C n = .ok () ↔ ¬ Reserved C n := by
  unfold nameParam Reserved
  cases C.checkName <;> cases C.prohibited n <;> simp

theorem nameParam_err {C : Cfg} {n : Nat} (h : Reserved C n) : nameParam C n = .error .err := by
  unfold nameParam
  rw [h.1, h.2]; rfl

theorem acc_name {C : Cfg} {d : Bool} {n : Nat} : Acc C d (.name n) ↔ ¬ Reserved C n := by
  unfold Acc
  by_cases h : Reserved C n
  · simp only [h, not_true, iff_false, build, Except.ok.injEq]
    rintro ⟨e', p, rfl, h2⟩
    rw [toParam, nameParam_err h] at h2
    cases h2
  · simp only [h, not_false_iff, iff_true]
    exact ⟨_, .name n, rfl, by rw [toParam, nameParam_ok.2 h]⟩

theorem acc_arr {C : Cfg} {d : Bool} {es : Elems} : Acc C d (.arr es) ↔ AccElems C d es := by
  constructor
  · rintro ⟨e', p, h1, h2⟩
    rw [build] at h1
    split at h1
    · rename_i es' hb
      cases h1
      rw [toParam] at h2
      split at h2
      · rename_i q hq
        exact ⟨_, _, hb, hq⟩
      · cases h2
    · cases h1
  · rintro ⟨es', q, h1, h2⟩
    exact ⟨.arr es', .arrPat q, by rw [build, h1], by rw [toParam, h2]⟩

theorem acc_obj {C : Cfg} {d : Bool} {ps : Props} : Acc C d (.obj ps) ↔ AccProps C d ps := by
  constructor
  · rintro ⟨e', p, h1, h2⟩
    rw [build] at h1
    split at h1
    · rename_i es' hb
      cases h1
      rw [toParam] at h2
      split at h2
      · rename_i q hq
        exact ⟨_, _, hb, hq⟩
      · cases h2
    · cases h1
  · rintro ⟨es', q, h1, h2⟩
    exact ⟨.obj es', .objPat q, by rw [build, h1], by rw [toParam, h2]⟩

/-- Building keeps the kind of the node. -/
theorem build_kind {C : Cfg} {e e' : E} (h : build C e = .ok e') :
    e'.kind = e.kind ∧ e'.isFn = e.isFn ∧ e'.isPrimitive = e.isPrimitive := by
  cases e <;> rw [build] at h <;>
    first
    | (cases h; exact ⟨rfl, rfl, rfl⟩)
    | (split at h
       · first
         | (cases h; exact ⟨rfl, rfl, rfl⟩)
         | (split at h
            · first
              | (cases h; exact ⟨rfl, rfl, rfl⟩)
              | (split at h
                 · cases h; exact ⟨rfl, rfl, rfl⟩
                 · cases h)
            · cases h)
       · cases h)
    | skip
  all_goals nofun

mutual
/-- A pattern produced by the first pass survives the second. -/
theorem second_pass (C : Cfg) (hC : Sane C) (d : Bool) : ∀ (l l' p : E), Plain C d true l → l.isAssign = false →
    build C l = .ok l' → toParam C true false l' = .ok p → ∃ p', toParam C d false p = .ok p'
  | .name n, l', p, hp, ha, hb, h => by
    simp only [build, Except.ok.injEq] at hb
    subst hb
    have h0 := h
    rw [toParam] at h
    split at h
    · rename_i hn
      cases h
      exact ⟨.name n, by rw [toParam, hn]⟩
    · cases h
  | .member n, l', p, hp, ha, hb, h => by
    simp only [build, Except.ok.injEq] at hb
    subst hb
    have hd : d = true := hp rfl
    subst hd
    have h0 := h
    simp only [toParam, simpleLVal, Bool.false_eq_true, if_false, if_true, Except.ok.injEq] at h
    subst h
    exact ⟨_, h0⟩
  | .prim n, l', p, hp, ha, hb, h | .fn n, l', p, hp, ha, hb, h | .other n, l', p, hp, ha, hb, h
  | .yield n, l', p, hp, ha, hb, h => by
    simp only [build, Except.ok.injEq] at hb
    subst hb
    simp [toParam, simpleLVal] at h
  | .await e, l', p, hp, ha, hb, h | .un e, l', p, hp, ha, hb, h => by
    rw [build] at hb
    split at hb
    · cases hb
      simp [toParam, simpleLVal] at h
    · cases hb
  | .bin a b, l', p, hp, ha, hb, h => by
    rw [build] at hb
    split at hb
    · split at hb
      · cases hb
        simp [toParam, simpleLVal] at h
      · cases hb
    · cases hb
  | .paren e, l', p, hp, ha, hb, h => by
    rw [build] at hb
    split at hb
    · rename_i e' he
      cases hb
      rw [toParam] at h
      split at h
      · rename_i hprim
        have hk := (build_kind he).2.2
        cases e with
        | name n =>
          simp only [build, Except.ok.injEq] at he
          subst he
          rw [toParam] at h
          split at h
          · rename_i hn
            cases h
            exact ⟨.name n, by rw [toParam, hn]⟩
          · cases h
        | prim n =>
          simp only [build, Except.ok.injEq] at he
          subst he
          simp [toParam, simpleLVal] at h
        | _ => rw [hk] at hprim; simp [E.isPrimitive] at hprim
      · cases h
    · cases hb
  | .arr es, l', p, hp, ha, hb, h => by
    rw [build] at hb
    split at hb
    · cases hb
      rw [toParam] at h
      split at h
      · cases h
        exact ⟨_, by simp [toParam, simpleLVal]; rfl⟩
      · cases h
    · cases hb
  | .obj ps, l', p, hp, ha, hb, h => by
    rw [build] at hb
    split at hb
    · rename_i ps' hps
      cases hb
      rw [toParam] at h
      split at h
      · rename_i q hq
        cases h
        obtain ⟨q', hq'⟩ := second_passProps C hC d ps ps' q hp hps hq
        exact ⟨.objPat q', by rw [toParam, hq']⟩
      · cases h
    · cases hb
  | .assign plain l r, l', p, hp, ha, hb, h => by cases ha
  | .arrPat es, l', p, hp, ha, hb, h | .objPat ps, l', p, hp, ha, hb, h
  | .assignPat l r, l', p, hp, ha, hb, h => hp.elim
theorem second_passProps (C : Cfg) (hC : Sane C) (d : Bool) : ∀ (ps ps' q : Props), PlainProps C d true ps →
    buildProps C ps = .ok ps' → toProps C true ps' = .ok q → ∃ q', toProps C d q = .ok q'
  | .nil, ps', q, hp, hb, h => by
    rw [buildProps] at hb; cases hb
    rw [toProps] at h; cases h
    exact ⟨.nil, by rw [toProps]⟩
  | .short n ps, ps', q, hp, hb, h => by
    rw [buildProps] at hb
    split at hb
    · rename_i hb1
      cases hb
      rw [toProps] at h
      split at h
      · rename_i hn
        split at h
        · rename_i h2
          cases h
          obtain ⟨q', hq⟩ := second_passProps C hC d ps _ _ hp hb1 h2
          exact ⟨_, by rw [toProps, hn, hq]⟩
        · cases h
      · cases h
    · cases hb
  | .kv k v ps, ps', q, hp, hb, h => by
    rw [buildProps] at hb
    split at hb
    · rename_i v' hv
      split at hb
      · rename_i hb1
        cases hb
        rw [toProps] at h
        split at h
        · cases h
        · split at h
          · rename_i pv hpv
            split at h
            · rename_i h2
              cases h
              obtain ⟨q', hq⟩ := second_passProps C hC d ps _ _ hp.2.2 hb1 h2
              obtain ⟨w, hw⟩ := second_pass C hC d v _ _ hp.1 (hp.2.1 rfl) hv hpv
              have hnf : pv.isFn = false := by
                cases pv with
                | fn n =>
                  rw [toParam] at hw
                  · simp [simpleLVal] at hw
                  all_goals nofun
                | _ => rfl
              exact ⟨.kv k w q', by rw [toProps]; simp [hnf, hw, hq]⟩
            · cases h
          · cases h
      · cases hb
    · cases hb
  | .init n v ps, ps', q, hp, hb, h => by
    rw [buildProps] at hb
    split at hb
    · rename_i v' hv
      split at hb
      · rename_i hb1
        cases hb
        rw [toProps] at h
        split at h
        · cases h
        · split at h
          · rename_i hn
            split at h
            · split at h
              · rename_i h2
                cases h
                obtain ⟨q', hq⟩ := second_passProps C hC d ps _ _ hp.2.2 hb1 h2
                obtain ⟨r, hr1, hr2⟩ := hp.2.1
                rw [hv] at hr1
                cases hr1
                refine ⟨.initPat (.name n) v' q', ?_⟩
                have hnv : (C.checkName && C.prohibitedVal n) = false := by
                  have := nameParam_ok.1 hn
                  unfold Reserved at this
                  cases h1 : C.checkName
                  · rfl
                  · cases h3 : C.prohibitedVal n
                    · rfl
                    · exact absurd ⟨h1, hC.val n h3⟩ this
                rw [toProps, toParam, hn]
                simp [checkDef, hnv, hr2 d, hq]
              · cases h
            · cases h
          · cases h
      · cases hb
    · cases hb
  | .initKey k v ps, ps', q, hp, hb, h | .initPat k v ps, ps', q, hp, hb, h
  | .rest e ps, ps', q, hp, hb, h => hp.elim
  | .bare k ps, ps', q, hp, hb, h => by
    rw [buildProps] at hb
    split at hb
    · cases hb
      rw [toProps] at h
      cases h
    · cases hb
  | .spread tc e ps, ps', q, hp, hb, h => by
    rw [buildProps] at hb
    split at hb
    · rename_i e' he
      split at hb
      · rename_i hb1
        cases hb
        rw [toProps] at h
        split at h
        · cases h
        · split at h
          · split at h
            · split at h
              · rename_i h2
                cases h
                obtain ⟨q', hq⟩ := second_passProps C hC d ps _ _ hp.2.2.1 hb1 h2
                exact ⟨.rest _ q', by rw [toProps, hq]⟩
              · cases h
            · cases h
          · cases h
      · cases hb
    · cases hb
end

theorem target_init {C : Cfg} {d : Bool} {e : E} :
    Target C d false e ↔ Target C d true e ∧ e.isAssign = false := by
  cases e <;> simp [Target, E.isAssign]

mutual
theorem Plain.mono (C : Cfg) (d : Bool) : ∀ e, Plain C d true e → Plain C true true e
  | .name _, h | .prim _, h | .fn _, h | .other _, h | .yield _, h | .await _, h | .un _, h
  | .bin _ _, h => trivial
  | .member _, h => fun _ => rfl
  | .paren e, h => ⟨h.1, fun _ => rfl⟩
  | .arr es, h => PlainElems.mono C d es h
  | .obj ps, h => PlainProps.mono C d ps h
  | .assign p l r, h => ⟨Plain.mono C d l h.1, h.2⟩
  | .arrPat es, h | .objPat ps, h | .assignPat l r, h => h.elim
theorem PlainElems.mono (C : Cfg) (d : Bool) : ∀ es, PlainElems C d true es → PlainElems C true true es
  | .nil, h => trivial
  | .hole es, h => PlainElems.mono C d es h
  | .cons e es, h => ⟨Plain.mono C d e h.1, PlainElems.mono C d es h.2⟩
  | .spread tc e es, h => ⟨Plain.mono C d e h.1, h.2.1, PlainElems.mono C d es h.2.2.1, h.2.2.2⟩
  | .rest e es, h => h.elim
theorem PlainProps.mono (C : Cfg) (d : Bool) : ∀ ps, PlainProps C d true ps → PlainProps C true true ps
  | .nil, h => trivial
  | .short n ps, h => PlainProps.mono C d ps h
  | .kv k v ps, h => ⟨Plain.mono C d v h.1, h.2.1, PlainProps.mono C d ps h.2.2⟩
  | .init n v ps, h => ⟨h.1, h.2.1, PlainProps.mono C d ps h.2.2⟩
  | .initKey _ _ _, h | .initPat _ _ _, h | .rest _ _, h => h.elim
  | .bare k ps, h => PlainProps.mono C d ps h
  | .spread tc e ps, h => ⟨Plain.mono C d e h.1, h.2.1, PlainProps.mono C d ps h.2.2.1, h.2.2.2⟩
end

mutual
/-- Without member expressions and parentheses, binding and assigning want the same. -/
theorem target_same (C : Cfg) (d : Bool) : ∀ (init : Bool) e, Plain C d true e →
    (Target C d init e ↔ Target C true init e)
  | i, .name _, h | i, .prim _, h | i, .fn _, h | i, .other _, h | i, .yield _, h | i, .await _, h
  | i, .un _, h | i, .bin _ _, h => by simp only [Target]
  | i, .member _, h => by
    have := h rfl
    subst this
    rfl
  | i, .paren e, h => by
    have := h.2 rfl
    subst this
    rfl
  | i, .arr es, h => by simp only [Target]; exact targetElems_same C d es h
  | i, .obj ps, h => by simp only [Target]; exact targetProps_same C d ps h
  | i, .assign p l r, h => by simp only [Target, target_same C d false l h.1]
  | i, .arrPat es, h | i, .objPat ps, h | i, .assignPat l r, h => h.elim
theorem targetElems_same (C : Cfg) (d : Bool) : ∀ es, PlainElems C d true es →
    (TargetElems C d es ↔ TargetElems C true es)
  | .nil, h => by simp only [TargetElems]
  | .hole es, h => by simp only [TargetElems]; exact targetElems_same C d es h
  | .cons e es, h => by simp only [TargetElems, target_same C d true e h.1, targetElems_same C d es h.2]
  | .spread tc e es, h => by simp only [TargetElems, target_same C d false e h.1]
  | .rest e es, h => h.elim
theorem targetProps_same (C : Cfg) (d : Bool) : ∀ ps, PlainProps C d true ps →
    (TargetProps C d ps ↔ TargetProps C true ps)
  | .nil, h => by simp only [TargetProps]
  | .short n ps, h => by simp only [TargetProps, targetProps_same C d ps h]
  | .kv k v ps, h => by
    simp only [TargetProps, target_same C d true v h.1, targetProps_same C d ps h.2.2]
  | .init n v ps, h => by simp only [TargetProps, targetProps_same C d ps h.2.2]
  | .initKey _ _ _, h | .initPat _ _ _, h | .rest _ _, h => h.elim
  | .bare k ps, h => by simp only [TargetProps]
  | .spread tc e ps, h => by simp only [TargetProps, target_same C d false e h.1]
end

/-- What the first pass leaves is a simple target unless it was an assignment. -/
theorem first_pass_simple {C : Cfg} (hC : Sane C) {l l' p : E} (hn : l.isAssign = false)
    (hpl : ∀ es, l ≠ .arrPat es) (hpo : ∀ ps, l ≠ .objPat ps)
    (hb : build C l = .ok l') (h : toParam C true false l' = .ok p) :
    simpleLVal C true false p = true := by
  have hname : ∀ n, nameParam C n = .ok () → simpleLVal C true false (.name n) = true := by
    intro n hn
    have := nameParam_ok.1 hn
    simp only [simpleLVal, Bool.not_eq_true']
    cases hbad : C.badTarget n
    · rfl
    · exact absurd (hC.bad n hbad) this
  cases l with
  | name n =>
    simp only [build, Except.ok.injEq] at hb
    subst hb
    rw [toParam] at h
    split at h
    · rename_i hn; cases h; exact hname n hn
    · cases h
  | member n =>
    simp only [build, Except.ok.injEq] at hb
    subst hb
    simp only [toParam, simpleLVal, Bool.false_eq_true, if_false, if_true, Except.ok.injEq] at h
    subst h
    rfl
  | prim n => simp only [build, Except.ok.injEq] at hb; subst hb; simp [toParam, simpleLVal] at h
  | fn n => simp only [build, Except.ok.injEq] at hb; subst hb; simp [toParam, simpleLVal] at h
  | other n => simp only [build, Except.ok.injEq] at hb; subst hb; simp [toParam, simpleLVal] at h
  | yield n => simp only [build, Except.ok.injEq] at hb; subst hb; simp [toParam, simpleLVal] at h
  | await e =>
    rw [build] at hb
    split at hb
    · cases hb; simp [toParam, simpleLVal] at h
    · cases hb
  | un e =>
    rw [build] at hb
    split at hb
    · cases hb; simp [toParam, simpleLVal] at h
    · cases hb
  | bin a b =>
    rw [build] at hb
    split at hb
    · split at hb
      · cases hb; simp [toParam, simpleLVal] at h
      · cases hb
    · cases hb
  | paren e =>
    rw [build] at hb
    split at hb
    · rename_i e' he
      cases hb
      rw [toParam] at h
      split at h
      · rename_i hprim
        have hk := (build_kind he).2.2
        cases e with
        | name n =>
          simp only [build, Except.ok.injEq] at he
          subst he
          rw [toParam] at h
          split at h
          · rename_i hn; cases h; exact hname n hn
          · cases h
        | prim n =>
          simp only [build, Except.ok.injEq] at he
          subst he
          simp [toParam, simpleLVal] at h
        | _ => rw [hk] at hprim; simp [E.isPrimitive] at hprim
      · cases h
    · cases hb
  | arr es =>
    rw [build] at hb
    split at hb
    · cases hb
      rw [toParam] at h
      split at h
      · cases h; rfl
      · cases h
    · cases hb
  | obj ps =>
    rw [build] at hb
    split at hb
    · cases hb
      rw [toParam] at h
      split at h
      · cases h; rfl
      · cases h
    · cases hb
  | assign => cases hn
  | arrPat es => exact absurd rfl (hpl es)
  | objPat ps => exact absurd rfl (hpo ps)
  | assignPat l r =>
    rw [build] at hb
    · cases hb; simp [toParam, simpleLVal] at h
    all_goals nofun

theorem not_acc_leaf {C : Cfg} {d : Bool} {e : E} (h : ∀ e', build C e = .ok e' → ∀ d,
    toParam C d false e' = .error .err) : ¬ Acc C d e := by
  rintro ⟨e', p, h1, h2⟩
  rw [h e' h1] at h2
  cases h2

mutual
theorem acc_iff (C : Cfg) (hC : Sane C) : ∀ (d lhs : Bool) (e : E), Plain C d lhs e →
    (Acc C d e ↔ Target C d true e)
  | d, lhs, .name n, h => acc_name
  | d, lhs, .prim n, h | d, lhs, .fn n, h | d, lhs, .other n, h | d, lhs, .yield n, h => by
    simp only [Target, iff_false]
    apply not_acc_leaf
    intro e' hb
    simp only [build, Except.ok.injEq] at hb
    subst hb
    simp [toParam, simpleLVal]
  | d, lhs, .await e, h | d, lhs, .un e, h => by
    simp only [Target, iff_false]
    apply not_acc_leaf
    intro e' hb
    rw [build] at hb
    split at hb
    · cases hb; simp [toParam, simpleLVal]
    · cases hb
  | d, lhs, .bin a b, h => by
    simp only [Target, iff_false]
    apply not_acc_leaf
    intro e' hb
    rw [build] at hb
    split at hb
    · split at hb
      · cases hb; simp [toParam, simpleLVal]
      · cases hb
    · cases hb
  | d, lhs, .member n, h => by
    simp only [Target]
    constructor
    · rintro ⟨e', p, h1, h2⟩
      simp only [build, Except.ok.injEq] at h1
      subst h1
      cases d
      · simp [toParam, simpleLVal] at h2
      · rfl
    · rintro rfl
      exact ⟨.member n, .member n, rfl, by simp [toParam, simpleLVal]⟩
  | d, lhs, .paren e, h => by
    simp only [Target]
    constructor
    · rintro ⟨e', p, h1, h2⟩
      rw [build] at h1
      split at h1
      · rename_i e1 he
        cases h1
        rw [toParam] at h2
        split at h2
        · rename_i hprim
          simp only [Bool.and_eq_true] at hprim
          refine ⟨hprim.1, ?_⟩
          have hk := (build_kind he).2.2
          cases e with
          | name n =>
            exact acc_name.1 ⟨_, _, he, h2⟩
          | prim n =>
            simp only [build, Except.ok.injEq] at he
            subst he
            simp [toParam, simpleLVal] at h2
          | _ => rw [hk] at hprim; simp [E.isPrimitive] at hprim
        · cases h2
      · cases h1
    · rintro ⟨rfl, hs⟩
      cases e with
      | name n =>
        obtain ⟨e', p, h1, h2⟩ := (acc_name (C := C) (d := true) (n := n)).2 hs
        refine ⟨.paren e', p, by rw [build, h1], ?_⟩
        simp only [build, Except.ok.injEq] at h1
        subst h1
        rw [toParam, if_pos (by rfl), h2]
      | member n => exact absurd h.1 (by simp [E.isMemberOrParen])
      | paren n => exact absurd h.1 (by simp [E.isMemberOrParen])
      | _ => cases hs
  | d, lhs, .arr es, h => by
    rw [acc_arr]; simp only [Target]; exact accElems_iff C hC d lhs es h
  | d, lhs, .obj ps, h => by
    rw [acc_obj]; simp only [Target]; exact accProps_iff C hC d lhs ps h
  | d, lhs, .assign plain l r, h => by
    have hraw : (∀ es, l ≠ .arrPat es) ∧ (∀ ps, l ≠ .objPat ps) := by
      refine ⟨?_, ?_⟩ <;> rintro x rfl <;> exact h.1
    have ih := acc_iff C hC true true l (Plain.mono C d l h.1)
    simp only [Target, true_and]
    rw [target_same C d false l h.1, target_init, ← ih]
    constructor
    · rintro ⟨e', p, h1, h2⟩
      rw [build] at h1
      split at h1
      · rename_i l' hl
        split at h1
        · rename_i r' hr
          split at h1
          · rename_i l2 ht
            cases h1
            obtain ⟨ht1, ht2⟩ := target_ok ht
            rw [toParam] at h2
            split at h2
            · cases h2
            · rename_i hpl
              refine ⟨by simpa using hpl, ⟨_, _, hl, ht1⟩, ?_⟩
              cases l with
              | assign p' a b =>
                exfalso
                have hs := ht2 rfl
                have hk := (build_kind hl).1
                cases l' with
                | assign p2 a2 b2 =>
                  rw [toParam] at ht1
                  split at ht1
                  · cases ht1
                  · split at ht1
                    · split at ht1
                      · cases ht1
                        simp [simpleLVal] at hs
                      · cases ht1
                    · cases ht1
                | _ => simp [E.kind] at hk
              | _ => rfl
          · cases h1
        · cases h1
      · cases h1
    · rintro ⟨hpl, ⟨l', p, hl, hp⟩, hna⟩
      obtain ⟨r', hr, hd⟩ := h.2
      have hs := first_pass_simple hC hna hraw.1 hraw.2 hl hp
      obtain ⟨p2, hp2⟩ := second_pass C hC d l l' p h.1 hna hl hp
      subst hpl
      refine ⟨.assign true p r', .assignPat p2 r', ?_, ?_⟩
      · rw [build, hl]
        simp only [hr]
        simp [target, hp, hs]
      · rw [toParam]
        simp [hp2, hd d]
  | d, lhs, .arrPat es, h | d, lhs, .objPat ps, h | d, lhs, .assignPat l r, h => h.elim
theorem accElems_iff (C : Cfg) (hC : Sane C) : ∀ (d lhs : Bool) (es : Elems), PlainElems C d lhs es →
    (AccElems C d es ↔ TargetElems C d es)
  | d, lhs, .nil, h => by
    simp only [TargetElems, iff_true]
    exact ⟨.nil, .nil, by rw [buildElems], by rw [toElems]⟩
  | d, lhs, .hole es, h => by
    simp only [TargetElems]
    rw [← accElems_iff C hC d lhs es h]
    constructor
    · rintro ⟨a, b, h1, h2⟩
      rw [buildElems] at h1
      split at h1
      · rename_i hb
        cases h1
        rw [toElems] at h2
        split at h2
        · rename_i hq
          exact ⟨_, _, hb, hq⟩
        · cases h2
      · cases h1
    · rintro ⟨a, b, h1, h2⟩
      exact ⟨.hole a, .hole b, by rw [buildElems, h1], by rw [toElems, h2]⟩
  | d, lhs, .cons e es, h => by
    simp only [TargetElems]
    rw [← accElems_iff C hC d lhs es h.2, ← acc_iff C hC d lhs e h.1]
    constructor
    · rintro ⟨a, b, h1, h2⟩
      rw [buildElems] at h1
      split at h1
      · rename_i hb
        split at h1
        · rename_i hbs
          cases h1
          rw [toElems] at h2
          split at h2
          · rename_i hq
            split at h2
            · rename_i hqs
              exact ⟨⟨_, _, hb, hq⟩, ⟨_, _, hbs, hqs⟩⟩
            · cases h2
          · cases h2
        · cases h1
      · cases h1
    · rintro ⟨⟨a, b, h1, h2⟩, ⟨as, bs, h3, h4⟩⟩
      exact ⟨.cons a as, .cons b bs, by rw [buildElems, h1]; simp [h3], by rw [toElems, h2]; simp [h4]⟩
  | d, lhs, .spread tc e es, h => by
    simp only [TargetElems]
    rw [target_init, ← acc_iff C hC d lhs e h.1]
    constructor
    · rintro ⟨a, b, h1, h2⟩
      rw [buildElems] at h1
      split at h1
      · rename_i e' hb
        split at h1
        · rename_i hbs
          cases h1
          rw [toElems] at h2
          split at h2
          · cases h2
          · rename_i htc
            have htc' : tc = false := by simpa using htc
            split at h2
            · rename_i hk
              rw [(build_kind hb).1] at hk
              split at h2
              · rename_i hq
                refine ⟨htc', h.2.2.2 htc', ⟨⟨_, _, hb, hq⟩, ?_⟩, ?_⟩
                · cases e <;> first | rfl | (simp [E.kind] at hk)
                · intro hl
                  rw [hl] at hk
                  simpa using hk
              · cases h2
            · cases h2
        · cases h1
      · cases h1
    · rintro ⟨rfl, rfl, ⟨hacc, hna⟩, hlit⟩
      have htar := (acc_iff C hC d lhs e h.1).1 hacc
      obtain ⟨a, b, h1, h2⟩ := hacc
      refine ⟨.spread false a .nil, .rest b .nil, by rw [buildElems, h1]; simp [buildElems], ?_⟩
      have hk : a.kind = .name ∨ (a.kind = .paren ∧ d = true) ∨ (a.kind = .lit ∧ C.nestedRest = true) := by
        rw [(build_kind h1).1]
        cases e with
        | name n => exact .inl rfl
        | paren e => exact .inr (.inl ⟨rfl, htar.1⟩)
        | arr es => exact .inr (.inr ⟨rfl, hlit rfl⟩)
        | obj ps => exact .inr (.inr ⟨rfl, hlit rfl⟩)
        | member n => exact absurd h.2.1 (by simp [E.isMember])
        | assign => cases hna
        | _ => cases htar
      rw [toElems, if_neg (by simp), if_pos hk, h2]
      simp [toElems]
  | d, lhs, .rest e es, h => h.elim
theorem accProps_iff (C : Cfg) (hC : Sane C) : ∀ (d lhs : Bool) (ps : Props), PlainProps C d lhs ps →
    (AccProps C d ps ↔ TargetProps C d ps)
  | d, lhs, .nil, h => by
    simp only [TargetProps, iff_true]
    exact ⟨.nil, .nil, by rw [buildProps], by rw [toProps]⟩
  | d, lhs, .short n ps, h => by
    simp only [TargetProps]
    rw [← accProps_iff C hC d lhs ps h, ← nameParam_ok]
    constructor
    · rintro ⟨a, b, h1, h2⟩
      rw [buildProps] at h1
      split at h1
      · rename_i hb
        cases h1
        rw [toProps] at h2
        split at h2
        · rename_i hn
          split at h2
          · rename_i hq
            exact ⟨hn, _, _, hb, hq⟩
          · cases h2
        · cases h2
      · cases h1
    · rintro ⟨hn, a, b, h1, h2⟩
      exact ⟨.short n a, .short n b, by rw [buildProps, h1], by rw [toProps, hn]; simp [h2]⟩
  | d, lhs, .kv k v ps, h => by
    simp only [TargetProps]
    rw [← accProps_iff C hC d lhs ps h.2.2]
    have ih := acc_iff C hC d lhs v h.1
    rw [← ih]
    constructor
    · rintro ⟨a, b, h1, h2⟩
      rw [buildProps] at h1
      split at h1
      · rename_i hb
        split at h1
        · rename_i hbs
          cases h1
          rw [toProps] at h2
          split at h2
          · cases h2
          · split at h2
            · rename_i hq
              split at h2
              · rename_i hqs
                exact ⟨⟨_, _, hb, hq⟩, ⟨_, _, hbs, hqs⟩⟩
              · cases h2
            · cases h2
        · cases h1
      · cases h1
    · rintro ⟨hacc, ⟨as, bs, h3, h4⟩⟩
      have htar := ih.1 hacc
      obtain ⟨a, b, h1, h2⟩ := hacc
      have hnf : a.isFn = false := by
        rw [(build_kind h1).2.1]
        cases v with
        | fn n => cases htar
        | _ => rfl
      exact ⟨.kv k a as, .kv k b bs, by rw [buildProps, h1]; simp [h3], by
        rw [toProps]; simp [hnf, h2, h4]⟩
  | d, lhs, .init n v ps, h => by
    simp only [TargetProps]
    rw [← accProps_iff C hC d lhs ps h.2.2, ← nameParam_ok]
    constructor
    · rintro ⟨a, b, h1, h2⟩
      rw [buildProps] at h1
      split at h1
      · rename_i hb
        split at h1
        · rename_i hbs
          cases h1
          rw [toProps] at h2
          split at h2
          · cases h2
          · split at h2
            · rename_i hn
              split at h2
              · split at h2
                · rename_i hqs
                  exact ⟨hn, ⟨_, _, hbs, hqs⟩⟩
                · cases h2
              · cases h2
            · cases h2
        · cases h1
      · cases h1
    · rintro ⟨hn, ⟨as, bs, h3, h4⟩⟩
      obtain ⟨r', hr, hd⟩ := h.2.1
      have hnf : r'.isFn = false := by rw [(build_kind hr).2.1]; exact h.1
      exact ⟨.init n r' as, .initPat (.name n) r' bs, by rw [buildProps, hr]; simp [h3], by
        rw [toProps]; simp [hnf, hn, hd d, h4]⟩
  | d, lhs, .initKey _ _ _, h | d, lhs, .initPat _ _ _, h | d, lhs, .rest _ _, h => h.elim
  | d, lhs, .bare k ps, h => by
    simp only [TargetProps, iff_false]
    rintro ⟨a, b, h1, h2⟩
    rw [buildProps] at h1
    split at h1
    · cases h1
      rw [toProps] at h2
      cases h2
    · cases h1
  | d, lhs, .spread tc e ps, h => by
    simp only [TargetProps]
    rw [target_init, ← acc_iff C hC d lhs e h.1]
    constructor
    · rintro ⟨a, b, h1, h2⟩
      rw [buildProps] at h1
      split at h1
      · rename_i e' hb
        split at h1
        · rename_i hbs
          cases h1
          rw [toProps] at h2
          split at h2
          · cases h2
          · rename_i htc
            have htc' : tc = false := by simpa using htc
            split at h2
            · rename_i hk
              rw [(build_kind hb).1] at hk
              split at h2
              · rename_i hq
                refine ⟨htc', h.2.2.2 htc', ⟨⟨_, _, hb, hq⟩, ?_⟩, ?_⟩
                · cases e <;> first | rfl | (simp [E.kind] at hk)
                · intro hl
                  rw [hl] at hk
                  simp at hk
              · cases h2
            · cases h2
        · cases h1
      · cases h1
    · rintro ⟨rfl, rfl, ⟨hacc, hna⟩, hlit⟩
      have htar := (acc_iff C hC d lhs e h.1).1 hacc
      obtain ⟨a, b, h1, h2⟩ := hacc
      refine ⟨.spread false a .nil, .rest b .nil, by rw [buildProps, h1]; simp [buildProps], ?_⟩
      have hk : a.kind = .name ∨ (a.kind = .paren ∧ d = true) := by
        rw [(build_kind h1).1]
        cases e with
        | name n => exact .inl rfl
        | paren e => exact .inr ⟨rfl, htar.1⟩
        | arr es => exact absurd rfl hlit
        | obj ps => exact absurd rfl hlit
        | member n => exact absurd h.2.1 (by simp [E.isMember])
        | assign => cases hna
        | _ => cases htar
      rw [toProps, if_neg (by simp), if_pos hk, h2]
      simp [toProps]
end

end Mole.Parser.Pat
