import Verif.Parser.PatternSpec
/-!
# Lemmas about `argToParam`
-/
namespace Mole.Parser.Pat
open Spec

mutual
theorem toParam_strip (C : Cfg) (d : Bool) : ∀ (top : Bool) (e p : E), toParam C d top e = .ok p → strip p = strip e
  | top, .name n, p, h => by
    rw [toParam] at h
    split at h
    · cases h; rfl
    · cases h
  | top, .prim n, p, h => by
    rw [toParam] at h
    split at h
    · cases h
    · split at h
      · cases h; rfl
      · cases h
    all_goals nofun
  | top, .member n, p, h => by
    rw [toParam] at h
    split at h
    · cases h
    · split at h
      · cases h; rfl
      · cases h
    all_goals nofun
  | top, .fn n, p, h => by
    rw [toParam] at h
    split at h
    · cases h
    · split at h
      · cases h; rfl
      · cases h
    all_goals nofun
  | top, .other n, p, h => by
    rw [toParam] at h
    split at h
    · cases h
    · split at h
      · cases h; rfl
      · cases h
    all_goals nofun
  | top, .yield n, p, h => by
    rw [toParam] at h
    split at h
    · cases h
    · split at h
      · cases h; rfl
      · cases h
    all_goals nofun
  | top, .await e, p, h => by
    rw [toParam] at h
    split at h
    · cases h
    · split at h
      · cases h; rfl
      · cases h
    all_goals nofun
  | top, .un e, p, h => by
    rw [toParam] at h
    split at h
    · cases h
    · split at h
      · cases h; rfl
      · cases h
    all_goals nofun
  | top, .bin a b, p, h => by
    rw [toParam] at h
    split at h
    · cases h
    · split at h
      · cases h; rfl
      · cases h
    all_goals nofun
  | top, .arrPat a, p, h => by
    rw [toParam] at h
    split at h
    · cases h
    · split at h
      · cases h; rfl
      · cases h
    all_goals nofun
  | top, .assignPat a b, p, h => by
    rw [toParam] at h
    split at h
    · cases h
    · split at h
      · cases h; rfl
      · cases h
    all_goals nofun
  | top, .paren e, p, h => by
    rw [toParam] at h
    split at h
    · rw [strip]; exact toParam_strip C d top e p h
    · cases h
  | top, .arr es, p, h => by
    rw [toParam] at h
    split at h
    · rename_i es' he
      cases h
      simp only [strip, toElems_strip C d es es' he]
    · cases h
  | top, .obj ps, p, h => by
    rw [toParam] at h
    split at h
    · rename_i ps' he
      cases h
      simp only [strip, toProps_strip C d ps ps' he]
    · cases h
  | top, .objPat ps, p, h => by
    rw [toParam] at h
    split at h
    · rename_i ps' he
      cases h
      simp only [strip, toProps_strip C d ps ps' he]
    · cases h
  | top, .assign plain l r, p, h => by
    rw [toParam] at h
    split at h
    · cases h
    · rename_i hp
      split at h
      · rename_i l' hl
        split at h
        · cases h
          have : plain = true := by simpa using hp
          simp only [strip, toParam_strip C d false l l' hl, this]
        · cases h
      · cases h
theorem toElems_strip (C : Cfg) (d : Bool) : ∀ es es', toElems C d es = .ok es' → stripElems es' = stripElems es
  | .nil, es', h => by
    rw [toElems] at h; cases h; rfl
  | .hole es, es', h => by
    rw [toElems] at h
    split at h
    · rename_i he
      cases h
      simp only [stripElems, toElems_strip C d _ _ he]
    · cases h
  | .cons e es, es', h => by
    rw [toElems] at h
    split at h
    · rename_i h1
      split at h
      · rename_i h2
        cases h
        simp only [stripElems, toElems_strip C d _ _ h2, toParam_strip C d _ _ _ h1]
      · cases h
    · cases h
  | .spread tc e es, es', h => by
    rw [toElems] at h
    split at h
    · cases h
    · rename_i htc
      split at h
      · split at h
        · rename_i h1
          split at h
          · rename_i h2
            cases h
            have : tc = false := by simpa using htc
            simp only [stripElems, toElems_strip C d _ _ h2, toParam_strip C d _ _ _ h1, this]
          · cases h
        · cases h
      · cases h
  | .rest e es, es', h => by
    rw [toElems] at h
    split at h
    · rename_i h2
      cases h
      simp only [stripElems, toElems_strip C d _ _ h2]
    · cases h
theorem toProps_strip (C : Cfg) (d : Bool) : ∀ ps ps', toProps C d ps = .ok ps' → stripProps ps' = stripProps ps
  | .nil, ps', h => by
    rw [toProps] at h; cases h; rfl
  | .short n ps, ps', h => by
    rw [toProps] at h
    split at h
    · split at h
      · rename_i h2
        cases h
        simp only [stripProps, toProps_strip C d _ _ h2]
      · cases h
    · cases h
  | .kv k v ps, ps', h => by
    rw [toProps] at h
    split at h
    · cases h
    · split at h
      · rename_i h1
        split at h
        · rename_i h2
          cases h
          simp only [stripProps, toProps_strip C d _ _ h2, toParam_strip C d _ _ _ h1]
        · cases h
      · cases h
  | .init n v ps, ps', h => by
    rw [toProps] at h
    split at h
    · cases h
    · split at h
      · split at h
        · split at h
          · rename_i h2
            cases h
            simp only [stripProps, toProps_strip C d _ _ h2, strip]
          · cases h
        · cases h
      · cases h
  | .initKey n v ps, ps', h => by
    rw [toProps] at h
    split at h
    · cases h
    · split at h
      · rename_i h1
        split at h
        · split at h
          · rename_i h2
            cases h
            simp only [stripProps, toProps_strip C d _ _ h2, toParam_strip C d _ _ _ h1]
          · cases h
        · cases h
      · cases h
  | .initPat n v ps, ps', h => by
    rw [toProps] at h
    split at h
    · rename_i h1
      split at h
      · split at h
        · rename_i h2
          cases h
          simp only [stripProps, toProps_strip C d _ _ h2, toParam_strip C d _ _ _ h1]
        · cases h
      · cases h
    · cases h
  | .bare k ps, ps', h => by
    rw [toProps] at h; cases h
  | .spread tc e ps, ps', h => by
    rw [toProps] at h
    split at h
    · cases h
    · rename_i htc
      split at h
      · split at h
        · rename_i h1
          split at h
          · rename_i h2
            cases h
            have : tc = false := by simpa using htc
            simp only [stripProps, toProps_strip C d _ _ h2, toParam_strip C d _ _ _ h1, this]
          · cases h
        · cases h
      · cases h
  | .rest e ps, ps', h => by
    rw [toProps] at h
    split at h
    · rename_i h2
      cases h
      simp only [stripProps, toProps_strip C d _ _ h2]
    · cases h
end

mutual
theorem bound_strip : ∀ e : E, bound (strip e) = bound e
  | .name _ | .prim _ | .member _ | .fn _ | .other _ | .yield _ => rfl
  | .await _ | .un _ | .bin _ _ => rfl
  | .paren e => by simp only [strip, bound, bound_strip e]
  | .arr es => by simp only [strip, bound, boundElems_strip es]
  | .obj ps => by simp only [strip, bound, boundProps_strip ps]
  | .assign p l r => by simp only [strip, bound, bound_strip l]
  | .arrPat es => by simp only [strip, bound, boundElems_strip es]
  | .objPat ps => by simp only [strip, bound, boundProps_strip ps]
  | .assignPat l r => by simp only [strip, bound, bound_strip l]
theorem boundElems_strip : ∀ es : Elems, boundElems (stripElems es) = boundElems es
  | .nil => rfl
  | .hole es => by simp only [stripElems, boundElems, boundElems_strip es]
  | .cons e es => by simp only [stripElems, boundElems, boundElems_strip es, bound_strip e]
  | .spread tc e es => by simp only [stripElems, boundElems, boundElems_strip es, bound_strip e]
  | .rest e es => by simp only [stripElems, boundElems, boundElems_strip es, bound_strip e]
theorem boundProps_strip : ∀ ps : Props, boundProps (stripProps ps) = boundProps ps
  | .nil => rfl
  | .short n ps => by simp only [stripProps, boundProps, boundProps_strip ps]
  | .kv k v ps => by simp only [stripProps, boundProps, boundProps_strip ps, bound_strip v]
  | .init n v ps => by simp [stripProps, boundProps, boundProps_strip ps, bound]
  | .initKey k v ps => by simp only [stripProps, boundProps, boundProps_strip ps, bound_strip k]
  | .initPat k v ps => by simp only [stripProps, boundProps, boundProps_strip ps, bound_strip k]
  | .bare k ps => by simp only [stripProps, boundProps, boundProps_strip ps]
  | .spread tc e ps => by simp only [stripProps, boundProps, boundProps_strip ps, bound_strip e]
  | .rest e ps => by simp only [stripProps, boundProps, boundProps_strip ps, bound_strip e]
end

mutual
/-- A pattern: no literal, assignment, spread or parenthesis is left in binding position. -/
def Conv : E → Prop
  | .arrPat es => ConvElems es
  | .objPat ps => ConvProps ps
  | .assignPat l _ => Conv l
  | .arr _ | .obj _ | .assign _ _ _ | .paren _ => False
  | _ => True
def ConvElems : Elems → Prop
  | .nil => True
  | .hole es => ConvElems es
  | .cons e es => Conv e ∧ ConvElems es
  | .spread _ _ _ => False
  | .rest e es => Conv e ∧ ConvElems es
def ConvProps : Props → Prop
  | .nil => True
  | .short _ ps => ConvProps ps
  | .kv _ v ps => Conv v ∧ ConvProps ps
  | .initPat k _ ps => Conv k ∧ ConvProps ps
  | .rest e ps => Conv e ∧ ConvProps ps
  | _ => False
end

mutual
theorem names_conv : ∀ e : E, Conv e → namesInPattern e = bound e
  | .name _, _ | .prim _, _ | .member _, _ | .fn _, _ | .other _, _ | .yield _, _ => rfl
  | .await _, _ | .un _, _ | .bin _ _, _ => rfl
  | .paren e, h | .arr es, h | .obj ps, h | .assign p l r, h => h.elim
  | .arrPat es, h => by simp only [namesInPattern, bound, namesElems_conv es h]
  | .objPat ps, h => by simp only [namesInPattern, bound, namesProps_conv ps h]
  | .assignPat l r, h => by simp only [namesInPattern, bound, names_conv l h]
theorem namesElems_conv : ∀ es : Elems, ConvElems es → namesInElems es = boundElems es
  | .nil, _ => rfl
  | .hole es, h => by simp only [namesInElems, boundElems, namesElems_conv es h]
  | .cons e es, h => by
    simp only [namesInElems, boundElems, namesElems_conv es h.2, names_conv e h.1]
  | .spread tc e es, h => h.elim
  | .rest e es, h => by
    simp only [namesInElems, boundElems, namesElems_conv es h.2, names_conv e h.1]
theorem namesProps_conv : ∀ ps : Props, ConvProps ps → namesInProps ps = boundProps ps
  | .nil, _ => rfl
  | .short n ps, h => by simp only [namesInProps, boundProps, namesProps_conv ps h]
  | .kv k v ps, h => by
    simp only [namesInProps, boundProps, namesProps_conv ps h.2, names_conv v h.1]
  | .init n v ps, h | .initKey k v ps, h | .bare k ps, h | .spread tc e ps, h => h.elim
  | .initPat k v ps, h => by
    simp only [namesInProps, boundProps, namesProps_conv ps h.2, names_conv k h.1]
  | .rest e ps, h => by
    simp only [namesInProps, boundProps, namesProps_conv ps h.2, names_conv e h.1]
end

mutual
/-- A tree the parser may hold: patterns in binding position are complete, as are left sides. -/
def Held : E → Prop
  | .paren e => Held e
  | .arr es => HeldElems es
  | .obj ps => HeldProps ps
  | .assign _ l _ => Conv l
  | .arrPat es => ConvElems es
  | .objPat ps => ConvProps ps
  | .assignPat l _ => Conv l
  | _ => True
def HeldElems : Elems → Prop
  | .nil => True
  | .hole es => HeldElems es
  | .cons e es => Held e ∧ HeldElems es
  | .spread _ e es => Held e ∧ HeldElems es
  | .rest e es => Conv e ∧ HeldElems es
def HeldProps : Props → Prop
  | .nil => True
  | .short _ ps => HeldProps ps
  | .kv _ v ps => Held v ∧ HeldProps ps
  | .init _ _ ps => HeldProps ps
  | .initKey k _ ps => Held k ∧ HeldProps ps
  | .initPat k _ ps => Conv k ∧ HeldProps ps
  | .bare _ ps => HeldProps ps
  | .spread _ e ps => Held e ∧ HeldProps ps
  | .rest e ps => Conv e ∧ HeldProps ps
end

mutual
theorem Conv.held : ∀ e : E, Conv e → Held e
  | .name _, _ | .prim _, _ | .member _, _ | .fn _, _ | .other _, _ | .yield _, _ => trivial
  | .await _, _ | .un _, _ | .bin _ _, _ => trivial
  | .paren e, h | .arr es, h | .obj ps, h | .assign p l r, h => h.elim
  | .arrPat es, h => h
  | .objPat ps, h => h
  | .assignPat l r, h => h
theorem ConvProps.held : ∀ ps : Props, ConvProps ps → HeldProps ps
  | .nil, _ => trivial
  | .short n ps, h => ConvProps.held ps h
  | .kv k v ps, h => ⟨Conv.held v h.1, ConvProps.held ps h.2⟩
  | .init n v ps, h | .initKey k v ps, h | .bare k ps, h | .spread tc e ps, h => h.elim
  | .initPat k v ps, h => ⟨h.1, ConvProps.held ps h.2⟩
  | .rest e ps, h => ⟨h.1, ConvProps.held ps h.2⟩
end

mutual
theorem toParam_conv (C : Cfg) (d : Bool) : ∀ (top : Bool) (e p : E), Held e → toParam C d top e = .ok p → Conv p
  | top, .name n, p, hh, h => by
    rw [toParam] at h
    split at h
    · cases h; trivial
    · cases h
  | top, .prim n, p, hh, h => by
    rw [toParam] at h
    split at h
    · cases h
    · split at h
      · cases h; trivial
      · cases h
    all_goals nofun
  | top, .member n, p, hh, h => by
    rw [toParam] at h
    split at h
    · cases h
    · split at h
      · cases h; trivial
      · cases h
    all_goals nofun
  | top, .fn n, p, hh, h => by
    rw [toParam] at h
    split at h
    · cases h
    · split at h
      · cases h; trivial
      · cases h
    all_goals nofun
  | top, .other n, p, hh, h => by
    rw [toParam] at h
    split at h
    · cases h
    · split at h
      · cases h; trivial
      · cases h
    all_goals nofun
  | top, .yield n, p, hh, h => by
    rw [toParam] at h
    split at h
    · cases h
    · split at h
      · cases h; trivial
      · cases h
    all_goals nofun
  | top, .await e, p, hh, h => by
    rw [toParam] at h
    split at h
    · cases h
    · split at h
      · cases h; trivial
      · cases h
    all_goals nofun
  | top, .un e, p, hh, h => by
    rw [toParam] at h
    split at h
    · cases h
    · split at h
      · cases h; trivial
      · cases h
    all_goals nofun
  | top, .bin a b, p, hh, h => by
    rw [toParam] at h
    split at h
    · cases h
    · split at h
      · cases h; trivial
      · cases h
    all_goals nofun
  | top, .arrPat a, p, hh, h => by
    rw [toParam] at h
    split at h
    · cases h
    · split at h
      · cases h; exact hh
      · cases h
    all_goals nofun
  | top, .assignPat a b, p, hh, h => by
    rw [toParam] at h
    split at h
    · cases h
    · split at h
      · cases h; exact hh
      · cases h
    all_goals nofun
  | top, .paren e, p, hh, h => by
    rw [toParam] at h
    split at h
    · exact toParam_conv C d top e p hh h
    · cases h
  | top, .arr es, p, hh, h => by
    rw [toParam] at h
    split at h
    · rename_i es' he
      cases h
      exact toElems_conv C d es es' hh he
    · cases h
  | top, .obj ps, p, hh, h => by
    rw [toParam] at h
    split at h
    · rename_i ps' he
      cases h
      exact toProps_conv C d ps ps' hh he
    · cases h
  | top, .objPat ps, p, hh, h => by
    rw [toParam] at h
    split at h
    · rename_i ps' he
      cases h
      exact toProps_conv C d ps ps' (ConvProps.held _ hh) he
    · cases h
  | top, .assign plain l r, p, hh, h => by
    rw [toParam] at h
    split at h
    · cases h
    · split at h
      · rename_i l' hl
        split at h
        · cases h
          exact toParam_conv C d false l l' (Conv.held _ hh) hl
        · cases h
      · cases h
theorem toElems_conv (C : Cfg) (d : Bool) : ∀ es es', HeldElems es → toElems C d es = .ok es' → ConvElems es'
  | .nil, es', hh, h => by
    rw [toElems] at h; cases h; trivial
  | .hole es, es', hh, h => by
    rw [toElems] at h
    split at h
    · rename_i he
      cases h
      have := toElems_conv C d es _ hh he
      exact this
    · cases h
  | .cons e es, es', hh, h => by
    rw [toElems] at h
    split at h
    · rename_i h1
      split at h
      · rename_i h2
        cases h
        exact ⟨toParam_conv C d _ _ _ hh.1 h1, toElems_conv C d _ _ hh.2 h2⟩
      · cases h
    · cases h
  | .spread tc e es, es', hh, h => by
    rw [toElems] at h
    split at h
    · cases h
    · split at h
      · split at h
        · rename_i h1
          split at h
          · rename_i h2
            cases h
            exact ⟨toParam_conv C d _ _ _ hh.1 h1, toElems_conv C d _ _ hh.2 h2⟩
          · cases h
        · cases h
      · cases h
  | .rest e es, es', hh, h => by
    rw [toElems] at h
    split at h
    · rename_i h2
      cases h
      exact ⟨hh.1, toElems_conv C d _ _ hh.2 h2⟩
    · cases h
theorem toProps_conv (C : Cfg) (d : Bool) : ∀ ps ps', HeldProps ps → toProps C d ps = .ok ps' → ConvProps ps'
  | .nil, ps', hh, h => by
    rw [toProps] at h; cases h; trivial
  | .short n ps, ps', hh, h => by
    rw [toProps] at h
    split at h
    · split at h
      · rename_i h2
        cases h
        have := toProps_conv C d ps _ hh h2
        exact this
      · cases h
    · cases h
  | .kv k v ps, ps', hh, h => by
    rw [toProps] at h
    split at h
    · cases h
    · split at h
      · rename_i h1
        split at h
        · rename_i h2
          cases h
          exact ⟨toParam_conv C d _ _ _ hh.1 h1, toProps_conv C d _ _ hh.2 h2⟩
        · cases h
      · cases h
  | .init n v ps, ps', hh, h => by
    rw [toProps] at h
    split at h
    · cases h
    · split at h
      · split at h
        · split at h
          · rename_i h2
            cases h
            exact ⟨trivial, toProps_conv C d ps _ hh h2⟩
          · cases h
        · cases h
      · cases h
  | .initKey n v ps, ps', hh, h => by
    rw [toProps] at h
    split at h
    · cases h
    · split at h
      · rename_i h1
        split at h
        · split at h
          · rename_i h2
            cases h
            exact ⟨toParam_conv C d _ _ _ hh.1 h1, toProps_conv C d _ _ hh.2 h2⟩
          · cases h
        · cases h
      · cases h
  | .initPat n v ps, ps', hh, h => by
    rw [toProps] at h
    split at h
    · rename_i h1
      split at h
      · split at h
        · rename_i h2
          cases h
          exact ⟨toParam_conv C d _ _ _ (Conv.held _ hh.1) h1, toProps_conv C d _ _ hh.2 h2⟩
        · cases h
      · cases h
    · cases h
  | .bare k ps, ps', hh, h => by
    rw [toProps] at h; cases h
  | .spread tc e ps, ps', hh, h => by
    rw [toProps] at h
    split at h
    · cases h
    · split at h
      · split at h
        · rename_i h1
          split at h
          · rename_i h2
            cases h
            exact ⟨toParam_conv C d _ _ _ hh.1 h1, toProps_conv C d _ _ hh.2 h2⟩
          · cases h
        · cases h
      · cases h
  | .rest e ps, ps', hh, h => by
    rw [toProps] at h
    split at h
    · rename_i h2
      cases h
      exact ⟨hh.1, toProps_conv C d _ _ hh.2 h2⟩
    · cases h
end

mutual
/-- Source text holds no pattern nodes. -/
def Raw : E → Prop
  | .await e => Raw e
  | .un e => Raw e
  | .bin a b => Raw a ∧ Raw b
  | .paren e => Raw e
  | .arr es => RawElems es
  | .obj ps => RawProps ps
  | .assign _ l r => Raw l ∧ Raw r
  | .arrPat _ | .objPat _ | .assignPat _ _ => False
  | _ => True
def RawElems : Elems → Prop
  | .nil => True
  | .hole es => RawElems es
  | .cons e es => Raw e ∧ RawElems es
  | .spread _ e es => Raw e ∧ RawElems es
  | .rest _ _ => False
def RawProps : Props → Prop
  | .nil => True
  | .short _ ps => RawProps ps
  | .kv _ v ps => Raw v ∧ RawProps ps
  | .init _ v ps => Raw v ∧ RawProps ps
  | .initKey k v ps => Raw k ∧ Raw v ∧ RawProps ps
  | .initPat _ _ _ => False
  | .bare _ ps => RawProps ps
  | .spread _ e ps => Raw e ∧ RawProps ps
  | .rest _ _ => False
end

theorem target_ok {C : Cfg} {chk plain : Bool} {l p : E} (h : target C chk plain l = .ok p) :
    toParam C true false l = .ok p ∧ (chk = true → simpleLVal C true (!plain) p = true) := by
  unfold target at h
  split at h
  · rename_i h1
    split at h
    · cases h
    · rename_i h2
      cases h
      refine ⟨h1, fun hc => ?_⟩
      simpa [hc] using h2
  · cases h

mutual
theorem build_held (C : Cfg) : ∀ e e' : E, Raw e → build C e = .ok e' → Held e' ∧ strip e' = strip e
  | .name _, e', hr, h | .prim _, e', hr, h | .member _, e', hr, h | .fn _, e', hr, h
  | .other _, e', hr, h | .yield _, e', hr, h => by
    simp only [build, Except.ok.injEq] at h
    subst h
    exact ⟨trivial, rfl⟩
  | .await e, e', hr, h => by
    rw [build] at h
    split at h
    · rename_i h1
      cases h
      exact ⟨trivial, by simp only [strip, (build_held C e _ hr h1).2]⟩
    · cases h
  | .un e, e', hr, h => by
    rw [build] at h
    split at h
    · rename_i h1
      cases h
      exact ⟨trivial, by simp only [strip, (build_held C e _ hr h1).2]⟩
    · cases h
  | .bin a b, e', hr, h => by
    rw [build] at h
    split at h
    · rename_i h1
      split at h
      · rename_i h2
        cases h
        exact ⟨trivial, by simp only [strip, (build_held C _ _ hr.1 h1).2, (build_held C _ _ hr.2 h2).2]⟩
      · cases h
    · cases h
  | .paren e, e', hr, h => by
    rw [build] at h
    split at h
    · rename_i h1
      cases h
      exact ⟨(build_held C e _ hr h1).1, by simp only [strip, (build_held C e _ hr h1).2]⟩
    · cases h
  | .arr es, e', hr, h => by
    rw [build] at h
    split at h
    · rename_i h1
      cases h
      exact ⟨(buildElems_held C _ _ hr h1).1, by simp only [strip, (buildElems_held C _ _ hr h1).2]⟩
    · cases h
  | .obj ps, e', hr, h => by
    rw [build] at h
    split at h
    · rename_i h1
      cases h
      exact ⟨(buildProps_held C _ _ hr h1).1, by simp only [strip, (buildProps_held C _ _ hr h1).2]⟩
    · cases h
  | .assign plain l r, e', hr, h => by
    rw [build] at h
    split at h
    · rename_i h1
      split at h
      · rename_i h2
        split at h
        · rename_i h3
          cases h
          have hl := build_held C _ _ hr.1 h1
          have ht := (target_ok h3).1
          refine ⟨toParam_conv C true false _ _ hl.1 ht, ?_⟩
          simp only [strip, (build_held C _ _ hr.2 h2).2, toParam_strip C true false _ _ ht, hl.2]
        · cases h
      · cases h
    · cases h
  | .arrPat es, e', hr, h | .objPat ps, e', hr, h | .assignPat l r, e', hr, h => hr.elim
theorem buildElems_held (C : Cfg) : ∀ es es' : Elems, RawElems es → buildElems C es = .ok es' →
    HeldElems es' ∧ stripElems es' = stripElems es
  | .nil, es', hr, h => by
    rw [buildElems] at h; cases h; exact ⟨trivial, rfl⟩
  | .hole es, es', hr, h => by
    rw [buildElems] at h
    split at h
    · rename_i h1
      cases h
      have := buildElems_held C es _ hr h1
      exact ⟨this.1, by simp only [stripElems, this.2]⟩
    · cases h
  | .cons e es, es', hr, h => by
    rw [buildElems] at h
    split at h
    · rename_i h1
      split at h
      · rename_i h2
        cases h
        have t1 := build_held C _ _ hr.1 h1
        have t2 := buildElems_held C _ _ hr.2 h2
        exact ⟨⟨t1.1, t2.1⟩, by simp only [stripElems, t1.2, t2.2]⟩
      · cases h
    · cases h
  | .spread tc e es, es', hr, h => by
    rw [buildElems] at h
    split at h
    · rename_i h1
      split at h
      · rename_i h2
        cases h
        have t1 := build_held C _ _ hr.1 h1
        have t2 := buildElems_held C _ _ hr.2 h2
        exact ⟨⟨t1.1, t2.1⟩, by simp only [stripElems, t1.2, t2.2]⟩
      · cases h
    · cases h
  | .rest e es, es', hr, h => hr.elim
theorem buildProps_held (C : Cfg) : ∀ ps ps' : Props, RawProps ps → buildProps C ps = .ok ps' →
    HeldProps ps' ∧ stripProps ps' = stripProps ps
  | .nil, ps', hr, h => by
    rw [buildProps] at h; cases h; exact ⟨trivial, rfl⟩
  | .short n ps, ps', hr, h => by
    rw [buildProps] at h
    split at h
    · rename_i h1
      cases h
      have := buildProps_held C ps _ hr h1
      exact ⟨this.1, by simp only [stripProps, this.2]⟩
    · cases h
  | .kv k v ps, ps', hr, h => by
    rw [buildProps] at h
    split at h
    · rename_i h1
      split at h
      · rename_i h2
        cases h
        have t1 := build_held C _ _ hr.1 h1
        have t2 := buildProps_held C _ _ hr.2 h2
        exact ⟨⟨t1.1, t2.1⟩, by simp only [stripProps, t1.2, t2.2]⟩
      · cases h
    · cases h
  | .init k v ps, ps', hr, h => by
    rw [buildProps] at h
    split at h
    · rename_i h1
      split at h
      · rename_i h2
        cases h
        have t1 := build_held C _ _ hr.1 h1
        have t2 := buildProps_held C _ _ hr.2 h2
        exact ⟨t2.1, by simp only [stripProps, t1.2, t2.2]⟩
      · cases h
    · cases h
  | .initKey k v ps, ps', hr, h => by
    rw [buildProps] at h
    split at h
    · rename_i h0
      split at h
      · rename_i h1
        split at h
        · rename_i h2
          cases h
          have t0 := build_held C _ _ hr.1 h0
          have t1 := build_held C _ _ hr.2.1 h1
          have t2 := buildProps_held C _ _ hr.2.2 h2
          exact ⟨⟨t0.1, t2.1⟩, by simp only [stripProps, t0.2, t1.2, t2.2]⟩
        · cases h
      · cases h
    · cases h
  | .initPat k v ps, ps', hr, h => hr.elim
  | .bare k ps, ps', hr, h => by
    rw [buildProps] at h
    split at h
    · rename_i h1
      cases h
      have := buildProps_held C ps _ hr h1
      exact ⟨this.1, by simp only [stripProps, this.2]⟩
    · cases h
  | .spread tc e ps, ps', hr, h => by
    rw [buildProps] at h
    split at h
    · rename_i h1
      split at h
      · rename_i h2
        cases h
        have t1 := build_held C _ _ hr.1 h1
        have t2 := buildProps_held C _ _ hr.2 h2
        exact ⟨⟨t1.1, t2.1⟩, by simp only [stripProps, t1.2, t2.2]⟩
      · cases h
    · cases h
  | .rest e ps, ps', hr, h => hr.elim
end

end Mole.Parser.Pat
