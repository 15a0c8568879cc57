import Verif.Parser.Pattern
/-!
# Specification of patterns

ECMA-262 13.15.5 (assignment patterns), 14.3.3 (binding patterns), 15.3 (arrow parameters).
-/
namespace Mole.Parser.Pat.Spec

/-- The name may not be bound or assigned here. -/
def Reserved (C : Cfg) (n : Nat) : Prop := C.checkName = true ∧ C.prohibited n = true

/-- A name, a member expression, or one of these in parentheses. -/
def Simple (C : Cfg) : E → Prop
  | .name n => ¬ Reserved C n
  | .member _ => True
  | .paren e => Simple C e
  | _ => False

mutual
/-- What may be assigned to (`d` true) or bound (`d` false); with `init`, a default value may follow.
Only assignment allows member expressions and parentheses. -/
def Target (C : Cfg) (d init : Bool) : E → Prop
  | .name n => ¬ Reserved C n
  | .member _ => d = true
  | .paren e => d = true ∧ Simple C e
  | .arr es => TargetElems C d es
  | .obj ps => TargetProps C d ps
  | .assign plain l _ => init = true ∧ plain = true ∧ Target C d false l
  | _ => False
/-- Elements of an array pattern: holes, targets with optional defaults, and at the very end, with
no comma behind, a rest element without default (a nested pattern if the feature is on). -/
def TargetElems (C : Cfg) (d : Bool) : Elems → Prop
  | .nil => True
  | .hole es => TargetElems C d es
  | .cons e es => Target C d true e ∧ TargetElems C d es
  | .spread tc e es => tc = false ∧ es = .nil ∧ Target C d false e ∧
      (e.kind = .lit → C.nestedRest = true)
  | .rest _ _ => False
/-- Properties of an object pattern: `a`, `k: target`, `a = default`, and at the very end a rest
element that is not itself a pattern. -/
def TargetProps (C : Cfg) (d : Bool) : Props → Prop
  | .nil => True
  | .short n ps => ¬ Reserved C n ∧ TargetProps C d ps
  | .kv _ v ps => Target C d true v ∧ TargetProps C d ps
  | .init n _ ps => ¬ Reserved C n ∧ TargetProps C d ps
  | .spread tc e ps => tc = false ∧ ps = .nil ∧ Target C d false e ∧ e.kind ≠ .lit
  | _ => False
end

mutual
/-- The names in binding position of an expression read as a pattern, from left to right. -/
def bound : E → List Nat
  | .name n => [n]
  | .paren e => bound e
  | .arr es => boundElems es
  | .obj ps => boundProps ps
  | .assign _ l _ => bound l
  | .arrPat es => boundElems es
  | .objPat ps => boundProps ps
  | .assignPat l _ => bound l
  | _ => []
def boundElems : Elems → List Nat
  | .nil => []
  | .hole es => boundElems es
  | .cons e es => bound e ++ boundElems es
  | .spread _ e es => bound e ++ boundElems es
  | .rest e es => bound e ++ boundElems es
def boundProps : Props → List Nat
  | .nil => []
  | .short n ps => n :: boundProps ps
  | .kv _ v ps => bound v ++ boundProps ps
  | .init n _ ps => n :: boundProps ps
  | .initKey k _ ps => bound k ++ boundProps ps
  | .initPat k _ ps => bound k ++ boundProps ps
  | .bare _ ps => boundProps ps
  | .spread _ e ps => bound e ++ boundProps ps
  | .rest e ps => bound e ++ boundProps ps
end

mutual
/-- The expression with pattern nodes turned back into the literals, assignments and spreads they
stand for, and without parentheses. -/
def strip : E → E
  | .await e => .await (strip e)
  | .un e => .un (strip e)
  | .bin a b => .bin (strip a) (strip b)
  | .paren e => strip e
  | .arr es => .arr (stripElems es)
  | .obj ps => .obj (stripProps ps)
  | .assign p l r => .assign p (strip l) (strip r)
  | .arrPat es => .arr (stripElems es)
  | .objPat ps => .obj (stripProps ps)
  | .assignPat l r => .assign true (strip l) (strip r)
  | e => e
def stripElems : Elems → Elems
  | .nil => .nil
  | .hole es => .hole (stripElems es)
  | .cons e es => .cons (strip e) (stripElems es)
  | .spread tc e es => .spread tc (strip e) (stripElems es)
  | .rest e es => .spread false (strip e) (stripElems es)
def stripProps : Props → Props
  | .nil => .nil
  | .short n ps => .short n (stripProps ps)
  | .kv k v ps => .kv k (strip v) (stripProps ps)
  | .init n v ps => .initKey (.name n) (strip v) (stripProps ps)
  | .initKey k v ps => .initKey (strip k) (strip v) (stripProps ps)
  | .initPat k v ps => .initKey (strip k) (strip v) (stripProps ps)
  | .bare k ps => .bare k (stripProps ps)
  | .spread tc e ps => .spread tc (strip e) (stripProps ps)
  | .rest e ps => .spread false (strip e) (stripProps ps)
end

end Mole.Parser.Pat.Spec
