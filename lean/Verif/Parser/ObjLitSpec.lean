import Verif.Parser.Pattern
/-!
# Which object literals are some (specification)

ECMA-262, 13.2.5.1: a property `a = v` is an error in an object literal, and so are two properties `__proto__: v`; neither is in
an object pattern, which is what the left side of `=` is read as (13.15.1, 13.15.5).  A key that is no name, alone or with a
default, is in neither.
-/
namespace Mole.Parser.Pat

/-- How many properties are `__proto__: v`. -/
def protos : Props → Nat
  | .nil => 0
  | .kv k _ ps => (if k = 0 then 1 else 0) + protos ps
  | .bare k ps => (if k = 0 then 1 else 0) + protos ps
  | .short _ ps | .init _ _ ps | .initKey _ _ ps | .initPat _ _ ps | .spread _ _ ps | .rest _ ps => protos ps

mutual
/-- An expression as it is written (no patterns in it) has no object literal in it that is none; with `t`, the expression is
itself what is assigned to, and its literals are patterns. -/
def Fine (t : Bool) : E → Prop
  | .await e | .un e | .paren e => Fine false e
  | .bin a b => Fine false a ∧ Fine false b
  | .arr es => FineElems t es
  | .obj ps => FineProps t ps ∧ (t = false → protos ps ≤ 1)
  | .assign plain l r => Fine plain l ∧ Fine false r
  | .name _ | .prim _ | .member _ | .fn _ | .other _ | .yield _ => True
  | .arrPat _ | .objPat _ | .assignPat _ _ => False
def FineElems (t : Bool) : Elems → Prop
  | .nil => True
  | .hole es => FineElems t es
  | .cons e es | .spread _ e es => Fine t e ∧ FineElems t es
  | .rest _ _ => False
def FineProps (t : Bool) : Props → Prop
  | .nil => True
  | .short _ ps => FineProps t ps
  | .kv _ v ps => Fine t v ∧ FineProps t ps
  | .init _ v ps => t = true ∧ Fine false v ∧ FineProps t ps
  | .spread _ e ps => Fine t e ∧ FineProps t ps
  | .initKey _ _ _ | .initPat _ _ _ | .bare _ _ | .rest _ _ => False
end

mutual
/-- What is wrong in the expression is in none of these places: the operand of an operator or of `...`; a property of a
parenthesised object literal (`p`); the default of a property of a pattern; a key that is no name without `:`; the left side of
a compound assignment. -/
def Open (p t : Bool) : E → Prop
  | .await e | .un e => Fine false e
  | .bin a b => Fine false a ∧ Fine false b
  | .paren e => Open true false e
  | .arr es => OpenElems p t es
  | .obj ps => OpenProps p t ps
  | .assign plain l r => (if plain then Open false true l else Fine false l) ∧ Open false false r
  | .name _ | .prim _ | .member _ | .fn _ | .other _ | .yield _ => True
  | .arrPat _ | .objPat _ | .assignPat _ _ => False
def OpenElems (p t : Bool) : Elems → Prop
  | .nil => True
  | .hole es => OpenElems p t es
  | .cons e es => Open p t e ∧ OpenElems p t es
  | .spread _ e es => (if t then Open p t e else Fine false e) ∧ OpenElems p t es
  | .rest _ _ => False
def OpenProps (p t : Bool) : Props → Prop
  | .nil => True
  | .short _ ps => OpenProps p t ps
  | .kv _ v ps => (if p && !t then Fine false v else Open p t v) ∧ OpenProps p t ps
  | .init _ v ps => (if t then Fine false v else True) ∧ OpenProps p t ps
  | .initKey _ _ ps => t = false ∧ OpenProps p t ps
  | .bare _ ps => t = true ∧ OpenProps p t ps
  | .spread _ e ps => (if t then Open p t e else Fine false e) ∧ OpenProps p t ps
  | .initPat _ _ _ | .rest _ _ => False
end

end Mole.Parser.Pat
