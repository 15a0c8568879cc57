import Verif.Parser.Pattern
/-!
# Model of the checks on object literals

An object literal is read before it is known whether it is one or a pattern (parser.go 6049-6146), so what only a pattern
may have, `{a = 1}`, and what only a literal may not, `{__proto__: 1, __proto__: 2}`, is checked later, by `checkArg`
(5243-5325), which some of the callers of `assignExpr` run on its result and others do not.

The trees are those of `Verif.Parser.Pattern`; `kv 0 v` is `__proto__: v` (the key a name or a string, not computed), other
keys and methods have other numbers.
-/
namespace Mole.Parser.Pat

/-- Why an expression is refused: for a default (`ERR_SHORTHAND_PROP_ASSIGN_NOT_IN_DESTRUCT`), for a second `__proto__`
(`ERR_REDEF_PROP`), or for something else. -/
inductive Why where
  | dflt | proto | other (x : PErr)
  deriving DecidableEq, Repr

/-- The other errors. -/
def lift {α : Type} : Except PErr α → Except Why α
  | .ok a => .ok a
  | .error x => .error (.other x)

mutual
/-- parser.go:5243-5325 `checkArg`; `N` is `SPK_NOT_IN` of the scope, `si` is `simplicity`. -/
def scan (C : Cfg) (N si : Bool) : E → Except Why Unit
  | .obj ps => scanProps C N false ps
  | .paren e => scan C N si e
  | .arr es => scanElems C N si es
  | .assign plain l _ => if si && !plain && !simpleLVal C true true l then .error (.other .err) else .ok ()
  | _ => .ok ()
/-- parser.go:5302-5310. -/
def scanElems (C : Cfg) (N si : Bool) : Elems → Except Why Unit
  | .nil => .ok ()
  | .hole es => scanElems C N si es
  | .cons e es => match scan C N si e with
    | .ok _ => scanElems C N si es
    | .error x => .error x
  | .spread _ _ es => scanElems C N si es
  | .rest _ es => scanElems C N si es
/-- parser.go:5253-5289; `seen` is `hasProto`. -/
def scanProps (C : Cfg) (N seen : Bool) : Props → Except Why Unit
  | .nil => .ok ()
  | .short _ ps => scanProps C N seen ps
  | .kv k v ps => match scan C N false v with
    | .ok _ => if k = 0 then if seen then .error .proto else scanProps C N true ps else scanProps C N seen ps
    | .error x => .error x
  | .init _ v ps => if N then match scan C N false v with
      | .ok _ => scanProps C N seen ps
      | .error x => .error x
    else .error .dflt
  | .initKey _ v ps => if N then match scan C N false v with
      | .ok _ => scanProps C N seen ps
      | .error x => .error x
    else .error .dflt
  | .initPat _ _ ps => if N then scanProps C N seen ps else .error .dflt
  | .bare k ps => if k = 0 then if seen then .error .proto else scanProps C N true ps else scanProps C N seen ps
  | .spread _ _ ps => scanProps C N seen ps
  | .rest _ ps => scanProps C N seen ps
end

/-- parser.go:5888 and 5929: `(e)` with no `=>` behind, `e` as it has been read: what the trial has left of it is checked. -/
def shut (C : Cfg) (N : Bool) (e : E) : Except Why E :=
  match toParams C (.cons e .nil) with
  | .error .panic => .error (.other .panic)
  | _ => match scan C N true (residue C false e) with
    | .ok _ => .ok (.paren (residue C false e))
    | .error x => .error x

mutual
/-- An expression, given as it is written, is read by `assignExpr` (parser.go:4072-4138); `chk` is `checkLhs`.  Parentheses are
parenExpr 5860-5956, which opens a scope; array literals 5971-6014, object literals 6049-6146. -/
def readE (C : Cfg) (N chk : Bool) : E → Except Why E
  | .await e => match readE C N true e with
    | .ok e' => .ok (.await e')
    | .error x => .error x
  | .un e => match readE C N true e with
    | .ok e' => .ok (.un e')
    | .error x => .error x
  | .bin a b => match readE C N true a with
    | .ok a' => match readE C N true b with
      | .ok b' => .ok (.bin a' b')
      | .error x => .error x
    | .error x => .error x
  | .paren e => match readE C false false e with
    | .ok e' => shut C N e'
    | .error x => .error x
  | .arr es => match readElems C N es with
    | .ok es' => .ok (.arr es')
    | .error x => .error x
  | .obj ps => match readProps C N ps with
    | .ok ps' => .ok (.obj ps')
    | .error x => .error x
  | .assign plain l r => match readE C N chk l with
    | .ok l' => match readE C N chk r with
      | .ok r' => match target C chk plain l' with
        | .ok l'' => match scan C N false r' with
          | .ok _ => .ok (.assign plain l'' r')
          | .error x => .error x
        | .error x => .error (.other x)
      | .error x => .error x
    | .error x => .error x
  | e => .ok e
/-- parser.go:6008-6044 (arrElem, spread). -/
def readElems (C : Cfg) (N : Bool) : Elems → Except Why Elems
  | .nil => .ok .nil
  | .hole es => match readElems C N es with
    | .ok es' => .ok (.hole es')
    | .error x => .error x
  | .cons e es => match readE C N true e with
    | .ok e' => match readElems C N es with
      | .ok es' => .ok (.cons e' es')
      | .error x => .error x
    | .error x => .error x
  | .spread tc e es => match readE C N true e with
    | .ok e' => match readElems C N es with
      | .ok es' => .ok (.spread tc e' es')
      | .error x => .error x
    | .error x => .error x
  | .rest e es => match readElems C N es with
    | .ok es' => .ok (.rest e es')
    | .error x => .error x
/-- parser.go:6081-6146 (objProp, propData). -/
def readProps (C : Cfg) (N : Bool) : Props → Except Why Props
  | .nil => .ok .nil
  | .short n ps => match readProps C N ps with
    | .ok ps' => .ok (.short n ps')
    | .error x => .error x
  | .kv k v ps => match readE C N true v with
    | .ok v' => match readProps C N ps with
      | .ok ps' => .ok (.kv k v' ps')
      | .error x => .error x
    | .error x => .error x
  | .init n v ps => match readE C N true v with
    | .ok v' => match readProps C N ps with
      | .ok ps' => .ok (.init n v' ps')
      | .error x => .error x
    | .error x => .error x
  | .initKey k v ps => match readE C N true k with
    | .ok k' => match readE C N true v with
      | .ok v' => match readProps C N ps with
        | .ok ps' => .ok (.initKey k' v' ps')
        | .error x => .error x
      | .error x => .error x
    | .error x => .error x
  | .initPat k v ps => match readProps C N ps with
    | .ok ps' => .ok (.initPat k v ps')
    | .error x => .error x
  | .bare k ps => match readProps C N ps with
    | .ok ps' => .ok (.bare k ps')
    | .error x => .error x
  | .spread tc e ps => match readE C N true e with
    | .ok e' => match readProps C N ps with
      | .ok ps' => .ok (.spread tc e' ps')
      | .error x => .error x
    | .error x => .error x
  | .rest e ps => match readProps C N ps with
    | .ok ps' => .ok (.rest e ps')
    | .error x => .error x
end

/-- Where an expression stands: a statement or whatever else `expr` reads (3988-4029), up to the first comma there; behind that
comma; the initializer of a variable (3245), also the value of `export default` (529), an arrow function's expression body (5842),
the right side of `for … of` (2394) and the argument of `yield` (4064); an argument of a call (5406); the default of
a parameter or of a binding (3478, 3910); before the first `;` of `for` (2324); before its `of` or `in` (2347-2361). -/
inductive Site where
  | stmt | comma | init | arg | dflt | forInit | forTarget
  deriving DecidableEq, Repr

/-- The expression is read and, at some sites, checked. -/
def take (C : Cfg) (N chk : Bool) (check : Option Bool) (e : E) : Except Why E :=
  match readE C N chk e with
  | .ok e' => match check with
    | none => .ok e'
    | some si => match scan C N si e' with
      | .ok _ => .ok e'
      | .error x => .error x
  | .error x => .error x

/-- The expression at a site: what is read, or why it is refused. -/
def readAt (C : Cfg) (e : E) : Site → Except Why E
  | .stmt => take C false true (some true) e
  | .comma => take C false true none e
  | .init => take C false true none e
  | .arg => take C false false (some false) e
  | .dflt => take C false true (some false) e
  | .forInit => take C true true (some true) e
  | .forTarget => match take C true true (some true) e with
    | .ok e' => if simpleLVal C true false e' then
        match e' with
        | .obj _ | .arr _ => lift (toParam C true true e')
        | _ => .ok e'
      else .error (.other .err)
    | .error x => .error x

end Mole.Parser.Pat
