/-!
# Model of the reinterpretation of expressions as patterns

ecma/parser/parser.go: `argToParam` 4934-5220, `argsToParams` 4829-4842, `checkDefaultVal`
4845-4923, `isPrimitive` 4925-4931, `isSimpleLVal` 4145-4179, the use of these in `assignExpr`
4124-4132, `namesInPattern` 2900-2957, `checkParams` 2865-2897.

Simplifications: TypeScript nodes, type annotations and source ranges are left out, hence also the
`inParen` flag, which only they consult; `depth` is only asked whether it is 0; `checkArg`, which
`assignExpr` has already run on the same right side, is left out; conditional and update
expressions in default values stand with the unary and binary ones; the in-place update of the
converted properties is modelled apart, in `residue`.
-/
namespace Mole.Parser.Pat

mutual
/-- ecma/parser/ast.go: the nodes `argToParam` tells apart.  `prim` is a number, boolean or regexp
literal, `other` any expression that is none of the listed ones (call, string literal, …). -/
inductive E where
  | name (n : Nat)
  | prim (id : Nat)
  | member (id : Nat)
  | fn (id : Nat)
  | other (id : Nat)
  | yield (id : Nat)
  | await (e : E)
  | un (e : E)
  | bin (a b : E)
  | paren (e : E)
  | arr (es : Elems)
  | obj (ps : Props)
  | assign (plain : Bool) (l r : E)
  | arrPat (es : Elems)
  | objPat (ps : Props)
  | assignPat (l r : E)
/-- Elements of an array literal, or arguments; `spread tc e` is `...e`, `tc` telling whether a comma
follows (parser.go:6039-6042), `rest` the `RestPat` it becomes. -/
inductive Elems where
  | nil
  | hole (es : Elems)
  | cons (e : E) (es : Elems)
  | spread (tc : Bool) (e : E) (es : Elems)
  | rest (e : E) (es : Elems)
/-- Properties of an object literal (parser.go:6102-6148): `a`, `k: v` (also methods, `v` being a
function), `a = v`, `[k] = v` or `5 = v` (any other key), `5` (a key that is no name, without a
value), `...e`; `initPat` is the
property whose value has become an `AssignPat`. -/
inductive Props where
  | nil
  | short (n : Nat) (ps : Props)
  | kv (k : Nat) (v : E) (ps : Props)
  | init (n : Nat) (v : E) (ps : Props)
  | initKey (k : E) (v : E) (ps : Props)
  | initPat (k : E) (v : E) (ps : Props)
  | bare (k : Nat) (ps : Props)
  | spread (tc : Bool) (e : E) (ps : Props)
  | rest (e : E) (ps : Props)
end

/-- The parser state consulted: `checkName`, `isProhibitedName` with and without `lVal`
(parser.go:3272-3285), the name test of `isSimpleLVal`, the scope being a generator's, and
`FEAT_BINDING_REST_ELEM_NESTED`. -/
structure Cfg where
  checkName : Bool
  prohibited : Nat → Bool
  prohibitedVal : Nat → Bool
  badTarget : Nat → Bool
  gen : Bool
  nestedRest : Bool

/-- A syntax error, or a run-time panic (nil interface). -/
inductive PErr where
  | err | panic
  deriving DecidableEq, Repr

mutual
/-- parser.go:4845-4923 `checkDefaultVal`; `d` is `destruct`, also passed as `yield`.  Nodes without a
case are fine. -/
def checkDef (C : Cfg) (d : Bool) : E → Except PErr Unit
  | .name n => if C.checkName && C.prohibitedVal n then .error .err else .ok ()
  | .yield _ => if d && C.gen then .ok () else .error .err
  | .await e => if d then checkDef C d e else .error .err
  | .un e => checkDef C d e
  | .bin a b => match checkDef C d a with
    | .ok _ => checkDef C d b
    | .error x => .error x
  | .paren e => checkDef C d e
  | .arr es => checkDefElems C d es
  | .obj ps => checkDefProps C d ps
  | .assignPat l r => match checkDef C d l with
    | .ok _ => checkDef C d r
    | .error x => .error x
  | _ => .ok ()
/-- parser.go:4893-4899; a hole is a nil node, on which `val.Type()` panics. -/
def checkDefElems (C : Cfg) (d : Bool) : Elems → Except PErr Unit
  | .nil => .ok ()
  | .hole _ => .error .panic
  | .cons e es => match checkDef C d e with
    | .ok _ => checkDefElems C d es
    | .error x => .error x
  | .spread _ e es => match checkDef C d e with
    | .ok _ => checkDefElems C d es
    | .error x => .error x
  | .rest _ es => checkDefElems C d es
/-- parser.go:4900-4911; a property without a value panics alike. -/
def checkDefProps (C : Cfg) (d : Bool) : Props → Except PErr Unit
  | .nil => .ok ()
  | .short n ps => if C.checkName && C.prohibitedVal n then .error .err else checkDefProps C d ps
  | .kv _ v ps => match checkDef C d v with
    | .ok _ => checkDefProps C d ps
    | .error x => .error x
  | .init _ v ps => match checkDef C d v with
    | .ok _ => checkDefProps C d ps
    | .error x => .error x
  | .initKey _ v ps => match checkDef C d v with
    | .ok _ => checkDefProps C d ps
    | .error x => .error x
  | .initPat k v ps => match checkDef C d k with
    | .ok _ => match checkDef C d v with
      | .ok _ => checkDefProps C d ps
      | .error x => .error x
    | .error x => .error x
  | .bare _ _ => .error .panic
  | .spread _ e ps => match checkDef C d e with
    | .ok _ => checkDefProps C d ps
    | .error x => .error x
  | .rest _ ps => checkDefProps C d ps
end

/-- parser.go:4925-4931 `isPrimitive`. -/
def E.isPrimitive : E → Bool
  | .name _ | .prim _ => true
  | _ => false

/-- parser.go:4145-4179 `isSimpleLVal` with `pat` true. -/
def simpleLVal (C : Cfg) (member opAssign : Bool) : E → Bool
  | .name n => !C.badTarget n
  | .arr _ | .obj _ | .arrPat _ | .objPat _ => !opAssign
  | .member _ => member
  | .paren e => simpleLVal C false opAssign e
  | _ => false

/-- parser.go:5072-5079: the case `N_NAME`. -/
def nameParam (C : Cfg) (n : Nat) : Except PErr Unit :=
  if C.checkName && C.prohibited n then .error .err else .ok ()

/-- The kinds of node the case `N_SPREAD` tells apart. -/
inductive Kind where
  | name | assign | paren | lit | other
  deriving DecidableEq

def E.kind : E → Kind
  | .name _ => .name
  | .assign _ _ _ => .assign
  | .paren _ => .paren
  | .arr _ | .obj _ => .lit
  | _ => .other

def E.isFn : E → Bool
  | .fn _ => true
  | _ => false

mutual
/-- parser.go:4934-5220 `argToParam`; `d` is `destruct`, `top` is `depth == 0`. -/
def toParam (C : Cfg) (d top : Bool) : E → Except PErr E
  | .arr es => match toElems C d es with
    | .ok es' => .ok (.arrPat es')
    | .error x => .error x
  | .obj ps => match toProps C d ps with
    | .ok ps' => .ok (.objPat ps')
    | .error x => .error x
  | .objPat ps => match toProps C d ps with
    | .ok ps' => .ok (.objPat ps')
    | .error x => .error x
  | .assign plain l r =>
    if !plain then .error .err else
    match toParam C d false l with
    | .ok l' => match checkDef C d r with
      | .ok _ => .ok (.assignPat l' r)
      | .error x => .error x
    | .error x => .error x
  | .name n => match nameParam C n with
    | .ok _ => .ok (.name n)
    | .error x => .error x
  | .paren e => if d && e.isPrimitive then toParam C d top e else .error .err
  | e => if top then .error .err else if simpleLVal C d false e then .ok e else .error .err
/-- parser.go:4945-4952 and 4831-4840: one element after the other; 5082-5146: the case `N_SPREAD`
outside an object. -/
def toElems (C : Cfg) (d : Bool) : Elems → Except PErr Elems
  | .nil => .ok .nil
  | .hole es => match toElems C d es with
    | .ok es' => .ok (.hole es')
    | .error x => .error x
  | .cons e es => match toParam C d false e with
    | .ok e' => match toElems C d es with
      | .ok es' => .ok (.cons e' es')
      | .error x => .error x
    | .error x => .error x
  | .spread tc e es =>
    if tc then .error .err
    else if e.kind = .name ∨ (e.kind = .paren ∧ d = true) ∨ (e.kind = .lit ∧ C.nestedRest = true) then
      match toParam C d false e with
      | .ok e' => match toElems C d es with
        | .ok es' => .ok (.rest e' es')
        | .error x => .error x
      | .error x => .error x
    else .error .err
  | .rest e es => match toElems C d es with
    | .ok es' => .ok (.rest e es')
    | .error x => .error x
/-- parser.go:4963-4969: one property after the other; 4986-5038: the case `N_PROP` (a function is
refused at 4990, a property without value at 5011); 5082-5146 in an object, where a converted
literal is refused at 5124. -/
def toProps (C : Cfg) (d : Bool) : Props → Except PErr Props
  | .nil => .ok .nil
  | .short n ps => match nameParam C n with
    | .ok _ => match toProps C d ps with
      | .ok ps' => .ok (.short n ps')
      | .error x => .error x
    | .error x => .error x
  | .kv k v ps =>
    if v.isFn then .error .err else
    match toParam C d false v with
    | .ok v' => match toProps C d ps with
      | .ok ps' => .ok (.kv k v' ps')
      | .error x => .error x
    | .error x => .error x
  | .init n v ps =>
    if v.isFn then .error .err else
    match nameParam C n with
    | .ok _ => match checkDef C d v with
      | .ok _ => match toProps C d ps with
        | .ok ps' => .ok (.initPat (.name n) v ps')
        | .error x => .error x
      | .error x => .error x
    | .error x => .error x
  | .initKey k v ps =>
    if v.isFn then .error .err else
    match toParam C d false k with
    | .ok k' => match checkDef C d v with
      | .ok _ => match toProps C d ps with
        | .ok ps' => .ok (.initPat k' v ps')
        | .error x => .error x
      | .error x => .error x
    | .error x => .error x
  | .initPat k v ps =>
    match toParam C d false k with
    | .ok k' => match checkDef C d (.assignPat k v) with
      | .ok _ => match toProps C d ps with
        | .ok ps' => .ok (.initPat k' v ps')
        | .error x => .error x
      | .error x => .error x
    | .error x => .error x
  | .bare _ _ => .error .err
  | .spread tc e ps =>
    if tc then .error .err
    else if e.kind = .name ∨ (e.kind = .paren ∧ d = true) then
      match toParam C d false e with
      | .ok e' => match toProps C d ps with
        | .ok ps' => .ok (.rest e' ps')
        | .error x => .error x
      | .error x => .error x
    else .error .err
  | .rest e ps => match toProps C d ps with
    | .ok ps' => .ok (.rest e ps')
    | .error x => .error x
end

/-- parser.go:4829-4842 `argsToParams`: the arguments, each at depth 0. -/
def toParams (C : Cfg) : Elems → Except PErr Elems
  | .nil => .ok .nil
  | .hole es => match toParams C es with
    | .ok es' => .ok (.hole es')
    | .error x => .error x
  | .cons e es => match toParam C false true e with
    | .ok e' => match toParams C es with
      | .ok es' => .ok (.cons e' es')
      | .error x => .error x
    | .error x => .error x
  | .spread tc e es =>
    if tc then .error .err
    else if e.kind = .name ∨ (e.kind = .lit ∧ C.nestedRest = true) then
      match toParam C false true e with
      | .ok e' => match toParams C es with
        | .ok es' => .ok (.rest e' es')
        | .error x => .error x
      | .error x => .error x
    else .error .err
  | .rest e es => match toParams C es with
    | .ok es' => .ok (.rest e es')
    | .error x => .error x

/-- parser.go:4122-4130: what `assignExpr` makes of a left side; `chk` is `checkLhs`. -/
def target (C : Cfg) (chk plain : Bool) (l : E) : Except PErr E :=
  match toParam C true false l with
  | .ok l' => if chk && !simpleLVal C true (!plain) l' then .error .err else .ok l'
  | .error x => .error x

mutual
/-- The tree the parser holds for an expression as written: every left side has been through
`target` when its assignment was read (parser.go:4072-4132). -/
def build (C : Cfg) : E → Except PErr E
  | .await e => match build C e with
    | .ok e' => .ok (.await e')
    | .error x => .error x
  | .un e => match build C e with
    | .ok e' => .ok (.un e')
    | .error x => .error x
  | .bin a b => match build C a with
    | .ok a' => match build C b with
      | .ok b' => .ok (.bin a' b')
      | .error x => .error x
    | .error x => .error x
  | .paren e => match build C e with
    | .ok e' => .ok (.paren e')
    | .error x => .error x
  | .arr es => match buildElems C es with
    | .ok es' => .ok (.arr es')
    | .error x => .error x
  | .obj ps => match buildProps C ps with
    | .ok ps' => .ok (.obj ps')
    | .error x => .error x
  | .assign plain l r => match build C l with
    | .ok l' => match build C r with
      | .ok r' => match target C true plain l' with
        | .ok l'' => .ok (.assign plain l'' r')
        | .error x => .error x
      | .error x => .error x
    | .error x => .error x
  | e => .ok e
/-- The elements of an array literal. -/
def buildElems (C : Cfg) : Elems → Except PErr Elems
  | .nil => .ok .nil
  | .hole es => match buildElems C es with
    | .ok es' => .ok (.hole es')
    | .error x => .error x
  | .cons e es => match build C e with
    | .ok e' => match buildElems C es with
      | .ok es' => .ok (.cons e' es')
      | .error x => .error x
    | .error x => .error x
  | .spread tc e es => match build C e with
    | .ok e' => match buildElems C es with
      | .ok es' => .ok (.spread tc e' es')
      | .error x => .error x
    | .error x => .error x
  | .rest e es => match buildElems C es with
    | .ok es' => .ok (.rest e es')
    | .error x => .error x
/-- The properties of an object literal. -/
def buildProps (C : Cfg) : Props → Except PErr Props
  | .nil => .ok .nil
  | .short n ps => match buildProps C ps with
    | .ok ps' => .ok (.short n ps')
    | .error x => .error x
  | .kv k v ps => match build C v with
    | .ok v' => match buildProps C ps with
      | .ok ps' => .ok (.kv k v' ps')
      | .error x => .error x
    | .error x => .error x
  | .init n v ps => match build C v with
    | .ok v' => match buildProps C ps with
      | .ok ps' => .ok (.init n v' ps')
      | .error x => .error x
    | .error x => .error x
  | .initKey k v ps => match build C k with
    | .ok k' => match build C v with
      | .ok v' => match buildProps C ps with
        | .ok ps' => .ok (.initKey k' v' ps')
        | .error x => .error x
      | .error x => .error x
    | .error x => .error x
  | .initPat k v ps => match buildProps C ps with
    | .ok ps' => .ok (.initPat k v ps')
    | .error x => .error x
  | .bare k ps => match buildProps C ps with
    | .ok ps' => .ok (.bare k ps')
    | .error x => .error x
  | .spread tc e ps => match build C e with
    | .ok e' => match buildProps C ps with
      | .ok ps' => .ok (.spread tc e' ps')
      | .error x => .error x
    | .error x => .error x
  | .rest e ps => match buildProps C ps with
    | .ok ps' => .ok (.rest e ps')
    | .error x => .error x
end

mutual
/-- parser.go:2900-2957 `namesInPattern` (keyword flags left out). -/
def namesInPattern : E → List Nat
  | .name n => [n]
  | .objPat ps => namesInProps ps
  | .arrPat es => namesInElems es
  | .assignPat l _ => namesInPattern l
  | _ => []
def namesInElems : Elems → List Nat
  | .nil => []
  | .hole es => namesInElems es
  | .cons e es => namesInPattern e ++ namesInElems es
  | .spread _ _ es => namesInElems es
  | .rest e es => namesInPattern e ++ namesInElems es
/-- A shorthand property has its key as value, `initPat` the `AssignPat` of key and default. -/
def namesInProps : Props → List Nat
  | .nil => []
  | .short n ps => n :: namesInProps ps
  | .kv _ v ps => namesInPattern v ++ namesInProps ps
  | .init _ v ps => namesInPattern v ++ namesInProps ps
  | .initKey _ v ps => namesInPattern v ++ namesInProps ps
  | .initPat k _ ps => namesInPattern k ++ namesInProps ps
  | .bare _ ps => namesInProps ps
  | .spread _ _ ps => namesInProps ps
  | .rest e ps => namesInPattern e ++ namesInProps ps
end

mutual
/-- parser.go:4934-5220: what the argument itself looks like after `argToParam`, accepted or not.
Array and object nodes stay, but properties are updated in place (5008 `n.value = val`, 5029-5035)
and so is the operand of a spread (5113, 5127); after a failure the rest is untouched. -/
def residue (C : Cfg) (d : Bool) : E → E
  | .arr es => .arr (residueElems C d es)
  | .obj ps => .obj (residueProps C d ps)
  | .objPat ps => .objPat (residueProps C d ps)
  | .assign plain l r => if plain then .assign plain (residue C d l) r else .assign plain l r
  | e => e
def residueElems (C : Cfg) (d : Bool) : Elems → Elems
  | .hole es => .hole (residueElems C d es)
  | .cons e es => match toParam C d false e with
    | .ok _ => .cons (residue C d e) (residueElems C d es)
    | .error _ => .cons (residue C d e) es
  | .spread tc e es =>
    if tc then .spread tc e es
    else if e.kind = .name ∨ (e.kind = .paren ∧ d = true) ∨ (e.kind = .lit ∧ C.nestedRest = true) then
      match toParam C d false e with
      | .ok e' => .spread tc e' (residueElems C d es)
      | .error _ => .spread tc (residue C d e) es
    else .spread tc e es
  | es => es
def residueProps (C : Cfg) (d : Bool) : Props → Props
  | .short n ps => match nameParam C n with
    | .ok _ => .short n (residueProps C d ps)
    | .error _ => .short n ps
  | .kv k v ps =>
    if v.isFn then .kv k v ps else
    match toParam C d false v with
    | .ok v' => .kv k v' (residueProps C d ps)
    | .error _ => .kv k (residue C d v) ps
  | .init n v ps =>
    if v.isFn then .init n v ps else
    match nameParam C n with
    | .ok _ => match checkDef C d v with
      | .ok _ => .initPat (.name n) v (residueProps C d ps)
      | .error _ => .init n v ps
    | .error _ => .init n v ps
  | .initKey k v ps =>
    if v.isFn then .initKey k v ps else
    match toParam C d false k with
    | .ok k' => match checkDef C d v with
      | .ok _ => .initPat k' v (residueProps C d ps)
      | .error _ => .initKey k' v ps
    | .error _ => .initKey (residue C d k) v ps
  | .initPat k v ps =>
    match toParam C d false k with
    | .ok k' => match checkDef C d (.assignPat k v) with
      | .ok _ => .initPat k' v (residueProps C d ps)
      | .error _ => .initPat k' v ps
    | .error _ => .initPat (residue C d k) v ps
  | .spread tc e ps =>
    if tc then .spread tc e ps
    else if e.kind = .name ∨ (e.kind = .paren ∧ d = true) then
      match toParam C d false e with
      | .ok e' => .spread tc e' (residueProps C d ps)
      | .error _ => .spread tc e ps
    else .spread tc e ps
  | ps => ps
end

mutual
/-- parser.go:5243-5325 `checkArg`: true if there is no error; `sp` is `spread`, `si` is `simplicity`.
The keyword and `__proto__` tests are left out (for the latter see Verif.Parser.ObjLit).  Patterns have no case. -/
def checkArg (C : Cfg) (sp si : Bool) : E → Bool
  | .obj ps => checkArgProps C ps
  | .paren e => checkArg C sp si e
  | .arr es => checkArgElems C si es
  | .assign plain l _ => if si then plain || simpleLVal C true true l else true
  | _ => true
def checkArgElems (C : Cfg) (si : Bool) : Elems → Bool
  | .nil => true
  | .hole es => checkArgElems C si es
  | .cons e es => checkArg C true si e && checkArgElems C si es
  | .spread _ _ es => checkArgElems C si es
  | .rest _ es => checkArgElems C si es
/-- parser.go:5273-5289: `a = v` is an error, whatever its key (6133: `shorthand := assign`) and whether or
not its value has become an `AssignPat`. -/
def checkArgProps (C : Cfg) : Props → Bool
  | .nil => true
  | .short _ ps => checkArgProps C ps
  | .kv _ v ps => checkArg C true false v && checkArgProps C ps
  | .init _ _ _ => false
  | .initKey _ _ _ => false
  | .initPat _ _ _ => false
  | .bare _ ps => checkArgProps C ps
  | .spread _ _ ps => checkArgProps C ps
  | .rest _ ps => checkArgProps C ps
end

/-- parser.go:5888 and 5926-5931: `(e)` with no `=>` behind: the trial is made, its panic passes
through, its result is dropped, and what it left of the argument is checked and kept. -/
def parenthesised (C : Cfg) (e : E) : Except PErr E :=
  match toParams C (.cons e .nil) with
  | .error .panic => .error .panic
  | _ => if checkArg C false true (residue C false e) then .ok (.paren (residue C false e)) else .error .err

/-- parser.go:2865-2897 `checkParams` after the reserved words: `complicated` tells whether some
parameter is not a plain name, `strict` whether the function is strict. -/
def checkParams (strict complicated : Bool) (names : List Nat) : Except PErr Unit :=
  if dupName [] names then
    if strict || complicated then .error .err else .ok ()
  else .ok ()
where
  /-- parser.go:2867-2882: the map `unique`; true if a name is found in it. -/
  dupName (unique : List Nat) : List Nat → Bool
    | [] => false
    | n :: ns => if unique.contains n then true else dupName (n :: unique) ns

/-- parser.go:2851-2853: some parameter is not an identifier. -/
def complicated : Elems → Bool
  | .nil => false
  | .cons (.name _) es => complicated es
  | _ => true

/-- parser.go:5786-5858 and 5888: arguments read as the parameters of an arrow function, with the
duplicate check of `checkParams`. -/
def arrowParams (C : Cfg) (strict : Bool) (args : Elems) : Except PErr Elems :=
  match toParams C args with
  | .ok ps => match checkParams strict (complicated ps) (namesInElems ps) with
    | .ok _ => .ok ps
    | .error x => .error x
  | .error x => .error x

end Mole.Parser.Pat
