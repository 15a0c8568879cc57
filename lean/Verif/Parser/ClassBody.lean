/-!
# Model of the checks on class elements

ecma/parser/parser.go: `classElem` 1517-1574, `isName` 1577-1597, `field` 1691-1696, `isField` 3724-3753,
`method` 6214-6224, 6258-6269 and 6350-6353, `classBody` 1184-1332.

JavaScript only: the modifiers of TypeScript, methods without body and decorators are left out, and so is
everything inside the elements.
-/
namespace Mole.Parser.Cls

/-- A name as the checks see it. -/
inductive Txt where
  | constructor | prototype | other (n : Nat)
  deriving DecidableEq, Repr

/-- The expression in a computed key, as far as the checks look at it. -/
inductive Inner where
  | ref (t : Txt) (escaped : Bool)
  | str (t : Txt)
  | other
  deriving DecidableEq, Repr

/-- parser.go:3755-3815 `propName`: the node of a key, and whether it is computed. -/
inductive Key where
  | ident (t : Txt) (escaped : Bool)
  | str (t : Txt)
  | num
  | pvt (t : Txt) (escaped : Bool)
  | computed (e : Inner)
  deriving DecidableEq, Repr

/-- `kind`, `async` and `gen` of a method. -/
inductive Kind where
  | normal | getter | setter | async | gen | asyncGen
  deriving DecidableEq, Repr

/-- A class element. -/
inductive Elem where
  | method (static : Bool) (kind : Kind) (key : Key)
  | field (static : Bool) (key : Key)
  | block
  deriving DecidableEq, Repr

/-- parser.go:1577-1597 `isName(node, name, false, true)`.  Private names and names in brackets are `Ident`
nodes, too. -/
def isName (k : Key) (t : Txt) : Bool :=
  match k with
  | .ident x esc => x == t && !esc
  | .str x => x == t
  | .num => false
  | .pvt x esc => x == t && !esc
  | .computed (.ref x esc) => x == t && !esc
  | .computed (.str x) => x == t
  | .computed .other => false

/-- `!compute.Empty()`. -/
def Key.isComputed : Key → Bool
  | .computed _ => true
  | _ => false

/-- parser.go:6214-6224 and 6350-6353: the checks on the name of a method. -/
def methodName (inclass static : Bool) (kind : Kind) (key : Key) : Bool :=
  if isName key .constructor && !key.isComputed && kind != .normal then false
  else !(inclass && static && isName key .prototype)

/-- parser.go:1691-1696: the checks on the name of a field. -/
def fieldName (static : Bool) (key : Key) : Bool :=
  !(static && isName key .prototype) && !isName key .constructor

/-- What `classBody` has seen (parser.go:1192-1193): `hasCtor`, and the map `pvtNames`, latest first. -/
structure Seen where
  hasCtor : Bool
  pvt : List (Txt × Elem)
  deriving DecidableEq, Repr

def Elem.key : Elem → Option Key
  | .method _ _ k => some k
  | .field _ k => some k
  | .block => none

def Kind.accessor : Kind → Bool
  | .getter | .setter => true
  | _ => false

/-- parser.go:1246-1258: the two may share a private name. -/
def mayPair : Elem → Elem → Bool
  | .method s1 k1 _, .method s2 k2 _ =>
    k1.accessor && k2.accessor && s1 == s2 && k1 != k2
  | _, _ => false

/-- parser.go:1204-1288: one element; `none` is an error. -/
def addElem (s : Seen) (e : Elem) : Option Seen :=
  -- in `method` and `field`
  if !(match e with
    | .method st k key => methodName true st k key
    | .field st key => fieldName st key
    | .block => true) then none else
  -- 1229-1237
  let ctor := match e with
    | .method _ _ key => isName key .constructor
    | _ => false
  if ctor && s.hasCtor then none else
  let s := { s with hasCtor := s.hasCtor || ctor }
  -- 1244-1279
  match e.key with
  | some (.pvt t _) => match s.pvt.lookup t with
    | some prev => if mayPair e prev then some { s with pvt := (t, e) :: s.pvt } else none
    | none => some { s with pvt := (t, e) :: s.pvt }
  | _ => some s

/-- parser.go:1196-1325: the whole body. -/
def classBody : Seen → List Elem → Bool
  | _, [] => true
  | s, e :: es => match addElem s e with
    | some s' => classBody s' es
    | none => false

/-- A class body as it is read. -/
def accepts (es : List Elem) : Bool := classBody ⟨false, []⟩ es

/-! ## How an element begins -/

/-- The words `get` and `set`, or another name. -/
inductive Word where
  | get | set | other
  deriving DecidableEq, Repr

/-- The token after the first name of an element, of those that can follow one: `(`; one of `= ; }`; one that
can begin a key (a name, a string, a number, `[`, a private name); or `*`. -/
inductive After where
  | paren | ends | key | star
  deriving DecidableEq, Repr

/-- What the element is taken for. -/
inductive Shape where
  | field | method | getter | setter
  deriving DecidableEq, Repr

/-- parser.go:3724-3753 `isField(false, getter)`. -/
def isField (getter : Bool) (a : After) (nl : Bool) : Bool :=
  if a = .ends then true
  else if getter then a != .key && a != .paren
  else nl

/-- parser.go:1519-1571: an element that begins with a name or string; the text is compared whether or not it
was quoted or written with escapes.  A field followed by `(` is a method after all (1657-1662). -/
def shape (w : Word) (_quoted _escaped : Bool) (a : After) (nl : Bool) : Option Shape :=
  if isField (w != .other) a nl then some (if a = .paren then .method else .field)
  else if a = .paren then some .method
  else match w with
    | .get => some .getter
    | .set => some .setter
    | .other => none

end Mole.Parser.Cls
