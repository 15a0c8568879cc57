import Verif.Parser.ClassBody

/-!
# The early errors of class bodies (ECMA-262 15.7.1)
-/
namespace Mole.Parser.Cls

/-- The name a key gives to its element before the program runs (`PropName`): none when it is computed, and private
names are apart.  Escapes do not matter. -/
def Key.propName : Key → Option Txt
  | .ident t _ => some t
  | .str t => some t
  | .num => none
  | .pvt _ _ => none
  | .computed _ => none

/-- The private name of an element. -/
def Elem.privateName : Elem → Option Txt
  | .method _ _ (.pvt t _) => some t
  | .field _ (.pvt t _) => some t
  | _ => none

/-- The rules for a single element. -/
def ElemOk (e : Elem) : Prop :=
  e.privateName ≠ some .constructor ∧
  match e with
  | .method false kind key => key.propName = some .constructor → kind = .normal
  | .method true _ key => key.propName ≠ some .prototype
  | .field false key => key.propName ≠ some .constructor
  | .field true key => key.propName ≠ some .prototype ∧ key.propName ≠ some .constructor
  | .block => True

/-- The constructor of the class. -/
def Elem.IsConstructor : Elem → Prop
  | .method false _ key => key.propName = some .constructor
  | _ => False

instance (e : Elem) : Decidable e.IsConstructor := by
  unfold Elem.IsConstructor; split <;> infer_instance

/-- A getter and a setter, both static or both not. -/
def Pair : Elem → Elem → Prop
  | .method s .getter _, .method s' .setter _ => s = s'
  | .method s .setter _, .method s' .getter _ => s = s'
  | _, _ => False

/-- The elements that declare the private name `t`. -/
def declaring (t : Txt) (es : List Elem) : List Elem := es.filter (fun e => decide (e.privateName = some t))

/-- A class body without early errors. -/
structure Valid (es : List Elem) : Prop where
  elems : ∀ e ∈ es, ElemOk e
  ctor : (es.filter (fun e => decide e.IsConstructor)).length ≤ 1
  pvt : ∀ t, match declaring t es with
    | [] => True
    | [_] => True
    | [a, b] => Pair a b
    | _ => False

/-! ## The elements on which parser and language agree -/

/-- The names the rules are about. -/
def Txt.Special : Txt → Prop
  | .other _ => False
  | _ => True

/-- The key is written plainly: neither escapes, nor brackets, nor a `#` around one of the two special names. -/
def Key.Plain : Key → Prop
  | .ident t esc => t.Special → esc = false
  | .str _ => True
  | .num => True
  | .pvt t _ => ¬t.Special
  | .computed (.ref t esc) => t.Special → esc = true
  | .computed (.str t) => ¬t.Special
  | .computed .other => True

/-- An element written plainly, and not a static method called `constructor`. -/
def Elem.Plain : Elem → Prop
  | .method static _ key => key.Plain ∧ (static = true → key.propName ≠ some .constructor)
  | .field _ key => key.Plain
  | .block => True

/-! ## How an element begins -/

/-- The grammar: a name and `(` begin a method; `get` and `set`, not in quotes and without escapes, and a key begin an
accessor; otherwise the name is a field, which ends before `= ; }` or where the line ends. -/
def Grammar (w : Word) (quoted escaped : Bool) (a : After) (nl : Bool) : Option Shape :=
  match a with
  | .paren => some .method
  | .ends => some .field
  | .star => if nl then some .field else none
  | .key =>
    if w = .get ∧ quoted = false ∧ escaped = false then some .getter
    else if w = .set ∧ quoted = false ∧ escaped = false then some .setter
    else if nl then some .field else none

end Mole.Parser.Cls
