import Verif.Exec.Vm

/-! What JavaScript computes for the evaluator's expressions (ECMA-262, 13), for C32 and C34. -/

namespace Mole.Exec.Spec

open Mole.Exec

mutual
/-- JavaScript values; arrays and objects by their content. -/
inductive JV (F : Type) where
  | undef
  | null
  | bool (b : Bool)
  | num (f : F)
  | str (s : String)
  | arr (vs : JVs F)
  | obj (fs : JFields F)
inductive JVs (F : Type) where
  | nil
  | cons (v : JV F) (rest : JVs F)
/-- The own properties of an object. -/
inductive JFields (F : Type) where
  | nil
  | cons (k : String) (v : JV F) (rest : JFields F)
end

variable {F : Type}

def JFields.get? (k : String) : JFields F → Option (JV F)
  | .nil => none
  | .cons k' v r => if k = k' then some v else r.get? k

def JVs.get? : JVs F → Nat → Option (JV F)
  | .nil, _ => none
  | .cons v _, 0 => some v
  | .cons _ r, n + 1 => r.get? n

def JVs.length : JVs F → Nat
  | .nil => 0
  | .cons _ r => r.length + 1

/-- The names every object inherits (ECMA-262, 20.1.3 and B.2.2). -/
def inherited : List String :=
  ["constructor", "hasOwnProperty", "isPrototypeOf", "propertyIsEnumerable", "toLocaleString", "toString", "valueOf",
    "__proto__", "__defineGetter__", "__defineSetter__", "__lookupGetter__", "__lookupSetter__"]

/-- The value of a property of an object; unknown for inherited ones. -/
def property (fs : JFields F) (k : String) : Option (JV F) :=
  match fs.get? k with
  | some v => some v
  | none => if k ∈ inherited then none else some .undef

/-- A value that is not an array or an object. -/
def prim : JV F → Bool
  | .arr _ => false
  | .obj _ => false
  | _ => true

/-- ToNumber, on primitive values. -/
def toNumber (ops : Ops F) : JV F → F
  | .undef => ops.nan
  | .null => ops.zero
  | .bool b => if b then ops.one else ops.zero
  | .num f => f
  | .str s => ops.jsParse s
  | _ => ops.nan

/-- ToString, on primitive values. -/
def toText (ops : Ops F) : JV F → String
  | .undef => "undefined"
  | .null => "null"
  | .bool b => if b then "true" else "false"
  | .num f => ops.jsFormat f
  | .str s => s
  | _ => ""

/-- ToBoolean. -/
def truthy (ops : Ops F) : JV F → Bool
  | .undef => false
  | .null => false
  | .bool b => b
  | .num f => !(ops.eq f ops.zero || ops.isNaN f)
  | .str s => s != ""
  | _ => true

/-- `===`; unknown for two objects, which are equal only if they are the same. -/
def strictEq (ops : Ops F) : JV F → JV F → Option Bool
  | .undef, .undef => some true
  | .null, .null => some true
  | .bool a, .bool b => some (a == b)
  | .num a, .num b => some (ops.eq a b)
  | .str a, .str b => some (a == b)
  | .arr _, .arr _ => none
  | .obj _, .obj _ => none
  | .arr _, .obj _ => some false
  | .obj _, .arr _ => some false
  | _, _ => some false

/-- SameValueZero: `===`, except that NaN is the same as NaN. -/
def sameValue (ops : Ops F) (a b : JV F) : Option Bool :=
  match a, b with
  | .num x, .num y => some (ops.eq x y || (ops.isNaN x && ops.isNaN y))
  | _, _ => strictEq ops a b

/-- `Array.prototype.includes`; unknown where objects have to be compared. -/
def includesJ (ops : Ops F) (target : JV F) : JVs F → Option Bool
  | .nil => some false
  | .cons v r =>
    match sameValue ops v target with
    | some true => some true
    | some false => includesJ ops target r
    | none => none

/-- `==`; unknown when an object is compared with anything but null and undefined. -/
def looseEq (ops : Ops F) (a b : JV F) : Option Bool :=
  match a, b with
  | .undef, .null => some true
  | .null, .undef => some true
  | .undef, _ => strictEq ops a b
  | .null, _ => strictEq ops a b
  | _, .undef => strictEq ops a b
  | _, .null => strictEq ops a b
  | .bool _, .bool _ => strictEq ops a b
  | .str _, .str _ => strictEq ops a b
  | _, _ => if prim a && prim b then some (ops.eq (toNumber ops a) (toNumber ops b)) else none

/-- Whether a value is a string. -/
def isStr : JV F → Bool
  | .str _ => true
  | _ => false

/-- `+`, on primitive values. -/
def plus (ops : Ops F) (a b : JV F) : JV F :=
  if isStr a || isStr b then .str (toText ops a ++ toText ops b) else .num (ops.add (toNumber ops a) (toNumber ops b))

/-- The operators which evaluate both operands; unknown for operators the specification does not describe. -/
def strictOp (ops : Ops F) (op : BinOp) (a b : JV F) : Option (JV F) :=
  match op with
  | .eq => (looseEq ops a b).map .bool
  | .ne => (looseEq ops a b).map fun x => .bool !x
  | .eqS => (strictEq ops a b).map .bool
  | .neS => (strictEq ops a b).map fun x => .bool !x
  | .add => if prim a && prim b then some (plus ops a b) else none
  | .sub => if prim a && prim b then some (.num (ops.sub (toNumber ops a) (toNumber ops b))) else none
  | .mul => if prim a && prim b then some (.num (ops.mul (toNumber ops a) (toNumber ops b))) else none
  | .div => if prim a && prim b then some (.num (ops.div (toNumber ops a) (toNumber ops b))) else none
  | .lt =>
    match a, b with
    | .num x, .num y => some (.bool (ops.lt x y))
    | _, _ => none
  | _ => none

mutual
/-- The value of an expression, given the values of the variables; `none` if it throws or is not described here. -/
def eval (ops : Ops F) (vars : String → Option (JV F)) : Expr F → Option (JV F)
  | .bool b => some (.bool b)
  | .null => some .null
  | .num f => some (.num f)
  | .str s => some (.str s)
  | .name n => if n = "undefined" then some .undef else vars n
  | .arr es => (evals ops vars es).map .arr
  | .member o p computed =>
    match eval ops vars o with
    | some (.obj fs) =>
      if computed then
        match eval ops vars p with
        | some (.str k) => property fs k
        | _ => none
      else
        match p with
        | .name k => property fs k
        | _ => none
    | some (.arr vs) =>
      if computed then
        match eval ops vars p with
        | some (.num f) =>
          match ops.index f with
          | some n => some ((vs.get? n).getD .undef)
          | none => some .undef
        | _ => none
      else
        match p with
        | .name k => if k = "length" then some (.num (ops.ofNat vs.length)) else none
        | _ => none
    | _ => none
  | .bin .and l r =>
    match eval ops vars l with
    | some a => if truthy ops a then eval ops vars r else some a
    | none => none
  | .bin .or l r =>
    match eval ops vars l with
    | some a => if truthy ops a then some a else eval ops vars r
    | none => none
  | .bin op l r =>
    match eval ops vars l, eval ops vars r with
    | some a, some b => strictOp ops op a b
    | _, _ => none
  | .unary .not e => (eval ops vars e).map fun a => .bool !(truthy ops a)
  | .unary .neg e =>
    match eval ops vars e with
    | some (.num f) => some (.num (ops.negate f))
    | _ => none
  | .unary (.other _) _ => none
  | .call f as =>
    match f, as with
    | .member o (.name k) false, .cons a .nil =>
      if k = "includes" then
        match eval ops vars o, eval ops vars a with
        | some (.arr vs), some w => (includesJ ops w vs).map .bool
        | _, _ => none
      else none
    | _, _ => none
  | .cond t c a =>
    match eval ops vars t with
    | some x => if truthy ops x then eval ops vars c else eval ops vars a
    | none => none
  | .paren e => eval ops vars e
  | .this => none
def evals (ops : Ops F) (vars : String → Option (JV F)) : Exprs F → Option (JVs F)
  | .nil => some .nil
  | .cons e r =>
    match eval ops vars e, evals ops vars r with
    | some v, some vs => some (.cons v vs)
    | _, _ => none
  | .hole _ => none
end

mutual
/-- How a JavaScript value is represented in Go: null and undefined are both nil. -/
def enc : JV F → Val F
  | .undef => .nil
  | .null => .nil
  | .bool b => .bool b
  | .num f => .num f
  | .str s => .str s
  | .arr vs => .arr (encs vs)
  | .obj fs => .obj (encf fs)
def encs : JVs F → Vals F
  | .nil => .nil
  | .cons v r => .cons (enc v) (encs r)
def encf : JFields F → Fields F
  | .nil => .nil
  | .cons k v r => .cons k (enc v) (encf r)
end

/-- The variables given to the evaluator. -/
def encVars (vars : String → Option (JV F)) (s : String) : Val F :=
  match vars s with
  | some v => enc v
  | none => .nil

/-! ## The part of the language the evaluator gets right -/

/-- A value whose numeric value Go and JavaScript agree on: a number, undefined, or a string that strconv.ParseFloat reads as
JavaScript does. -/
def NumOk (ops : Ops F) : JV F → Prop
  | .num _ => True
  | .undef => True
  | .str s => (ops.parse s).getD ops.nan = ops.jsParse s
  | _ => False

/-- A value whose text Go and JavaScript agree on. -/
def TextOk (ops : Ops F) : JV F → Prop
  | .str _ => True
  | .bool _ => True
  | .num f => ops.format f = ops.jsFormat f
  | _ => False

def nullish : JV F → Bool
  | .undef => true
  | .null => true
  | _ => false

/-- Two values of the same type. -/
def sameType : JV F → JV F → Bool
  | .bool _, .bool _ => true
  | .num _, .num _ => true
  | .str _, .str _ => true
  | _, _ => false

/-- The operands for which an operator gives what JavaScript gives. -/
def OpOk (ops : Ops F) (op : BinOp) (a b : JV F) : Prop :=
  match op with
  | .eqS | .neS => prim a = true ∧ prim b = true ∧ ((nullish a && nullish b) = true → a = b)
  | .eq | .ne => prim a = true ∧ prim b = true ∧ (nullish a || nullish b || sameType a b) = true
  | .add => if isStr a || isStr b then TextOk ops a ∧ TextOk ops b else NumOk ops a ∧ NumOk ops b
  | .sub | .mul => NumOk ops a ∧ NumOk ops b
  | .div => NumOk ops a ∧ NumOk ops b ∧
      ops.div (toNumber ops a) (toNumber ops b) =
        if ops.eq (toNumber ops b) ops.zero then ops.nan else ops.sub (toNumber ops a) (toNumber ops b)
  | _ => False

/-- Not the number NaN. -/
def notNaN (ops : Ops F) : JV F → Prop
  | .num f => ops.isNaN f = false
  | _ => True

/-- A property the evaluator finds: a name, a string, or an index it converts to the right integer. -/
def KeyOk (ops : Ops F) (computed : Bool) (p : Expr F) : Prop :=
  match p with
  | .name _ => computed = false
  | .str _ => computed = true
  | .num f => computed = true ∧ ops.isNaN f = false ∧ ops.lt f ops.zero = false ∧ ops.format f ≠ "includes" ∧
      ∃ n, ops.index f = some n ∧ ops.toInt f = n
  | _ => False

/-- An array in which the evaluator finds a value exactly when it is there: null and undefined are not mixed up, and the value is
not NaN, an array or an object. -/
def InclOk (ops : Ops F) (w : JV F) : JVs F → Prop
  | .nil => notNaN ops w ∧ prim w = true
  | .cons v r => ((nullish v && nullish w) = true → v = w) ∧ InclOk ops w r

/-- A Boolean. -/
def isBool : JV F → Prop
  | .bool _ => True
  | _ => False

mutual
/-- The expressions the evaluator gets right, for their value (`truth = false`) or only for whether the value is truthy
(`truth = true`). -/
def Right (ops : Ops F) (vars : String → Option (JV F)) (truth : Bool) : Expr F → Prop
  | .bool _ => True
  | .null => True
  | .num f => truth = true → ops.isNaN f = false
  | .str _ => True
  | .name n => n = "undefined" ∨ ∃ v, vars n = some v ∧ (truth = true → notNaN ops v)
  | .arr es => Rights ops vars es
  | .member o p computed => Right ops vars false o ∧ KeyOk ops computed p ∧
      (∀ vs, eval ops vars o = some (.arr vs) → p ≠ .name "length") ∧
      (truth = true → ∀ v, eval ops vars (.member o p computed) = some v → notNaN ops v)
  | .bin .and l r =>
    if truth then Right ops vars true l ∧ (∀ a, eval ops vars l = some a → truthy ops a = true → Right ops vars true r)
    else Right ops vars false l ∧ (∀ a, eval ops vars l = some a → isBool a ∧
      (truthy ops a = true → Right ops vars false r ∧ ∀ b, eval ops vars r = some b → isBool b))
  | .bin .or l r =>
    if truth then Right ops vars true l ∧ (∀ a, eval ops vars l = some a → truthy ops a = false → Right ops vars true r)
    else Right ops vars false l ∧ (∀ a, eval ops vars l = some a → isBool a ∧
      (truthy ops a = false → Right ops vars false r ∧ ∀ b, eval ops vars r = some b → isBool b))
  | .bin op l r => Right ops vars false l ∧ Right ops vars false r ∧
      (∀ a b, eval ops vars l = some a → eval ops vars r = some b → OpOk ops op a b ∧
        (truth = true → ∀ v, strictOp ops op a b = some v → notNaN ops v))
  | .unary .not e => Right ops vars true e
  | .unary _ _ => False
  | .call f as =>
    match f, as with
    | .member o p computed, .cons a .nil => p = .name "includes" ∧ computed = false ∧ ops.parse "includes" = none ∧
        ops.isNaN ops.nan = true ∧ Right ops vars false o ∧
        Right ops vars false a ∧ ∀ vs w, eval ops vars o = some (.arr vs) → eval ops vars a = some w → InclOk ops w vs
    | _, _ => False
  | .cond _ _ _ => False
  | .paren e => Right ops vars truth e
  | .this => False
def Rights (ops : Ops F) (vars : String → Option (JV F)) : Exprs F → Prop
  | .nil => True
  | .cons e r => Right ops vars false e ∧ Rights ops vars r
  | .hole _ => False
end

mutual
/-- The expressions whose evaluation leaves one value: no conditional, `this` or holes, and of the operators only those vm.go
182-204 has a case for. -/
def Whole : Expr F → Prop
  | .arr es => Wholes es
  | .member o p _ => Whole o ∧ Whole p
  | .bin .lt _ _ => False
  | .bin (.other _) _ _ => False
  | .bin _ l r => Whole l ∧ Whole r
  | .unary _ e => Whole e
  | .call f as => Whole f ∧ Wholes as
  | .cond _ _ _ => False
  | .paren e => Whole e
  | .this => False
  | _ => True
def Wholes : Exprs F → Prop
  | .nil => True
  | .cons e r => Whole e ∧ Wholes r
  | .hole _ => False
end

end Mole.Exec.Spec
