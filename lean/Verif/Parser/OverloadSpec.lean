import Verif.Parser.Overload
/-!
# Overload signatures (specification)

In each list of statements or members: right behind a signature that is not ambient, optional or abstract there is another one of the
same name, or the implementation.
-/
namespace Mole.Parser.Overload

/-- The names are the same, as far as can be seen: a name is that of a string or number with the same text; `#m` is not `m`; what is
computed has no name, nor has a default export. -/
def alike : Option Key → Option Key → Bool
  | some (.name m), some (.name n) => m == n
  | some (.name m), some (.lit n) => m == n
  | some (.lit m), some (.name n) => m == n
  | some (.lit m), some (.lit n) => m == n
  | some (.pvt m), some (.pvt n) => m == n
  | none, none | none, some .comp | none, some .member => true
  | some .comp, none | some .comp, some .comp | some .comp, some .member => true
  | some .member, none | some .member, some .comp | some .member, some .member => true
  | _, _ => false

/-- What is pending is nothing, or has this name. -/
def meets (pend : Option (Option Key)) (k : Option Key) : Bool :=
  match pend with
  | none => true
  | some s => alike s k

/-- It is right from here, the signature `pend` being right before; `none`: nothing is pending. -/
def fine (pend : Option (Option Key)) : Prog → Bool
  | .nil => pend == none
  | .fn id inner next => meets pend (id.map .name) && fine none inner && fine none next
  | .fnSig id _ amb inner next =>
    (if amb then pend == none else meets pend (id.map .name)) && fine none inner && fine (if amb then none else some (id.map .name)) next
  | .meth key inner next => meets pend (some key) && fine none inner && fine none next
  | .methSig key opt abs amb inner next =>
    (if opt || abs || amb then pend == none else meets pend (some key)) && fine none inner &&
      fine (if opt || abs || amb then none else some (some key)) next
  | .other inner next => pend == none && fine none inner && fine none next

/-- The program is right. -/
def Fine (p : Prog) : Prop := fine none p = true

/-- `q` is a part of `p`: it begins somewhere in it and goes on to the end of its list. -/
inductive Part (q : Prog) : Prog → Prop where
  | here : Part q q
  | fnIn {id i n} : Part q i → Part q (.fn id i n)
  | fnOn {id i n} : Part q n → Part q (.fn id i n)
  | fnSigIn {id g a i n} : Part q i → Part q (.fnSig id g a i n)
  | fnSigOn {id g a i n} : Part q n → Part q (.fnSig id g a i n)
  | methIn {k i n} : Part q i → Part q (.meth k i n)
  | methOn {k i n} : Part q n → Part q (.meth k i n)
  | methSigIn {k o b a i n} : Part q i → Part q (.methSig k o b a i n)
  | methSigOn {k o b a i n} : Part q n → Part q (.methSig k o b a i n)
  | otherIn {i n} : Part q i → Part q (.other i n)
  | otherOn {i n} : Part q n → Part q (.other i n)

/-- No function or method in it is without a body. -/
def bodies : Prog → Bool
  | .nil => true
  | .fn _ i n | .meth _ i n | .other i n => bodies i && bodies n
  | .fnSig .. | .methSig .. => false

/-- What a program has, by where each thing ends: signatures (with `glued`) and implementations. -/
inductive Ev where
  | sig (k : Option Key) | glued (id : Option Nat) | impl (k : Option Key) | dyn
  deriving DecidableEq, Repr

/-- In the order of their ends. -/
def ends : Prog → List Ev
  | .nil => []
  | .fn id i n => ends i ++ .impl (id.map .name) :: ends n
  | .fnSig id g _ i n => ends i ++ (if g then [.glued id] else []) ++ .sig (id.map .name) :: ends n
  | .meth k i n => ends i ++ .impl (some k) :: ends n
  | .methSig k o b _ i n =>
    ends i ++ (if o then [] else if k = .comp then [.dyn] else if b then [] else [.sig (some k)]) ++ ends n
  | .other i n => ends i ++ ends n

/-- The signature nearest before the end of the list. -/
def lastSig : List Ev → Option (Option Key)
  | [] => none
  | e :: l => match lastSig l with
    | some k => some k
    | none => match e with
      | .sig k => some k
      | _ => none

/-- What may end behind `a`: an implementation that has the name of the nearest signature before it, wherever that is; so must a
signature that `function` follows on the next line; a signature must have a name that is known. -/
def right (a : List Ev) : Ev → Prop
  | .sig _ => True
  | .dyn => False
  | .impl k => ∀ s, lastSig a = some s → alike s k = true
  | .glued id => ∃ n, id = some n ∧ ∀ s, lastSig a = some s → s = some (.name n) ∨ s = some (.pvt n)

/-- So it is everywhere. -/
def Agree (l : List Ev) : Prop := ∀ a e b, l = a ++ e :: b → right a e

/-- It is an identifier, with `#` or without. -/
def isIdent : Key → Bool
  | .name _ | .pvt _ => true
  | _ => false

/-- Every name is an identifier. -/
def idents : Prog → Bool
  | .nil => true
  | .fn id i n | .fnSig id _ _ i n => id.isSome && idents i && idents n
  | .meth k i n | .methSig k _ _ _ i n => isIdent k && idents i && idents n
  | .other i n => idents i && idents n

/-- Every function and method that ends with a body, and every signature, has this one name. -/
def only (x : Nat) : Prog → Bool
  | .nil => true
  | .fn id i n | .fnSig id _ _ i n => id == some x && only x i && only x n
  | .meth k i n | .methSig k _ _ _ i n => k == .name x && only x i && only x n
  | .other i n => only x i && only x n

end Mole.Parser.Overload
