import Verif.Parser.Deco
/-!
# Decorators (specification)

Decorators belong to the class declaration, field or method that they are written right before; anywhere else they are an error.
-/
namespace Mole.Parser.Deco

/-- What belongs to what, `p` being written right before; `none`: an error. -/
def want (p : Option Nat) : T → Option Log
  | .nil => if p = none then some [] else none
  | .deco d next => if p = none then want (some d) next else none
  | .clsDec id ms next => do
    let a ← want none ms
    let b ← want none next
    return (p.map fun d => (id, d)).toList ++ a ++ b
  | .stmt parts next => if p = none then do
      let a ← want none parts
      let b ← want none next
      return a ++ b
    else none
  | .mem k id parts next => if p = none ∨ k ≠ .static then do
      let a ← want none parts
      let b ← want none next
      return a ++ (p.map fun d => (id, d)).toList ++ b
    else none
  | .semi next => if p = none then want none next else none
  | .cls _ ms rest => if p = none then do
      let a ← want none ms
      let b ← want none rest
      return a ++ b
    else none
  | .blk ss rest => if p = none then do
      let a ← want none ss
      let b ← want none rest
      return a ++ b
    else none

/-- No class, no statement and no decorator is in it. -/
def quiet : T → Bool
  | .nil => true
  | .blk ss rest => quiet ss && quiet rest
  | _ => false

/-- None of the exceptions: what is decorated contains no statement and no class; decorators are not at the end of a list, before `;`
or a static block; and without TypeScript there are none before a field.  `p`: decorators are right before. -/
def Regular (ts : Bool) (p : Bool) : T → Bool
  | .nil => !p
  | .deco _ next => !p && Regular ts true next
  | .clsDec _ ms next => Regular ts false ms && Regular ts false next
  | .stmt parts next => (!p || quiet parts) && Regular ts false parts && Regular ts false next
  | .mem k _ parts next =>
    (!p || (quiet parts && k != .static && (ts || k != .field))) && Regular ts false parts && Regular ts false next
  | .semi next => !p && Regular ts false next
  | .cls _ ms rest => !p && Regular ts false ms && Regular ts false rest
  | .blk ss rest => !p && Regular ts false ss && Regular ts false rest

/-- The decorators, in the order of the source. -/
def decos : T → List Nat
  | .nil => []
  | .deco d next => d :: decos next
  | .clsDec _ a b | .stmt a b | .mem _ _ a b | .cls _ a b | .blk a b => decos a ++ decos b
  | .semi next => decos next

/-- The classes, by where they begin, and the members, by where they end. -/
def owners : T → List Nat
  | .nil => []
  | .deco _ next | .semi next => owners next
  | .clsDec id a b | .cls id a b => id :: (owners a ++ owners b)
  | .stmt a b | .blk a b => owners a ++ owners b
  | .mem _ id a b => owners a ++ id :: owners b

/-- The class declarations with decorators right before them, `p` being right before. -/
def declared (p : Option Nat) : T → Log
  | .nil => []
  | .deco d next => declared (some d) next
  | .clsDec id a b => (p.map fun d => (id, d)).toList ++ declared none a ++ declared none b
  | .stmt a b | .mem _ _ a b | .cls _ a b | .blk a b => declared none a ++ declared none b
  | .semi next => declared none next

/-- It has no fields. -/
def noFields : T → Bool
  | .nil => true
  | .deco _ next | .semi next => noFields next
  | .clsDec _ a b | .cls _ a b | .stmt a b | .blk a b => noFields a && noFields b
  | .mem k _ a b => k != .field && noFields a && noFields b

end Mole.Parser.Deco
