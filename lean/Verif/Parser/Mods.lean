/-!
# Model of the modifiers of class members

ecma/parser/parser.go: `modifiers` 1333-1444, `classElem` 1446-1575, `field` 1599-1662, the checks of `classBody` 1284-1325,
`isField` 3724-3753; ecma/parser/ts.go: `tsAdvanceHook` 228-237, `tsCheckLabeledOrder` 2458-2484, `tsModifierOrder` 2486-2511.
TypeScript and class fields are switched on.

Simplifications: the ranges of the words that have been read are represented by their order; a key that is no word (`[k]`, `#k`, `1`)
is one token; the key behind `*` is not looked at; the words `get`, `set` and `async` are left out, and so is what comes behind the name but for the question whether it is
a list of parameters.
-/
namespace Mole.Parser.Mods

/-- ast.go: `ACC_MOD`. -/
inductive Acc where
  | pub | pri | pro
  deriving DecidableEq, Repr

/-- The words before a member; `name` is any other name, keyword or string. -/
inductive Word where
  | static | acc (a : Acc) | abstract | readonly | override | declare | name (n : Nat)
  deriving DecidableEq, Repr

/-- The kinds of tokens `classElem` and `isField` tell apart: a word; one of `: = ; , } )`; `?` or `!`; what begins a list of parameters;
`{`; `*`; a key that is no word (with `pvt`, `#k`); any other, also the end. -/
inductive K where
  | word (w : Word) | stop | mark | paren | braceL | star | key (pvt : Bool) | other
  deriving DecidableEq, Repr

/-- A token; `nl`: a line break is before it. -/
structure Tok where
  k : K
  nl : Bool := false
  deriving DecidableEq, Repr

/-- The token that is next. -/
def head (ts : List Tok) : Tok := ts.headD ⟨.other, false⟩

/-- parser.go 1336-1440: which of the six modifiers a word is. -/
def Word.kind : Word → Option Nat
  | .static => some 0
  | .acc _ => some 1
  | .abstract => some 2
  | .readonly => some 3
  | .override => some 4
  | .declare => some 5
  | .name _ => none

/-- A modifier of this kind has been read (`!static.Empty()` and so on). -/
def has (k : Nat) (seen : List Word) : Bool := seen.any fun w => w.kind == some k

/-- The access modifier, if any. -/
def accOf : List Word → Option Acc
  | [] => none
  | .acc a :: _ => some a
  | _ :: l => accOf l

/-- parser.go 3724-3753 `isField`, `getter` being false. -/
def isField (static : Bool) (t : Tok) : Bool := t.k == .stop || t.k == .mark || (!static && t.nl)

/-- parser.go 1333-1444 `modifiers`: the modifiers; the word that has been found to be the name of a field; what is ahead. -/
def modifiers (seen : List Word) : List Tok → List Word × Option Word × List Tok
  | [] => (seen, none, [])
  | t :: r =>
    match t.k with
    | .word w =>
      match w.kind with
      | some k =>
        if has k seen then (seen, none, t :: r)
        else if isField (w == .static) (head r) then (seen, some w, r)
        else modifiers (seen ++ [w]) r
      | none => (seen, none, t :: r)
    | _ => (seen, none, t :: r)

/-- ts.go 2501-2507: the modifiers that are there, in the order wanted, each with its place. -/
def present (seen : List Word) : List (Nat × Nat) :=
  [1, 2, 0, 4, 3].filterMap fun k => (seen.findIdx? fun w => w.kind == some k).map fun i => (k, i)

/-- ts.go 2458-2484 `tsCheckLabeledOrder`: neighbours are in order; `abstract` may be behind `readonly`. -/
def sorted : List (Nat × Nat) → Bool
  | a :: b :: l => (a.2 < b.2 || (a.1 == 2 && b.1 == 3)) && sorted (b :: l)
  | _ => true

/-- ts.go 2486-2511 `tsModifierOrder`; `brace`: the next token is `{`. -/
def order (seen : List Word) (brace : Bool) : Bool :=
  !(has 0 seen && has 2 seen) && !(has 5 seen && has 4 seen) &&
  !(has 0 seen && brace && (has 1 seen || has 4 seen || has 3 seen || has 5 seen)) && sorted (present seen)

/-- typinfo.go: what is noted of a member. -/
structure Flags where
  static : Bool := false
  acc : Option Acc := none
  abstract : Bool := false
  readonly : Bool := false
  override : Bool := false
  declare : Bool := false
  deriving DecidableEq, Repr

/-- What the modifiers say. -/
def flagsOf (seen : List Word) : Flags :=
  { static := has 0 seen, acc := accOf seen, abstract := has 2 seen, readonly := has 3 seen, override := has 4 seen, declare := has 5 seen }

/-- The name of a member: a word; a key that is no word; behind `*`; none at all. -/
inductive Name where
  | word (w : Word) | key (pvt : Bool) | gen | empty
  deriving DecidableEq, Repr

/-- A member of a class: an error; a static block; a field or a method (`meth`), and what is behind its name. -/
inductive Res where
  | err | block | member (name : Name) (meth : Bool) (f : Flags) (rest : List Tok)
  deriving DecidableEq, Repr

/-- The class is abstract; it extends another one. -/
structure Cls where
  abstract : Bool
  ext : Bool

/-- parser.go 1284-1325: what `classBody` asks of the member. -/
def body (cls : Cls) (name : Name) (f : Flags) : Bool :=
  !(f.override && !cls.ext) && !(f.abstract && !cls.abstract) && !(name == .key true && (f.abstract || f.acc.isSome))

def member (cls : Cls) (name : Name) (meth : Bool) (f : Flags) (rest : List Tok) : Res :=
  if body cls name f then .member name meth f rest else .err

/-- ts.go 228-237 `tsAdvanceHook`. -/
def dropMark : List Tok → List Tok
  | t :: r => if t.k == .mark then r else t :: r
  | [] => []

/-- parser.go 1599-1662 `field` behind the name: it may still be a method, and all that has been noted stays. -/
def field (cls : Cls) (name : Name) (f : Flags) (a : List Tok) : Res :=
  if (head a).k == .paren then member cls name true f a else member cls name false f a

/-- The name of a method with parameters right behind the modifiers (1472, 1494): the last word read. -/
def lastName (l : List Word) : Name :=
  match l.getLast? with
  | some w => .word w
  | none => .empty

/-- parser.go 1484-1574 (classElem): behind the modifiers, `l` being all the words read there and `am` the access modifier. -/
def tail (cls : Cls) (seen l : List Word) (am : Option Acc) : List Tok → Res
  | [] => .err
  | t :: r =>
    match t.k with
    | .paren => member cls (lastName l) true { acc := am } (t :: r)
    | .star => if has 3 seen then .err else member cls .gen true { flagsOf seen with acc := am } r
    | .word w =>
      let a := dropMark r
      if isField false (head a) then field cls (.word w) { flagsOf seen with acc := am } a
      else if (head a).k == .paren then
        if has 3 seen || has 5 seen then .err else member cls (.word w) true { flagsOf seen with acc := am } a
      else .err
    | .key p => field cls (.key p) { flagsOf seen with acc := am } (dropMark r)
    | _ => .err

/-- parser.go 1446-1575 `classElem`, and 1284-1325. -/
def classElem (cls : Cls) (ts : List Tok) : Res :=
  let (seen, nm, r) := modifiers [] ts
  let l := seen ++ nm.toList
  let am := accOf l
  if !order seen ((head r).k == .braceL) then .err
  else if has 0 seen then
    if (head r).k == .braceL then if am.isSome || has 2 seen || has 4 seen then .err else .block
    else if (head r).k == .paren then member cls (lastName l) true { acc := am } r
    else tail cls seen l am r
  else match nm with
    | some w => field cls (.word w) { flagsOf seen with acc := am } (dropMark r)
    | none => tail cls seen l am r

end Mole.Parser.Mods
