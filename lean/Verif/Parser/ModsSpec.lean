import Verif.Parser.Mods
/-!
# Modifiers of class members (specification)

As TypeScript has them: a word is a modifier if a name, a key, `*` or `{` is behind it, on the same line unless the word is `static`;
`static` before `{` begins a block, and a second `static` is a name.  What is behind the modifiers is the name.
-/
namespace Mole.Parser.Mods

/-- The access modifier among them. -/
def access (ms : List Word) : Option Acc := ms.findSome? fun
  | .acc a => some a
  | _ => none

/-- What they say of the member. -/
def said (ms : List Word) : Flags where
  static := ms.contains .static
  acc := access ms
  abstract := ms.contains .abstract
  readonly := ms.contains .readonly
  override := ms.contains .override
  declare := ms.contains .declare

/-- Behind `?` or `!`, if there is one. -/
def afterMark : List Tok → List Tok
  | ⟨.mark, _⟩ :: r => r
  | r => r

/-- Can a modifier be before it. -/
def follows : K → Bool
  | .word _ | .key _ | .star | .braceL => true
  | _ => false

/-- The word is a modifier before this token; `st`: there is a `static` already. -/
def isMod (st : Bool) (w : Word) (next : Tok) : Bool :=
  follows next.k && match w with
    | .name _ => false
    | .static => !st && next.k != .braceL
    | _ => !next.nl

/-- The modifiers, and what begins with the name. -/
def split (st : Bool) : List Tok → List Word × List Tok
  | [] => ([], [])
  | t :: r =>
    match t.k with
    | .word w => if isMod st w (head r) then
        let s := split (st || w == .static) r
        (w :: s.1, s.2)
      else ([], t :: r)
    | _ => ([], t :: r)

/-- The first may be before the second. -/
def before : Word → Word → Bool
  | .declare, .acc _ => true
  | .acc _, .static | .declare, .static => true
  | .acc a, .abstract => a != .pri
  | .readonly, .abstract | .declare, .abstract => true
  | .acc _, .override | .static, .override | .abstract, .override => true
  | .acc _, .readonly | .static, .readonly | .abstract, .readonly | .override, .readonly | .declare, .readonly => true
  | .acc _, .declare | .static, .declare | .abstract, .declare | .readonly, .declare => true
  | _, _ => false

/-- Each may be before each behind it. -/
def inOrder : List Word → Bool
  | [] => true
  | w :: l => l.all (before w) && inOrder l

/-- The modifiers may stand before such a member. -/
def allowed (cls : Cls) (name : Name) (meth : Bool) (ms : List Word) : Bool :=
  inOrder ms && !(meth && (ms.contains .readonly || ms.contains .declare)) &&
  (!ms.contains .abstract || cls.abstract) && (!ms.contains .override || cls.ext) &&
  !(name == .key true && (ms.contains .abstract || ms.contains .declare || (access ms).isSome))

def meant (cls : Cls) (name : Name) (meth : Bool) (ms : List Word) (rest : List Tok) : Res :=
  if allowed cls name meth ms then .member name meth (said ms) rest else .err

/-- Behind the name, and `?` or `!`: parameters, or the end of a field or of its name. -/
def named (cls : Cls) (name : Name) (ms : List Word) (a : List Tok) : Res :=
  if (head a).k == .paren then meant cls name true ms a
  else if (head a).k == .stop || (head a).k == .mark || (head a).nl then meant cls name false ms a
  else .err

/-- The member that is meant. -/
def want (cls : Cls) (ts : List Tok) : Res :=
  let (ms, r) := split false ts
  match r with
  | [] => .err
  | t :: r' =>
    match t.k with
    | .word w =>
      if w == .static && (head r').k == .braceL then if ms.isEmpty then .block else .err
      else named cls (.word w) ms (afterMark r')
    | .key p => named cls (.key p) ms (afterMark r')
    | .star => meant cls .gen true ms r'
    | _ => .err

/-- The modifiers are none of those the order of which is not checked: `private` with `abstract`, and an access modifier behind
`readonly` together with `abstract`. -/
def orderChecked (ms : List Word) : Bool :=
  !(ms.contains (.acc .pri) && ms.contains .abstract) &&
  !(has 1 ms && ms.contains .abstract && (ms.findIdx fun w => w == .readonly) < (ms.findIdx fun w => w.kind == some 1))

/-- None of the cases for which the code is known to be wrong. -/
def Regular (ts : List Tok) : Bool :=
  let (ms, r) := split false ts
  orderChecked ms &&
  match r with
  | [] => true
  | t :: r' =>
    let a := head (afterMark r')
    match t.k with
    -- the name is itself one of the six words, and has not been there before
    | .word w => match w.kind with
      | some k => if has k ms then !(a.k == .paren && a.nl && (has 3 ms || has 5 ms)) &&
          -- no member begins with the `{`, so that this is an error only later
          !(w == .static && (head r').k == .braceL && (head r').nl)
        else if w == .static && (head r').k == .braceL then true
        else k != 1 && !has 0 ms && (a.k != .paren || ms.all fun m => m.kind == some 1) &&
          -- what is behind `?` is not checked
          ((head r').k != .mark || a.k == .paren || a.k == .stop || a.k == .mark || a.nl) &&
          -- `static`, a line break and something that no member begins with
          !(w == .static && (head r').k == .other)
      | none => !(a.k == .paren && a.nl && (has 3 ms || has 5 ms))
    -- nothing is checked of `readonly` and `declare` before such a method, nor of what is behind the key
    | .key p => (if a.k == .paren then !has 3 ms && !has 5 ms else a.k == .stop || a.k == .mark || a.nl) && !(p && has 5 ms)
    | .star => !has 5 ms
    -- a method without a name
    | .paren => false
    | _ => true

end Mole.Parser.Mods
