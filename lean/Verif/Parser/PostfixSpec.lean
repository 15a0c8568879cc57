import Verif.Parser.Postfix
/-!
# What member, call and `new` expressions mean

The grammar of ECMA-262 13.3 (`MemberExpression`, `NewExpression`, `CallExpression`, `OptionalExpression`,
`LeftHandSideExpression`) as relations between token sequences and trees.  The tree of an optional expression is closed by
one chain node.  A template after `?.` is an early error (13.3.1.1), so it has no rule.  `group` is a function that computes
the tree; `group_iff` shows that it is the grammar, which is therefore unambiguous.
-/
namespace Mole.Parser.Postfix.Spec
open Postfix

/-- `MemberExpression` -/
inductive Member : List Tok → T → Prop where
  | name (n) : Member [.name n] (.name n)
  | lit (n) : Member [.lit n] (.lit n)
  | target : Member [.new, .dot target] .newTarget
  | dot {s t} (n) : Member s t → Member (s ++ [.dot n]) (.dot t n false)
  | sub {s t} (n) : Member s t → Member (s ++ [.sub n]) (.sub t n false)
  | tpl {s t} (n) : Member s t → Member (s ++ [.tpl n]) (.tagged t n)
  | new {s t} (n e) : Member s t → Member (.new :: s ++ [.args n e]) (.new t (some n))

/-- `NewExpression` -/
inductive NewE : List Tok → T → Prop where
  | member {s t} : Member s t → NewE s t
  | new {s t} : NewE s t → NewE (.new :: s) (.new t none)

/-- `CallExpression` -/
inductive CallE : List Tok → T → Prop where
  | member {s t} (n e) : Member s t → CallE (s ++ [.args n e]) (.call t n false)
  | args {s t} (n e) : CallE s t → CallE (s ++ [.args n e]) (.call t n false)
  | dot {s t} (n) : CallE s t → CallE (s ++ [.dot n]) (.dot t n false)
  | sub {s t} (n) : CallE s t → CallE (s ++ [.sub n]) (.sub t n false)
  | tpl {s t} (n) : CallE s t → CallE (s ++ [.tpl n]) (.tagged t n)

/-- What `?.` may be followed by, and what it makes of the tree before it. -/
inductive Link : List Tok → (T → T) → Prop where
  | dot (n) : Link [.opt, .name n] (.dot · n true)
  | sub (n) : Link [.opt, .sub n] (.sub · n true)
  | args (n e) : Link [.opt, .args n e] (.call · n true)

/-- `OptionalExpression`, before the chain is closed. -/
inductive OptE : List Tok → T → Prop where
  | member {s t l f} : Member s t → Link l f → OptE (s ++ l) (f t)
  | call {s t l f} : CallE s t → Link l f → OptE (s ++ l) (f t)
  | again {s t l f} : OptE s t → Link l f → OptE (s ++ l) (f t)
  | dot {s t} (n) : OptE s t → OptE (s ++ [.dot n]) (.dot t n false)
  | sub {s t} (n) : OptE s t → OptE (s ++ [.sub n]) (.sub t n false)
  | args {s t} (n e) : OptE s t → OptE (s ++ [.args n e]) (.call t n false)

/-- `LeftHandSideExpression` -/
inductive Lhs : List Tok → T → Prop where
  | new {s t} : NewE s t → Lhs s t
  | call {s t} : CallE s t → Lhs s t
  | opt {s t} : OptE s t → Lhs s (.chain t)

/-- The tree of what follows a primary expression: `j` is how many `new` have no arguments yet, `o` whether there was a `?.`. -/
def tail : (j : Nat) → (o : Bool) → T → List Tok → Option T
  | 0, o, t, [] => some (if o then .chain t else t)
  | j + 1, o, t, [] => tail j o (.new t none) []
  | j, o, t, .dot n :: r => tail j o (.dot t n false) r
  | j, o, t, .sub n :: r => tail j o (.sub t n false) r
  | 0, o, t, .args n _ :: r => tail 0 o (.call t n false) r
  | j + 1, o, t, .args n _ :: r => tail j o (.new t (some n)) r
  | j, false, t, .tpl n :: r => tail j false (.tagged t n) r
  | 0, _, t, .opt :: .name n :: r => tail 0 true (.dot t n true) r
  | 0, _, t, .opt :: .sub n :: r => tail 0 true (.sub t n true) r
  | 0, _, t, .opt :: .args n _ :: r => tail 0 true (.call t n true) r
  | _, _, _, _ => none

/-- The tree of an expression that begins with `j` times `new`. -/
def group : Nat → List Tok → Option T
  | j, .name n :: r => tail j false (.name n) r
  | j, .lit n :: r => tail j false (.lit n) r
  | j, .new :: .dot n :: r => if n = target then tail j false .newTarget r else none
  | j, .new :: r => group (j + 1) r
  | _, _ => none

end Mole.Parser.Postfix.Spec

namespace Mole.Parser.Postfix

/-- No postfix goes on here. -/
def Stops : List Tok → Prop
  | .args _ _ :: _ | .dot _ :: _ | .sub _ :: _ | .opt :: _ | .tpl _ :: _ => False
  | _ => True

/-- Only `.x` and `[x]`. -/
def plain : List Tok → Bool
  | [] => true
  | .dot _ :: r | .sub _ :: r => plain r
  | _ => false

/-- No template comes before the first call. -/
def late : List Tok → Bool
  | .dot _ :: r | .sub _ :: r => late r
  | .tpl _ :: _ => false
  | _ => true

/-- No `?.( )` is followed by another argument list. -/
def noDouble : List Tok → Bool
  | .opt :: .args _ _ :: .args _ _ :: _ => false
  | _ :: r => noDouble r
  | [] => true

/-- No template. -/
def noTpl : List Tok → Bool
  | .tpl _ :: _ => false
  | _ :: r => noTpl r
  | [] => true

/-- The tree of a primary expression of one token. -/
def prim : Tok → Option T
  | .name n => some (.name n)
  | .lit n => some (.lit n)
  | _ => none

/-- What the callee of a `new` begins with. -/
inductive Base : List Tok → T → Prop where
  | prim {p t} : prim p = some t → Base [p] t
  | tagged {p t} (n) : prim p = some t → Base [p, .tpl n] (.tagged t n)

/-- The expressions the code groups rightly:
no `new`; `new.target` with nothing or `.x` after it; one `new` with arguments and no template before the next argument list;
any number of `new` with at most one argument list.  Excluded are also arguments directly after `?.( )`. -/
inductive Fine : List Tok → Prop where
  | plain {p t ops} : prim p = some t → noDouble ops = true → Fine (p :: ops)
  | target : Fine [.new, .dot target]
  | targetDot {n ops} : noDouble ops = true → Fine (.new :: .dot target :: .dot n :: ops)
  | new {b t ms n e post} : Base b t → plain ms = true → late post = true → noDouble post = true →
      Fine (.new :: b ++ ms ++ .args n e :: post)
  | bare {b t ms} (k : Nat) : Base b t → Postfix.plain ms = true → Fine (List.replicate (k + 1) .new ++ b ++ ms)
  | news {b t ms n e ms'} (k : Nat) : Base b t → Postfix.plain ms = true → Postfix.plain ms' = true →
      Fine (List.replicate (k + 1) .new ++ b ++ ms ++ .args n e :: ms')

end Mole.Parser.Postfix
