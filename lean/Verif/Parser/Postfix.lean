/-!
# Model of member, call and `new` expressions

ecma/parser/parser.go: `lhs` 4423-4444, `newExpr` 4446-4555, `callExpr` 4609-4712, `memberExpr` 5535-5606,
`memberExprObj` 5608-5618, `memberExprPropSubscript` 5620-5631, `memberExprPropDot` 5633-5661, `tplExpr` 4775-4827,
`primaryExpr` 5663-5786.

Simplifications: a subscript, an argument list, a template and every primary expression is one token
here; what is inside is read by functions modelled elsewhere.  The name after a dot belongs to the dot's token.  TypeScript is
off, meta properties are on and the code stands inside a function.  Source ranges are left out; of `optLoc` and `firstOpt`
only whether they are set matters.  Private names and the checks on `super` and arrow callees are left out.
-/
namespace Mole.Parser.Postfix

/-- Trees; the flag tells an optional access or call. -/
inductive T where
  | name (n : Nat)
  | lit (n : Nat)
  | newTarget
  | dot (o : T) (n : Nat) (opt : Bool)
  | sub (o : T) (n : Nat) (opt : Bool)
  | call (f : T) (n : Nat) (opt : Bool)
  | tagged (f : T) (n : Nat)
  | new (f : T) (args : Option Nat)
  | chain (e : T)
  deriving DecidableEq, Repr

inductive Tok where
  /-- an identifier, or the property name after `?.` -/
  | name (n : Nat)
  /-- a literal, `this`, a function, an expression in parentheses (which is a node of its own), … -/
  | lit (n : Nat)
  | new
  /-- `.n` -/
  | dot (n : Nat)
  /-- `[ … ]` -/
  | sub (n : Nat)
  /-- `( … )`; `empty`: there are no arguments -/
  | args (n : Nat) (empty : Bool)
  | tpl (n : Nat)
  /-- `?.` -/
  | opt
  /-- any token no expression goes on with -/
  | stop (n : Nat)
  deriving DecidableEq, Repr

/-- The name `target`. -/
def target : Nat := 0

def T.isName : T → Bool
  | .name _ => true
  | _ => false

def T.isChain : T → Bool
  | .chain _ => true
  | _ => false

/-- What a parse function gives: a tree, whether an optional location is reported, and the tokens left. -/
abbrev Res := Except Unit (T × Bool × List Tok)

/-- parser.go:4707-4712: a chain is closed at the root. -/
def closeCall (root fo : Bool) (t : T) : T := if root && fo && !t.isName && !t.isChain then .chain t else t

/-- parser.go:5602-5605. -/
def closeMember (root ol : Bool) (t : T) : T := if root && ol && !t.isName then .chain t else t

mutual
/-- parser.go:4624-4712: the loop of `callExpr`; `none`: the fuel ran out. -/
def callLoop : Nat → (root directOpt firstOpt : Bool) → T → List Tok → Option Res
  | 0, _, _, _, _, _ => none
  | fuel + 1, root, dopt, fo, callee, ts =>
    match ts with
    | .args n _ :: r => callLoop fuel root dopt fo (.call callee n dopt) r
    | .dot _ :: _ | .sub _ :: _ | .opt :: _ =>
      match memberLoop fuel true root fo callee ts with
      | some (.ok (c, fo', r)) => callLoop fuel root dopt (fo || fo') c r
      | x => x
    | .tpl n :: r => if callee.isChain then some (.error ()) else callLoop fuel root dopt fo (.tagged callee n) r
    | _ => some (.ok (closeCall root fo callee, fo, ts))
/-- parser.go:5547-5605: the loop of `memberExpr`. -/
def memberLoop : Nat → (call root optLoc : Bool) → T → List Tok → Option Res
  | 0, _, _, _, _, _ => none
  | fuel + 1, call, root, ol, obj, ts =>
    match ts with
    | .opt :: r =>
      match r with
      | .sub n :: r' => memberLoop fuel call root true (.sub obj n true) r'
      | .args _ _ :: _ =>
        match callLoop fuel false true true obj r with
        | some (.ok (c, _, r')) => memberLoop fuel call root true c r'
        | x => x
      | .name n :: r' => memberLoop fuel call root true (.dot obj n true) r'
      | _ => some (.error ())
    | .sub n :: r => memberLoop fuel call root ol (.sub obj n false) r
    | .dot n :: r => memberLoop fuel call root ol (.dot obj n false) r
    | .args _ _ :: _ =>
      if call then callLoop fuel root false ol obj ts
      else some (.ok (closeMember root ol obj, ol, ts))
    | _ => some (.ok (closeMember root ol obj, ol, ts))
end

/-- parser.go:5663-5786 `primaryExpr`, for the tokens modelled. -/
def primary : List Tok → Except Unit (T × List Tok)
  | .name n :: r => .ok (.name n, r)
  | .lit n :: r => .ok (.lit n, r)
  | _ => .error ()

/-- parser.go:5608-5618 `memberExprObj`. -/
def memberObj (ts : List Tok) : Except Unit (T × List Tok) :=
  match primary ts with
  | .ok (t, .tpl n :: r) => if t.isChain then .error () else .ok (.tagged t n, r)
  | x => x

/-- parser.go:4532-4553: the loop at the end of `newExpr`. -/
def newLoop : Nat → (root optLoc : Bool) → T → List Tok → Option Res
  | 0, _, _, _, _ => none
  | fuel + 1, root, ol, ret, ts =>
    match ts with
    | .args _ _ :: _ => match callLoop fuel root false false ret ts with
      | some (.ok (t, _, r)) => newLoop fuel false ol t r
      | x => x
    | .dot _ :: _ | .sub _ :: _ | .opt :: _ =>
      let ol := ol || ts.head? == some .opt
      match memberLoop fuel true root ol ret ts with
      | some (.ok (t, _, r)) => newLoop fuel false ol t r
      | x => x
    | _ => some (.ok (ret, false, ts))

/-- parser.go:4504-4530: the arguments, and the template that is taken for a tag if there are none. -/
def newNode (expr : T) : List Tok → Except Unit (T × List Tok)
  | .args n true :: .tpl m :: r =>
    if expr.isChain then .error () else .ok (.new (.tagged expr m) (some n), r)
  | .args n _ :: r => .ok (.new expr (some n), r)
  | ts => .ok (.new expr none, ts)

mutual
/-- parser.go:4446-4555 `newExpr`, after `new`. -/
def newExpr : Nat → List Tok → Option Res
  | 0, _ => none
  | fuel + 1, ts =>
    match ts with
    | .dot n :: r => if n = target then some (.ok (.newTarget, false, r)) else some (.error ())
    | _ => match memberExpr fuel ts with
      | some (.ok (expr, ol, r)) =>
        if ol then some (.error ())
        else match newNode expr r with
          | .ok (t, r') => newLoop fuel true false t r'
          | .error x => some (.error x)
      | x => x
/-- parser.go:5535-5546 `memberExpr` with a nil object, as `newExpr` calls it (4486). -/
def memberExpr : Nat → List Tok → Option Res
  | 0, _ => none
  | fuel + 1, ts =>
    match ts with
    | .new :: r => match newExpr fuel r with
      | some (.ok (obj, _, r')) => memberLoop fuel false true false obj r'
      | x => x
    | _ => match memberObj ts with
      | .ok (obj, r) => memberLoop fuel false true false obj r
      | .error x => some (.error x)
end

/-- parser.go:4437-4443: what `lhs` does after the first part. -/
def lhsEnd (fuel : Nat) : Option Res → Option Res
  | some (.ok (t, o, .dot n :: r)) => callLoop fuel true false false t (.dot n :: r)
  | x => x

/-- parser.go:4423-4444 `lhs`. -/
def lhs (fuel : Nat) (ts : List Tok) : Option Res :=
  lhsEnd fuel <| match ts with
    | .new :: r => newExpr fuel r
    | _ => match primary ts with
      | .ok (t, r) => callLoop fuel true false false t r
      | .error x => some (.error x)

/-- Enough fuel for the given tokens. -/
def parse (ts : List Tok) : Option (Except Unit (T × List Tok)) :=
  (lhs (3 * ts.length + 10) ts).map (·.map fun r => (r.1, r.2.2))

end Mole.Parser.Postfix
