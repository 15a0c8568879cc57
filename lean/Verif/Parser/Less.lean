/-!
# Model of how `<` behind an expression is read in TypeScript

ecma/parser/parser.go: `callExpr` 4609-4712, `argList` 5337-5412, `pushState`, `discardState`, `popState` 4588-4601, `addLtTok`,
`isLtTok` 4577-4586, `aheadIsArgList` 4603-4606, `memberExpr` 5547-5605; ecma/parser/ts.go: `tsTryTypArgs` 1605-1640, `tsTypArgs`
1745-1813, `tsTypName` 594-615, `tsRef` 649-672, `tsArr` 674-696.

Simplifications: an expression is a name (`atom`), what is behind it (members, subscripts and calls) and operators with the
operands behind them; how operators group is modelled elsewhere (C17), and so are chains (C65).  There are no operands
that begin with anything but a name (literals, `<`), but for those in parentheses behind other operators than `<`, and no names that
mean something in types; `+` stands for the operators
no type goes on with.  Types are names with members and `[…]`; all others are left out (an error here).  `<<` and JSX are left out.
`?.` is only there before a name.
-/
namespace Mole.Parser.Less

inductive Tok where
  | atom (n : Nat)
  /-- `.n` or `?.n` -/
  | mem (opt : Bool) (n : Nat)
  | lt | gt | plus | comma | lp | rp | lb | rb
  deriving DecidableEq, Repr

mutual
inductive Ty where
  /-- `n.m1.m2<args>`, without `<` and `>` if there are no arguments -/
  | name (n : Nat) (ms : List Nat) (args : Tys)
  | idx (t i : Ty)
  | arr (t : Ty)
inductive Tys where
  | nil
  | cons (t : Ty) (l : Tys)
end

mutual
/-- What is behind the first name of an expression. -/
inductive X where
  | done
  | mem (opt : Bool) (n : Nat) (x : X)
  | sub (n : Nat) (i x : X)
  | call (tys : Tys) (args : A) (x : X)
  | op (o : Tok) (n : Nat) (x : X)
  /-- an operator and an operand in parentheses: `o (n i) x` -/
  | par (o : Tok) (n : Nat) (i x : X)
/-- Arguments, each a name and what is behind. -/
inductive A where
  | nil
  | cons (n : Nat) (x : X) (a : A)
end

inductive Err where
  | fail
  /-- ts.go 28-34 `ErrTypArgMissingGT`, with the place of the `<`, counted from the end of the source -/
  | missing (pos : Nat)
  /-- an empty stack -/
  | panic
  deriving DecidableEq, Repr

/-- The tokens that are left, the states that were saved, and the `<` known to be operators (`ltTokens`, parser.go 39-41). -/
structure St where
  toks : List Tok
  stack : List (List Tok) := []
  lts : List Nat := []
  deriving DecidableEq, Repr

inductive Res (α : Type) where
  | ok (a : α) (s : St)
  | err (e : Err) (s : St)

def Res.map {α β : Type} (f : α → β) : Res α → Res β
  | .ok a s => .ok (f a) s
  | .err e s => .err e s

/-- parser.go 4588-4591. -/
def push (s : St) : St := { s with stack := s.toks :: s.stack }

/-- parser.go 4593-4596, right behind a `push`. -/
def discard (s : St) : St := { s with stack := s.stack.tail }

/-- What is read, the tokens behind, and the place in `errTypArgMissingGT`. -/
inductive TRes (α : Type) where
  | ok (a : α) (r : List Tok) (pos : Nat)
  | err (e : Err)

def TRes.map {α β : Type} (f : α → β) : TRes α → TRes β
  | .ok a r p => .ok (f a) r p
  | .err e => .err e

/-- ts.go 602-613: the members of a name in a type. -/
def members : List Tok → List Nat × List Tok
  | .mem false n :: r => (n :: (members r).1, (members r).2)
  | ts => ([], ts)

mutual
/-- A type.  The parser has one `errTypArgMissingGT`, and `pos` is the place in it: that of the `<` the last type arguments begin with
(ts.go 1750). -/
def typ : Nat → Nat → List Tok → TRes Ty
  | 0, _, _ => .err .fail
  | f + 1, pos, ts =>
    match ts with
    | .atom n :: r =>
      match (members r).2 with
      | .lt :: r1 =>
        match argLoop f (members r).2.length true r1 with
        | .ok l r2 p => suffix f p (.name n (members r).1 l) r2
        | .err e => .err e
      | _ => suffix f pos (.name n (members r).1 .nil) (members r).2
    | _ => .err .fail
/-- ts.go 674-696 `tsArr`. -/
def suffix : Nat → Nat → Ty → List Tok → TRes Ty
  | 0, _, _, _ => .err .fail
  | f + 1, pos, t, ts =>
    match ts with
    | .lb :: r =>
      match r with
      | .rb :: r1 => suffix f pos (.arr t) r1
      | _ =>
        match typ f pos r with
        | .ok i (.rb :: r1) p => suffix f p (.idx t i) r1
        | .ok _ _ _ => .err .fail
        | .err e => .err e
    | _ => .ok t ts pos
/-- ts.go 1754-1812: the type arguments behind the `<`; `first`: are there none yet. -/
def argLoop : Nat → Nat → Bool → List Tok → TRes Tys
  | 0, _, _, _ => .err .fail
  | f + 1, pos, first, ts =>
    match ts with
    | .gt :: r => if first then .err .fail else .ok .nil r pos
    | .atom _ :: _ =>
      match typ f pos ts with
      | .ok t r p =>
        match r with
        | .comma :: r1 => (argLoop f p false r1).map (.cons t)
        | .gt :: r1 => .ok (.cons t .nil) r1 p
        | _ => .err (.missing p)
      | .err e => .err e
    | .lp :: _ => .err .fail
    | _ => .err (.missing pos)
end

def isOp : Tok → Bool
  | .lt | .gt | .plus => true
  | _ => false

/-- `binExpr`: an operator and its operand, `k` being `callExpr` and what follows. -/
def ops (k : St → Res X) (s : St) : Res X :=
  match s.toks with
  | o :: r =>
    if isOp o then
      match r with
      | .atom n :: r1 => (k { s with toks := r1 }).map (.op o n)
      | .lp :: .atom n :: r1 =>
        if o = .lt then .err .fail s else
          match k { s with toks := r1 } with
          | .ok i s1 =>
            match s1.toks with
            | .rp :: r2 => (k { s1 with toks := r2 }).map (.par o n i)
            | _ => .err .fail s1
          | .err e s1 => .err e s1
      | _ => .err .fail s
    else .ok .done s
  | [] => .ok .done s

/-- parser.go 4638-4652: the trial has failed; `callExpr` gives back its callee. -/
def giveUp (k : St → Res X) (opt : Bool) (e : Err) (s : St) : Res X :=
  match e with
  | .missing p =>
    if opt then .err e s else
      match s.stack with
      | [] => .err .panic s
      | t :: st => ops k ⟨t, st, p :: s.lts⟩
  | _ => .err e s

mutual
/-- What is behind the first name of an expression: the loop of `callExpr` 4624-4705, with `memberExpr` 5547-5605, and then `binExpr`.
`T`: is TypeScript on; `opt`: is there a `?.` before (`firstOpt`). -/
def tail (T : Bool) : Nat → Bool → St → Res X
  | 0, _, s => .err .fail s
  | f + 1, opt, s =>
    match s.toks with
    | .mem o n :: r => (tail T f (opt || o) { s with toks := r }).map (.mem o n)
    | .lb :: r =>
      match r with
      | .atom n :: r1 =>
        match tail T f false { s with toks := r1 } with
        | .ok i s1 =>
          match s1.toks with
          | .rb :: r2 => (tail T f opt { s1 with toks := r2 }).map (.sub n i)
          | _ => .err .fail s1
        | .err e s1 => .err e s1
      | _ => .err .fail s
    | .lp :: r =>
      match args T f { s with toks := r } with
      | .ok a s1 => (tail T f opt s1).map (.call .nil a)
      | .err e s1 => giveUp (tail T f false) opt e s1
    | .lt :: r =>
      -- 4603-4606 `aheadIsArgList`
      if !T || s.lts.contains s.toks.length then ops (tail T f false) s
      else
        -- 4634-4636 and ts.go 1616
        let s1 := push (push s)
        match argLoop f s.toks.length true r with
        -- where the trial ended is not kept: what is left must come from the stack
        | .err e => giveUp (tail T f false) opt e { s1 with toks := [] }
        | .ok tys r1 _ =>
          let s2 := discard s1
          match r1 with
          | .lp :: r2 =>
            match args T f { s2 with toks := r2 } with
            | .ok a s3 =>
              match s3.stack with
              | [] => .err .panic s3
              | _ :: st => (tail T f opt { s3 with stack := st }).map (.call tys a)
            | .err e s3 => giveUp (tail T f false) opt e s3
          | _ => .err .fail s2
    | _ => ops (tail T f false) s
/-- parser.go 5369-5412: the arguments behind the `(`. -/
def args (T : Bool) : Nat → St → Res A
  | 0, s => .err .fail s
  | f + 1, s =>
    match s.toks with
    | .rp :: r => .ok .nil { s with toks := r }
    | .atom n :: r =>
      match tail T f false { s with toks := r } with
      | .ok x s1 =>
        match s1.toks with
        | .comma :: r1 => (args T f { s1 with toks := r1 }).map (.cons n x)
        | .rp :: r1 => .ok (.cons n x .nil) { s1 with toks := r1 }
        | _ => .err .fail s1
      | .err e s1 => .err e s1
    | _ => .err .fail s
end

/-- An expression and nothing behind it: the first name and the rest; `none`: an error. -/
def parse (T : Bool) (ts : List Tok) : Option (Nat × X) :=
  match ts with
  | .atom n :: r =>
    match tail T (r.length + 3) false { toks := r } with
    | .ok x s => if s.toks.isEmpty then some (n, x) else none
    | .err _ _ => none
  | _ => none

end Mole.Parser.Less
