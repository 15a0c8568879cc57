import Verif.Parser.Prog

/-! # The ranges of nodes (ecma/parser/parser.go, lexer.go)

The recursive descent of `Verif/Parser/Prog.lean` once more, for where the nodes are in the source.  A node is its kind, its range and its
parts in the order of the source.  The tokens have places, and what has been read ahead is counted: `rng` (where a node begins) looks at
the first token read ahead, and at the end of the last token read if nothing has been.

Simplifications, besides those at the definitions:
* all features are on but TypeScript, JSX, classes, modules and `import()`;
* what depends on anything else than the tokens (the kind of a scope, names that are reserved, targets that may not be assigned) is asked
  of an oracle, which answers each question as it likes: no run of the parser is left out by this, since a check only says no or chooses
  one of the branches here;
* the end of the code counts as read ahead when looked at (lexer.go 459-461 does not keep it); no node begins there, and taking it is an error;
* a token stays what it is (C75), and the buffer of tokens read ahead is large enough (C71);
* the holes of arrays are no nodes. -/

namespace Mole.Parser.Rng

open Prog (K Kw Cw Pu BinOp AsgOp startExpr isKw canKey pcd isBin text isAtom isTplHead isUnary isIncDec isYield decKind)

/-- token.go 5-20: a token with its place.  `slo` and `shi` are the place of the text in a part of a template (TokExtTplSpan.strRng). -/
structure T where
  k : K
  nl : Bool := false
  lo : Nat
  hi : Nat
  slo : Nat := lo
  shi : Nat := hi
deriving DecidableEq, Repr

/-- nodetype.go, for the nodes here.  N_NAME is `dotName` after a dot; N_EXPR_TPL is `tagged` with a tag; N_PROP is `method` if it is one,
with an N_EXPR_FN that is `value`, and `init` with `=`; `starSeq` and `starBin` are what is made of `async * (a, b)`, parser.go 2709-2721. -/
inductive Kd where
  | name | dotName | lit | this | super | text
  | tpl | tagged | arr | obj | prop | init | method | value | spread | fn | arrow | paren | seq | starSeq | starBin
  | yield_ | unary | update | bin | cond | assign | member | index | call | new_ | meta_ | chain
  | arrPat | objPat | assignPat | rest
  | exprStmt | varDec | dec | block | empty | ifS | whileS | doS | forS | forIn | ret | throwS | brk | cont | label | switchS | case
  | tryS | catchS | withS | debug | prog
deriving DecidableEq, Repr

/-- ast.go: a node, its range and its parts. -/
inductive Nd where
  | node (k : Kd) (lo hi : Nat) (kids : List Nd)
deriving Repr

def Nd.kd : Nd → Kd
  | .node k _ _ _ => k

/-- Range().Lo -/
def Nd.lo : Nd → Nat
  | .node _ l _ _ => l

/-- Range().Hi -/
def Nd.hi : Nd → Nat
  | .node _ _ h _ => h

def Nd.kids : Nd → List Nd
  | .node _ _ _ l => l

/-- The tokens, and the answers of the oracle. -/
structure Env where
  t : List T
  o : Nat → Bool

/-- lexer.go 112-127: the number of tokens read, how many more have been read ahead, and the number of questions asked. -/
structure S where
  i : Nat
  ahead : Nat
  c : Nat
deriving DecidableEq, Repr

/-- The end of the code, where there is no token. -/
def eofT : T := { k := .eof, lo := 0, hi := 0 }

def tokAt (t : List T) (i : Nat) : T := t.getD i eofT

def M (α : Type) := Env → S → Option (α × S)

instance : Monad M where
  pure a := fun _ s => some (a, s)
  bind m f := fun e s =>
    match m e s with
    | some (a, s') => f a e s'
    | none => none

/-- An error is reported. -/
def fail {α : Type} : M α := fun _ _ => none

def req (b : Bool) : M Unit := fun _ s => if b then some ((), s) else none

/-- The oracle is asked. -/
def ask : M Bool := fun e s => some (e.o s.c, { s with c := s.c + 1 })

/-- A check that may only say no. -/
def chk : M Unit := fun e s => if e.o s.c then some ((), { s with c := s.c + 1 }) else none

/-- lexer.go 195-200, 202-207 (Peek, PeekStmtBegin): the next token, which is then read ahead. -/
def peekT : M T := fun e s => some (tokAt e.t s.i, { s with ahead := max s.ahead 1 })

/-- The same, of which only the kind is looked at. -/
def peek : M K := fun e s => some ((tokAt e.t s.i).k, { s with ahead := max s.ahead 1 })

/-- lexer.go 209-211 (PeekGrow): one token more is read ahead. -/
def grow : M T := fun e s => some (tokAt e.t (s.i + s.ahead), { s with ahead := s.ahead + 1 })

/-- lexer.go 216-227 (Peek2nd): the token after the next. -/
def peek2 : M T := fun e s => some (tokAt e.t (s.i + 1), { s with ahead := max s.ahead 2 })

/-- lexer.go 176-181 (Next).  No function of the parser goes on after it has taken the end of the code. -/
def next : M Unit := fun e s =>
  if (tokAt e.t s.i).k = .eof then none else some ((), { s with i := s.i + 1, ahead := s.ahead - 1 })

/-- lexer.go 176-181 (Next), where the token is looked at as it is taken. -/
def take : M T := fun e s =>
  if (tokAt e.t s.i).k = .eof then none else some (tokAt e.t s.i, { s with i := s.i + 1, ahead := s.ahead - 1 })

/-- parser.go 6455-6461 (nextMustTok): the token is taken, its beginning is returned. -/
def must (k : K) : M Nat := fun e s =>
  if (tokAt e.t s.i).k = k ∧ k ≠ .eof then some ((tokAt e.t s.i).lo, { s with i := s.i + 1, ahead := s.ahead - 1 }) else none

/-- prtRng.Hi, lexer.go 176-181: the end of the last token taken. -/
def prev (t : List T) (i : Nat) : Nat := if i = 0 then 0 else (tokAt t (i - 1)).hi

/-- parser.go 6495-6497, lexer.go 229-240 (Rng): where a node begins.  If nothing is read ahead it is where reading stopped. -/
def rng : M Nat := fun e s => some (if s.ahead = 0 then prev e.t s.i else (tokAt e.t s.i).lo, s)

/-- parser.go 6511-6513, lexer.go 242-249 (FinRng): where a node ends.  The value T_ILLEGAL of the last token read is an error. -/
def fin : M Nat := fun e s => some (prev e.t s.i, s)

/-- A node that ends here. -/
def mk (k : Kd) (lo : Nat) (kids : List Nd) : M Nd := do
  let h ← fin
  return .node k lo h kids

/-- parser.go 6428-6441 (isExprOpening). -/
def opens (t : T) : Bool :=
  t.k = .pu .semi || t.k = .pu .braceR || t.k = .pu .comma || t.k = .pu .parenR || t.k = .pu .colon || t.nl || t.k = .eof

/-- parser.go 6428-6441 (isExprOpening). -/
def opening : M Unit := do
  let t ← peekT
  req (opens t)

/-- parser.go 6443-6453 (advanceIfSemi). -/
def semi (raise : Bool) : M Unit := do
  let t ← peekT
  req (!raise || opens t)
  if t.k = .pu .semi then next else return ()

/-- The functions that call each other, with one step of fuel less. -/
structure Rec where
  expr : M Nd
  seqRest : M (List Nd)
  assign : M Nd
  unary : M Nd
  binRest : Nd → Nat → M Nd
  binInner : Nd → Nat → M Nd
  newE : M Nd
  newRest : Nd → Bool → M Nd
  /-- the beginning of the calls is given -/
  callRest : Nat → Nd → Bool → Bool → M (Nd × Bool)
  memRest : Nd → Bool → Bool → Bool → M (Nd × Bool)
  args : Bool → M (List Nd × Bool)
  tplRest : M (List Nd)
  arrRest : M (List Nd)
  objRest : M (List Nd)
  params : M (List Nd)
  pat : M Nd
  patElem : M Nd
  patArr : M (List Nd)
  patObj : M (List Nd)
  decs : M (List Nd)
  stmt : M Nd
  stmts : Bool → M (List Nd)
  cases : M (List Nd)
  caseBody : M (List Nd)

section
variable (r : Rec)

/-! ## Names and patterns -/

def isIdentTok : K → Bool
  | .name _ | .cw _ => true
  | _ => false

/-- A token that is a node by itself. -/
def leaf (k : Kd) : M Nd := do
  let t ← peekT
  next
  mk k t.lo []

/-- parser.go 3287-3324 (identStrict, ident).  The token is taken without being looked at before; its own range is used. -/
def ident : M Nd := do
  let t ← take
  req (isIdentTok t.k)
  chk
  mk .name t.lo []

def isName (n : Nd) : Bool := n.kd = .name

mutual
/-- parser.go 4934-5220 (argToParam): an expression as a pattern.  What is not allowed is left to a check. -/
def toPat : Nd → Nd
  | .node .arr lo hi kids => .node .arrPat lo hi (toPats kids)
  | .node .obj lo hi kids => .node .objPat lo hi (toPats kids)
  | .node .prop lo hi [key, v] => .node .prop lo hi [key, toPat v]
  | .node .init lo hi [key, v] => .node .prop lo hi [.node .assignPat lo hi [toPat key, v]]
  | .node .assign lo hi [l, r] => .node .assignPat lo hi [toPat l, r]
  | .node .spread lo hi [a] => .node .rest lo hi [toPat a]
  | .node .paren _ _ [.node .name lo hi kids] => .node .name lo hi kids
  | .node .paren _ _ [.node .lit lo hi kids] => .node .lit lo hi kids
  | n => n

def toPats : List Nd → List Nd
  | [] => []
  | n :: l => toPat n :: toPats l
end

/-- parser.go 4934-5220 (argToParam). -/
def target (n : Nd) : M Nd := do
  chk
  return toPat n

/-- parser.go 4829-4841 (argsToParams). -/
def targets (l : List Nd) : M (List Nd) := do
  chk
  return toPats l

/-- parser.go 3928-3969 (patternRest). -/
def patRest (arrPat : Bool) : M Nd := do
  let lo ← rng
  next
  let k ← peek
  req (k matches .name _ || arrPat && (k = .pu .brackL || k = .pu .braceL))
  let a ← r.pat
  let k ← peek
  req (k ≠ .pu .comma)
  mk .rest lo [a]

/-- parser.go 3603-3627 (bindingPattern), 3879-3896 (the same part of bindingElem). -/
def pat : M Nd := do
  match ← peek with
  | .pu .braceL => do
    let lo ← rng
    next
    let l ← r.patObj
    mk .objPat lo l
  | .pu .brackL => do
    let lo ← rng
    next
    let l ← r.patArr
    mk .arrPat lo l
  | .pu .dots => patRest r true
  | _ => ident

/-- parser.go 3879-3926 (bindingElem, patternAssign). -/
def patElem : M Nd := do
  let b ← r.pat
  if (← peek) = .asg .assign then do
    next
    let v ← r.assign
    chk
    mk .assignPat b.lo [b, v]
  else return b

def isRest (n : Nd) : Bool := n.kd = .rest || n.kd = .spread

/-- parser.go 3831-3864 (patternArr), after the opening bracket. -/
def patArr : M (List Nd) := do
  let k ← peek
  if k = .pu .comma then do
    next
    r.patArr
  else if k = .pu .brackR then do
    next
    return []
  else do
    let n ← r.patElem
    let k ← peek
    req (!isRest n || k = .pu .brackR)
    if k = .pu .comma then do
      next
      let l ← r.patArr
      return n :: l
    else do
      let _ ← must (.pu .brackR)
      return [n]

/-- parser.go 3402-3500 (param), without TypeScript.  `this` is a parameter of a method, where the oracle says so. -/
def param : M Nd := do
  let t ← peekT
  let m ← ask
  if m && t.k = .kw .this then do
    next
    mk .name t.lo []
  else do
    let b ← r.pat
    if (← peek) = .asg .assign then do
      next
      let v ← r.assign
      chk
      req (!isRest b)
      mk .assignPat b.lo [b, v]
    else return b

/-- parser.go 3528-3601 (paramList), after the opening parenthesis. -/
def params : M (List Nd) := do
  if (← peek) = .pu .parenR then do
    next
    return []
  else do
    let n ← param r
    if (← peek) = .pu .comma then do
      next
      let l ← r.params
      return n :: l
    else do
      let _ ← must (.pu .parenR)
      return [n]

/-- parser.go 2959-2961, 3064-3095 (fnBody, blockStmt). -/
def body : M Nd := do
  let lo ← must (.pu .braceL)
  let l ← r.stmts true
  chk
  mk .block lo l

/-- parser.go 6144-6366 (method), from the parameters on: the value of the property, and the property, which begins at `lo`. -/
def methodTail (lo : Nat) (key : Nd) : M Nd := do
  let flo ← rng
  let _ ← must (.pu .parenL)
  let ps ← r.params
  let b ← body r
  chk
  let f ← mk .value flo (ps ++ [b])
  mk .method lo [key, f]

def isLitKey : K → Bool
  | .str _ | .num _ => true
  | _ => false

/-- parser.go 3755-3804 (propName up to the key): the beginning of the bracket if the key is computed, and the key.  The token is taken
without being looked at before; its own range is used. -/
def propKey : M (Option Nat × Nd) := do
  let t ← take
  if t.k = .pu .brackL then do
    let n ← r.assign
    let _ ← must (.pu .brackR)
    return (some t.lo, n)
  else if isLitKey t.k then do
    chk
    let n ← mk .lit t.lo []
    return (none, n)
  else if canKey t.k then do
    chk
    let n ← mk .name t.lo []
    return (none, n)
  else fail

/-- parser.go 3725-3753 (isField). -/
def isField (getter : Bool) (t : T) : Bool :=
  t.k = .pu .colon || t.k = .asg .assign || t.k = .pu .semi || t.k = .pu .comma || t.k = .pu .braceR || t.k = .pu .parenR ||
  (if getter then !startExpr t.k && !(t.k matches .pvt _) && t.k ≠ .pu .brackL && !isKw t.k else t.nl)

/-- parser.go 3763-3765: where the property begins, and the text of its first token. -/
def propBegin : M (Nat × String) := fun e s => some (((tokAt e.t s.i).lo, text (tokAt e.t s.i).k), s)

/-- The beginning of the bracket, or else of the key. -/
def keyLo (c : Option Nat) (key : Nd) : Nat := c.getD key.lo

/-- parser.go 3806-3809, in `method`: the look ahead after the key of a getter, a setter, or a method with `async` or a star. -/
def propKey2 : M (Option Nat × Nd) := do
  let c ← propKey r
  let _ ← peek
  return c

/-- parser.go 3755-3829 (propName): the key, or a method. -/
def propName : M ((Option Nat × Nd) ⊕ Nd) := do
  let (lo, w) ← propBegin
  let c ← propKey r
  let t ← peekT
  if isField (w = "get" || w = "set") t then return .inl c
  else if (w = "get" || w = "set") && t.k ≠ .pu .parenL then do
    let c ← propKey2 r
    let m ← methodTail r lo c.2
    return .inr m
  else do
    let m ← methodTail r lo c.2
    return .inr m

/-- parser.go 3672-3723 (patternProp), 3637-3650.  The property with a default begins where the key does, also if that is in brackets. -/
def patProp : M Nd := do
  if (← peek) = .pu .dots then patRest r false
  else do
    match ← propName r with
    | .inr _ => fail
    | .inl c => do
      let k ← peek
      if k = .pu .colon then do
        next
        let v ← r.patElem
        mk .prop (keyLo c.1 c.2) [c.2, v]
      else if k = .asg .assign then do
        req (isName c.2)
        next
        let v ← r.assign
        chk
        let a ← mk .assignPat c.2.lo [c.2, v]
        mk .prop c.2.lo [a]
      else mk .prop (keyLo c.1 c.2) [c.2]

/-- parser.go 3629-3670 (patternObj), after the opening brace. -/
def patObj : M (List Nd) := do
  if (← peek) = .pu .braceR then do
    next
    return []
  else do
    let n ← patProp r
    let k ← peek
    req (!isRest n || k = .pu .braceR)
    if k = .pu .comma then do
      next
      let l ← r.patObj
      return n :: l
    else do
      let _ ← must (.pu .braceR)
      return [n]

/-! ## Functions -/

/-- parser.go 5788-5860 (arrowFn), from the arrow on; the function begins at `lo`. -/
def arrowFn (lo : Nat) (ps : List Nd) : M Nd := do
  next
  if (← peek) = .pu .braceL then do
    let b ← body r
    opening
    chk
    mk .arrow lo (ps ++ [b])
  else do
    let b ← r.assign
    chk
    mk .arrow lo (ps ++ [b])

/-- parser.go 2485-2512 (aheadIsAsync): what the token after `async` says; `prop`: as the key of a property, `notIn`: SPK_NOT_IN. -/
def asyncAfter (prop notIn : Bool) (t : T) : Bool :=
  !t.nl &&
  (match t.k with
   | .kw .func | .bin .mul => true
   | .pu .parenL => !prop
   | .name s => prop || !(notIn && (s = "in" || s = "of"))
   | .pu .brackL | .str _ => prop
   | k => prop && canKey k)

/-- parser.go 2485-2512 (aheadIsAsync). -/
def isAsync (prop : Bool) (k : K) : M Bool := do
  if k = .name "async" then do
    let t ← peek2
    let b ← ask
    return asyncAfter prop b t
  else return false

/-- parser.go 2549-2559: the star. -/
def star : M Bool := do
  if (← peek) = .bin .mul then do
    next
    return true
  else return false

/-- parser.go 2549-2559: the name, if there is one. -/
def fnName : M (List Nd) := do
  let k ← peek
  if k = .pu .parenL || k = .bin .lt then return []
  else do
    let n ← ident
    chk
    return [n]

/-- parser.go 2680-2687: the body. -/
def bodyOrExpr : M Nd := do
  if (← peek) = .pu .braceL then body r else r.expr

/-- parser.go 2514-2845 (fnDec) with the keyword, which is the next token; the function begins at `lo`. -/
def fnKw (lo : Nat) (expr : Bool) : M Nd := do
  next
  let _ ← star
  let id ← fnName
  req (expr || !id.isEmpty)
  let _ ← must (.pu .parenL)
  let ps ← r.params
  let k ← peek
  req (k = .pu .braceL || expr && k ≠ .pu .arrow)
  let b ← bodyOrExpr r
  chk
  let f ← mk .fn lo (id ++ ps ++ [b])
  let k ← peek
  if expr && k = .pu .parenL then do
    let (e, _) ← r.callRest f.lo f true false
    return e
  else return f

/-- What `async` without `function` is found to be. -/
inductive AsyncRes where
  | arrow (n : Nd)
  /-- a function without `function` -/
  | fn (n : Nd)
  /-- a call of a function `async`, or a product -/
  | call (n : Nd)

/-- parser.go 2597-2625: the arguments, or the parameters; true if it is the name before an arrow. -/
def asyncArgs (id : List Nd) : M (List Nd × Bool) := do
  let t ← peekT
  if !id.isEmpty && t.k = .pu .arrow && !t.nl then return (id, true)
  else do
    let _ ← must (.pu .parenL)
    let (l, _) ← r.args false
    return (l, false)

/-- parser.go 2709-2721: the right operand of `async * (a, b)`; `lo` is where `async` begins. -/
def starRhs (lo : Nat) : List Nd → M Nd
  | [] => fail
  | [a] => return a
  | l => mk .starSeq lo l

/-- parser.go 2514-2845 (fnDec) for `async` without `function`, after `async`, which is the node `as`.  A name that is neither that of a
function nor a parameter is lost. -/
def asyncTail (as : Nd) : M AsyncRes := do
  let gen ← star
  let id ← fnName
  let (args, one) ← asyncArgs r id
  let t ← peekT
  if t.k = .pu .arrow && !t.nl then do
    let ps ← targets args
    next
    let b ← bodyOrExpr r
    chk
    let f ← mk .arrow as.lo (ps ++ [b])
    return .arrow f
  else if t.k = .pu .braceL then do
    let ps ← targets args
    let b ← body r
    chk
    let f ← mk .fn as.lo ((if one then [] else id) ++ ps ++ [b])
    return .fn f
  else if gen then do
    let rhs ← starRhs as.lo args
    let n ← mk .starBin as.lo [as, rhs]
    return .call n
  else do
    chk
    let n ← mk .call as.lo (as :: args)
    return .call n

/-- parser.go 2517-2529: `async` is taken. -/
def asyncTok : M Nd := do
  let t ← peekT
  next
  mk .name t.lo []

/-- parser.go 2514-2845 (fnDec) for `async` in an expression. -/
def asyncExpr : M Nd := do
  let as ← asyncTok
  if (← peek) = .kw .func then fnKw r as.lo true
  else do
    match ← asyncTail r as with
    | .arrow n => return n
    | .call n => return n
    | .fn n => do
      if (← peek) = .pu .parenL then do
        let (e, _) ← r.callRest n.lo n true false
        return e
      else return n

/-! ## Expressions -/

/-- parser.go 4806: the text of a part of a template. -/
def tplText (t : T) : Nd := .node .text t.slo t.shi []

/-- parser.go 4775-4827 (tplExpr), a part and what follows. -/
def tplRest : M (List Nd) := do
  let t ← peekT
  match t.k with
  | .tplPlain _ | .tplTail _ => do
    chk
    next
    return [tplText t]
  | .tplHead _ | .tplSpan _ => do
    chk
    next
    let e ← r.expr
    let l ← r.tplRest
    return tplText t :: e :: l
  | _ => fail

/-- parser.go 4775-4827 (tplExpr) without a tag. -/
def tpl : M Nd := do
  let t ← peekT
  let l ← r.tplRest
  mk .tpl t.lo l

/-- parser.go 4775-4827 (tplExpr) with a tag: the node begins where the template does. -/
def tagged (tag : Nd) : M Nd := do
  req (tag.kd ≠ .chain)
  let t ← peekT
  let l ← r.tplRest
  mk .tagged t.lo (tag :: l)

/-- parser.go 6005-6045 (spread). -/
def spread : M Nd := do
  let lo ← rng
  next
  let e ← r.assign
  let _ ← peek
  mk .spread lo [e]

/-- parser.go 5421-5426 (arg), 5995-6000 (arrElem). -/
def arg : M Nd := do
  if (← peek) = .pu .dots then spread r else r.assign

/-- parser.go 5358-5415 (argList), after the opening parenthesis: the arguments, and whether a comma is the last.
`incall`: a comma may follow a spread. -/
def args (incall : Bool) : M (List Nd × Bool) := do
  if (← peek) = .pu .parenR then do
    next
    return ([], false)
  else do
    let a ← arg r
    if (← peek) = .pu .comma then do
      next
      req (incall || !isRest a)
      let k ← peek
      chk
      let (l, tc) ← r.args incall
      return (a :: l, k = .pu .parenR || tc)
    else do
      let _ ← must (.pu .parenR)
      chk
      return ([a], false)

/-- parser.go 5905-5930 (parenExpr): what is in the parentheses, as one node.  Several make a sequence from the first to the last. -/
def inParens : List Nd → M Nd
  | [] => fail
  | [a] => return a
  | a :: l => return .node .seq a.lo ((a :: l).getLastD a).hi (a :: l)

/-- parser.go 5862-5955 (parenExpr). -/
def parenE : M Nd := do
  let lo ← rng
  let _ ← must (.pu .parenL)
  let (l, tc) ← r.args false
  let t ← peekT
  if t.k = .pu .arrow && !t.nl then do
    let ps ← targets l
    arrowFn r lo ps
  else do
    req (!tc)
    chk
    let n ← inParens l
    mk .paren lo [n]

/-- parser.go 5969-5999 (arrLit, arrElem), after the opening bracket. -/
def arrRest : M (List Nd) := do
  let k ← peek
  if k = .pu .comma then do
    next
    r.arrRest
  else if k = .pu .brackR then do
    next
    return []
  else do
    let n ← arg r
    if (← peek) = .pu .comma then do
      next
      let l ← r.arrRest
      return n :: l
    else do
      let _ ← must (.pu .brackR)
      return [n]

/-- parser.go 6105-6142 (propData). -/
def propData : M Nd := do
  match ← propName r with
  | .inr m => return m
  | .inl c => do
    let k ← peek
    if k = .pu .colon then do
      next
      let v ← r.assign
      mk .prop (keyLo c.1 c.2) [c.2, v]
    else if k = .asg .assign then do
      next
      let v ← r.assign
      mk .init (keyLo c.1 c.2) [c.2, v]
    else if k = .pu .parenL then methodTail r (keyLo c.1 c.2) c.2
    else do
      req c.1.isNone
      chk
      mk .prop (keyLo c.1 c.2) [c.2]

/-- parser.go 6083-6103 (objProp), 6144-6185 (method). -/
def objProp : M Nd := do
  let k ← peek
  let b ← isAsync true k
  if k = .pu .dots then spread r
  else if k = .bin .mul then do
    let lo ← rng
    next
    let c ← propKey2 r
    methodTail r lo c.2
  else if b then do
    let lo ← rng
    next
    let _ ← star
    let c ← propKey2 r
    methodTail r lo c.2
  else propData r

/-- parser.go 6049-6081 (objLit), after the opening brace. -/
def objRest : M (List Nd) := do
  if (← peek) = .pu .braceR then do
    next
    return []
  else do
    let n ← objProp r
    if (← peek) = .pu .comma then do
      next
      let l ← r.objRest
      return n :: l
    else do
      let _ ← must (.pu .braceR)
      return [n]

/-- parser.go 5663-5786 (primaryExpr), without classes and `import`. -/
def primary : M Nd := do
  let t ← peekT
  if t.k = .kw .this then leaf .this
  else if isAtom t.k then do
    chk
    leaf .lit
  else if t.k matches .name _ then do
    let b ← isAsync false t.k
    if b then asyncExpr r
    else do
      next
      let _ ← peek
      chk
      mk .name t.lo []
  else if t.k = .kw .func then do
    let lo ← rng
    fnKw r lo true
  else if t.k = .kw .super then do
    chk
    next
    let k' ← peek
    req (k' = .pu .dot || k' = .pu .parenL)
    mk .super t.lo []
  else if t.k = .pu .parenL then parenE r
  else if t.k = .pu .brackL then do
    let lo ← rng
    next
    let l ← r.arrRest
    mk .arr lo l
  else if t.k = .pu .braceL then do
    let lo ← rng
    next
    let l ← r.objRest
    mk .obj lo l
  else if isTplHead t.k then tpl r
  else fail

/-- The token is a name after a dot. -/
def isDotKey (k : K) : Bool := !(k matches .num _) && (canKey k || k matches .pvt _)

/-- parser.go 5632-5661 (memberExprPropDot), after the dot: `rng` is asked before the name is read. -/
def dot (obj : Nd) : M Nd := do
  let lo ← rng
  let t ← take
  req (isDotKey t.k)
  chk
  let n ← mk .dotName lo []
  mk .member obj.lo [obj, n]

/-- parser.go 5617-5630 (memberExprPropSubscript). -/
def subscript (obj : Nd) : M Nd := do
  next
  let e ← r.expr
  let _ ← must (.pu .brackR)
  mk .index obj.lo [obj, e]

/-- parser.go 4693-4696 (callExpr), 5599-5601 (memberExpr): the mark around a chain. -/
def chain (b : Bool) (n : Nd) : Nd := if b then .node .chain n.lo n.hi [n] else n

/-- parser.go 4624-4700 (callExpr), one turn of the loop and what follows.  Every call begins at `lo`. -/
def callRest (lo : Nat) (callee : Nd) (root opt : Bool) : M (Nd × Bool) := do
  let k ← peek
  if k = .pu .parenL then do
    next
    let (l, _) ← r.args true
    chk
    let n ← mk .call lo (callee :: l)
    r.callRest lo n root opt
  else if k = .pu .brackL || k = .pu .dot || k = .pu .optChain then do
    let (e, fo) ← r.memRest callee true root opt
    r.callRest lo e root (opt || fo)
  else if isTplHead k then do
    let e ← tagged r callee
    r.callRest lo e root opt
  else return (chain (root && opt && !isName callee && callee.kd ≠ .chain) callee, opt)

/-- parser.go 5555-5577 (memberExpr): after `?.`. -/
def optional (obj : Nd) : M Nd := do
  let k ← peek
  if k = .pu .brackL then subscript r obj
  else if k = .pu .parenL then do
    let (e, _) ← r.callRest obj.lo obj false true
    return e
  else dot obj

/-- parser.go 5547-5604 (memberExpr), one turn of the loop and what follows. -/
def memRest (obj : Nd) (call root opt : Bool) : M (Nd × Bool) := do
  let k ← peek
  if k = .pu .optChain then do
    next
    let e ← optional r obj
    r.memRest e call root true
  else if k = .pu .brackL then do
    let e ← subscript r obj
    r.memRest e call root opt
  else if k = .pu .dot then do
    next
    let e ← dot obj
    r.memRest e call root opt
  else do
    chk
    if call && k = .pu .parenL then r.callRest obj.lo obj root opt
    else return (chain (root && opt && !isName obj) obj, opt)

/-- parser.go 4525-4551 (newExpr): one turn of the loop and what follows. -/
def newRest (e : Nd) (root : Bool) : M Nd := do
  let k ← peek
  if k = .pu .parenL then do
    let (e, _) ← r.callRest e.lo e root false
    r.newRest e false
  else if k = .pu .brackL || k = .pu .dot || k = .pu .optChain then do
    let b ← ask
    let (e, _) ← r.memRest e true root b
    r.newRest e false
  else return e

/-- parser.go 5536-5544, 5606-5615 (memberExpr, memberExprObj): the first part. -/
def memObj : M Nd := do
  if (← peek) = .kw .new_ then r.newE
  else do
    let p ← primary r
    if isTplHead (← peek) then tagged r p else return p

/-- parser.go 4453-4470 (newExpr): `new.target`, from the dot on. -/
def newTarget (lo hi : Nat) : M Nd := do
  next
  let id ← ident
  chk
  mk .meta_ lo [.node .name lo hi [], id]

/-- parser.go 4482-4523 (newExpr): the arguments, and the template after empty ones; the callee and the arguments. -/
def newArgs (e : Nd) : M (List Nd) := do
  if (← peek) = .pu .parenL then do
    next
    let (l, _) ← r.args true
    let k ← peek
    if l.isEmpty && isTplHead k then do
      let e ← tagged r e
      return [e]
    else return e :: l
  else return [e]

/-- parser.go 4446-4551 (newExpr). -/
def newE : M Nd := do
  let lo ← rng
  next
  let h ← fin
  if (← peek) = .pu .dot then newTarget lo h
  else do
    let obj ← memObj r
    let (e, opt) ← r.memRest obj false true false
    req (!opt)
    chk
    let l ← newArgs r e
    let n ← mk .new_ lo l
    r.newRest n true

/-- parser.go 4425-4444 (lhs), without the second turn; 4607-4619 (callExpr). -/
def lhs1 : M Nd := do
  if (← peek) = .kw .new_ then r.newE
  else do
    let lo ← rng
    let p ← primary r
    let (e, _) ← r.callRest lo p true false
    return e

/-- parser.go 4425-4444 (lhs). -/
def lhs : M Nd := do
  let n ← lhs1 r
  if (← peek) = .pu .dot then do
    let (e, _) ← r.callRest n.lo n true false
    return e
  else return n

/-- parser.go 4360-4423 (updateExpr). -/
def update : M Nd := do
  let lo ← rng
  let k ← peek
  if isIncDec k then do
    next
    let a ← r.unary
    chk
    mk .update lo [a]
  else do
    let a ← lhs r
    let t ← peekT
    if !t.nl && isIncDec t.k then do
      chk
      next
      mk .update lo [a]
    else return a

/-- parser.go 4245-4357 (awaitExpr, unaryExpr). -/
def unary : M Nd := do
  let t ← peekT
  if isUnary t.k then do
    next
    let a ← r.unary
    chk
    mk .unary t.lo [a]
  else if t.k = .cw .await then do
    next
    if !startExpr (← peek) then do
      chk
      mk .name t.lo []
    else do
      chk
      let a ← r.unary
      mk .unary t.lo [a]
  else update r

/-- parser.go 5491-5503 (binExpr): the inner loop. -/
def binInner (rhs : Nd) (p : Nat) : M Nd := do
  let b ← ask
  match isBin b (← peek) with
  | some op =>
    if pcd op > p || (pcd op = p && op = .pow) then do
      let e ← r.binRest rhs (pcd op)
      r.binInner e (pcd op)
    else return rhs
  | none => return rhs

/-- parser.go 5446-5532 (binExpr): one turn of the loop and what follows. -/
def binRest (l : Nd) (minPcd : Nat) : M Nd := do
  let b ← ask
  match isBin b (← peek) with
  | none => return l
  | some op =>
    if pcd op < minPcd then return l
    else do
      chk
      next
      let rhs ← r.unary
      let rhs ← r.binInner rhs (pcd op)
      chk
      let n ← mk .bin l.lo [l, rhs]
      r.binRest n minPcd

/-- parser.go 4199-4242 (condExpr). -/
def cond : M Nd := do
  let u ← r.unary
  let t ← r.binRest u 0
  if (← peek) = .pu .hook then do
    next
    let a ← r.assign
    let _ ← must (.pu .colon)
    let b ← r.assign
    mk .cond t.lo [t, a, b]
  else return t

/-- parser.go 4041-4069 (yieldExpr). -/
def yieldE : M Nd := do
  let lo ← rng
  next
  chk
  let t ← peekT
  if t.nl || (!startExpr t.k && t.k ≠ .bin .mul) then mk .yield_ lo []
  else do
    let _ ← star
    let a ← r.assign
    mk .yield_ lo [a]

/-- parser.go 4095-4138 (assignExpr), from the operator on; the assignment begins at `lo`. -/
def assignTail (lo : Nat) (l : Nd) : M Nd := do
  match ← peek with
  | .asg _ => do
    next
    let rhs ← r.assign
    let l' ← target l
    chk
    mk .assign lo [l', rhs]
  | _ => return l

/-- parser.go 4072-4138 (assignExpr).  A yield is looked for where the oracle says that this is a generator. -/
def assign : M Nd := do
  let g ← ask
  let k ← peek
  if g && isYield k then yieldE r
  else do
    let l ← cond r
    let t ← peekT
    if isName l && t.k = .pu .arrow && !t.nl then do
      let ps ← targets [l]
      let f ← arrowFn r l.lo ps
      assignTail r l.lo f
    else assignTail r l.lo l

/-- parser.go 4011-4026 (seqExpr): the rest of the list. -/
def seqRest : M (List Nd) := do
  if (← peek) = .pu .comma then do
    next
    let e ← r.assign
    let l ← r.seqRest
    return e :: l
  else return []

/-- parser.go 4004-4029 (seqExpr), from the first one on. -/
def seqTail (e : Nd) : M Nd := do
  if (← peek) = .pu .comma then do
    let l ← r.seqRest
    mk .seq e.lo (e :: l)
  else return e

/-- parser.go 3989-4029 (expr, seqExpr). -/
def expr : M Nd := do
  let e ← r.assign
  chk
  seqTail r e

/-! ## Statements -/

/-- parser.go 3097-3136 (aheadIsVarDec): a declaration begins.  If the code is not strict, the next token that has not been looked at is
read ahead. -/
def isVarDec (k : K) : M Bool := do
  if k = .kw .var then return true
  else if (decKind k).isSome then do
    let strict ← ask
    if strict then return true
    else do
      let t ← grow
      return !t.nl && (match t.k with | .name _ | .cw _ | .pu .braceL | .pu .brackL => true | _ => false)
  else return false

/-- parser.go 3241-3247 (varDec): the initialiser. -/
def initE : M (List Nd) := do
  if (← peek) = .asg .assign then do
    next
    let v ← r.assign
    return [v]
  else return []

/-- parser.go 3223-3255 (varDec) and 3184-3197 (the loop of varDecStmt). -/
def decs : M (List Nd) := do
  let b ← r.pat
  let i ← initE r
  chk
  let n ← mk .dec b.lo (b :: i)
  if (← peek) = .pu .comma then do
    next
    let l ← r.decs
    return n :: l
  else return [n]

/-- parser.go 3153-3221 (varDecStmt); `asExpr`: the head of a loop. -/
def varDec (asExpr : Bool) : M Nd := do
  let lo ← rng
  next
  let l ← r.decs
  chk
  if asExpr then mk .varDec lo l
  else do
    semi true
    mk .varDec lo l

/-- parser.go 3971-3986 (exprStmt). -/
def exprS : M Nd := do
  let lo ← rng
  let e ← r.expr
  semi true
  mk .exprStmt lo [e]

/-- The expression in parentheses after `if`, `while`, `switch` and `with`. -/
def head : M Nd := do
  let _ ← must (.pu .parenL)
  let e ← r.expr
  let _ ← must (.pu .parenR)
  return e

/-- A statement that is a part of another: its first token is read ahead. -/
def sub : M Nd := do
  let _ ← peek
  r.stmt

/-- parser.go 2148-2194 (ifStmt). -/
def ifS : M Nd := do
  let lo ← rng
  next
  let t ← head r
  let a ← sub r
  if (← peek) = .kw .else_ then do
    next
    let b ← sub r
    mk .ifS lo [t, a, b]
  else mk .ifS lo [t, a]

/-- parser.go 2247-2289 (whileStmt), 1728-1757 (withStmt). -/
def whileS (k : Kd) : M Nd := do
  let lo ← rng
  next
  let t ← head r
  let b ← sub r
  chk
  mk k lo [t, b]

/-- parser.go 2197-2244 (doWhileStmt). -/
def doS : M Nd := do
  let lo ← rng
  next
  let b ← sub r
  let _ ← must (.kw .while_)
  let t ← head r
  semi false
  mk .doS lo [b, t]

/-- parser.go 2318-2331 (forStmt): the first part. -/
def forInit : M (List Nd) := do
  let k ← peek
  let b ← isVarDec k
  if b then do
    let n ← varDec r true
    return [n]
  else if k = .pu .semi then return []
  else do
    let e ← r.expr
    return [e]

/-- parser.go 2352-2386 (forStmt): the target of a loop over keys or values. -/
def forLeft : List Nd → M Nd
  | [.node .varDec lo hi kids] => do
    chk
    return .node .varDec lo hi kids
  | [.node .arr lo hi kids] => target (.node .arr lo hi kids)
  | [.node .obj lo hi kids] => target (.node .obj lo hi kids)
  | [e] => do
    chk
    return e
  | _ => fail

/-- parser.go 2388-2398 (forStmt): what is looped over. -/
def forRight (isIn : Bool) : M Nd :=
  if isIn then r.expr else r.assign

/-- parser.go 2345-2424 (forStmt): the loops over keys and values, from `in` or `of` on. -/
def forInTail (lo : Nat) (isIn : Bool) (init : List Nd) : M Nd := do
  let l ← forLeft init
  next
  let e ← forRight r isIn
  let _ ← must (.pu .parenR)
  let b ← sub r
  mk .forIn lo [l, e, b]

/-- parser.go 2436-2455 (forStmt): a part that may be left out. -/
def optE (k : K) : M (List Nd) := do
  if (← peek) = k then return []
  else do
    let e ← r.expr
    return [e]

/-- parser.go 2430-2481 (forStmt): the loop with three parts, from the first semicolon on. -/
def forTail (lo : Nat) (init : List Nd) : M Nd := do
  let _ ← must (.pu .semi)
  let t ← optE r (.pu .semi)
  let _ ← must (.pu .semi)
  let u ← optE r (.pu .parenR)
  let _ ← must (.pu .parenR)
  let b ← sub r
  mk .forS lo (init ++ t ++ u ++ [b])

/-- parser.go 2297-2307 (forStmt): `await`, where the oracle says that this is an async function. -/
def forAwait : M Unit := do
  let b ← ask
  let k ← peek
  if b && k = .cw .await then next else return ()

/-- parser.go 2292-2483 (forStmt). -/
def forS : M Nd := do
  let lo ← rng
  next
  forAwait
  let _ ← must (.pu .parenL)
  let i ← forInit r
  chk
  let k ← peek
  if k = .name "in" then forInTail r lo true i
  else if k = .name "of" then forInTail r lo false i
  else forTail r lo i

/-- parser.go 1896-1921 (retStmt): the operand and the semicolons. -/
def retArg : M (List Nd) := do
  let t ← peekT
  if t.k = .pu .semi then do
    next
    semi false
    return []
  else if t.k = .pu .braceR || t.k = .pu .parenR || t.k = .pu .brackR || t.k = .eof || t.nl then do
    semi true
    return []
  else do
    let e ← r.expr
    semi true
    return [e]

/-- parser.go 1896-1928 (retStmt). -/
def retS : M Nd := do
  let lo ← rng
  next
  let a ← retArg r
  chk
  mk .ret lo a

/-- parser.go 1865-1893 (throwStmt). -/
def throwS : M Nd := do
  let lo ← rng
  next
  let t ← peekT
  req (t.k ≠ .eof && !t.nl)
  let e ← r.expr
  semi true
  mk .throwS lo [e]

/-- parser.go 1980-1988, 2020-2028 (brkStmt, contStmt): the label. -/
def jumpLabel : M (List Nd) := do
  let t ← peekT
  if (t.k matches .name _) && !t.nl then do
    let l ← ident
    semi true
    return [l]
  else do
    semi true
    return []

/-- parser.go 1975-2051 (brkStmt, contStmt). -/
def jumpS (k : Kd) : M Nd := do
  let lo ← rng
  next
  let l ← jumpLabel
  chk
  mk k lo l

/-- parser.go 1940-1972 (labelStmt).  The token after the name is taken as it is; `stmt` reads its first token ahead. -/
def labelS : M Nd := do
  let lo ← rng
  let l ← ident
  next
  chk
  let b ← sub r
  mk .label lo [l, b]

/-- parser.go 2112-2145 (switchCase): the statements. -/
def caseBody : M (List Nd) := do
  let k ← peek
  if k = .kw .case_ || k = .kw .default || k = .pu .braceR then return []
  else do
    let s ← r.stmt
    let l ← r.caseBody
    return s :: l

/-- parser.go 2118-2131 (switchCase): the test. -/
def caseTest (k : K) : M (List Nd) := do
  if k = .kw .case_ then do
    let e ← r.expr
    return [e]
  else return []

/-- parser.go 2076-2100 (switchStmt), 2112-2145 (switchCase), after the opening brace. -/
def cases : M (List Nd) := do
  let t ← peekT
  if t.k = .pu .braceR then do
    next
    return []
  else do
    req (t.k = .kw .case_ || t.k = .kw .default)
    chk
    next
    let e ← caseTest r t.k
    let _ ← must (.pu .colon)
    let b ← r.caseBody
    let n ← mk .case t.lo (e ++ b)
    let l ← r.cases
    return n :: l

/-- parser.go 2054-2110 (switchStmt). -/
def switchS : M Nd := do
  let lo ← rng
  next
  let t ← head r
  let _ ← must (.pu .braceL)
  let l ← r.cases
  mk .switchS lo (t :: l)

/-- parser.go 1797-1815 (tryStmt): the parameter of the catch clause. -/
def catchParam : M (List Nd) := do
  if (← peek) = .pu .parenL then do
    next
    let p ← r.pat
    let _ ← must (.pu .parenR)
    return [p]
  else return []

/-- parser.go 1791-1842 (tryStmt): the catch clause, if there is one. -/
def catchS : M (List Nd) := do
  if (← peek) = .kw .catch_ then do
    let lo ← rng
    next
    let p ← catchParam r
    chk
    let b ← body r
    let n ← mk .catchS lo (p ++ [b])
    return [n]
  else return []

/-- parser.go 1844-1851 (tryStmt): the finally clause, if there is one. -/
def finallyS : M (List Nd) := do
  if (← peek) = .kw .finally_ then do
    next
    let b ← body r
    return [b]
  else return []

/-- parser.go 1772-1862 (tryStmt). -/
def tryS : M Nd := do
  let lo ← rng
  next
  let b ← body r
  let k ← peek
  req (k = .kw .catch_ || k = .kw .finally_)
  let h ← catchS r
  let f ← finallyS r
  mk .tryS lo (b :: (h ++ f))

/-- parser.go 2514-2845 (fnDec) for `async` at the beginning of a statement. -/
def asyncStmt : M Nd := do
  let as ← asyncTok
  if (← peek) = .kw .func then fnKw r as.lo false
  else do
    match ← asyncTail r as with
    | .arrow n => do
      semi true
      mk .exprStmt as.lo [n]
    | .call n => do
      let n ← r.binRest n 0
      let n ← seqTail r n
      semi true
      mk .exprStmt as.lo [n]
    | .fn n => return n

/-- parser.go 1931-1937 (aheadIsLabel): the next token that has not been looked at is a colon. -/
def isLabel (k : K) : M Bool := do
  if k matches .name _ then do
    let t ← grow
    return t.k = .pu .colon
  else return false

/-- parser.go 394-431 (stmt): the statements that begin with no keyword, brace or semicolon. -/
def otherS (k : K) : M Nd := do
  let v ← isVarDec k
  if v then do
    chk
    varDec r false
  else do
    let a ← isAsync false k
    if a then asyncStmt r
    else do
      let l ← isLabel k
      if l then labelS r else exprS r

/-- parser.go 336-455 (stmt), without classes, modules and TypeScript. -/
def stmt : M Nd := do
  match ← peek with
  | .kw .var => varDec r false
  | .kw .func => do
    let lo ← rng
    let f ← fnKw r lo false
    chk
    return f
  | .kw .if_ => ifS r
  | .kw .for_ => forS r
  | .kw .return_ => retS r
  | .kw .while_ => whileS r .whileS
  | .kw .break_ => jumpS .brk
  | .kw .continue_ => jumpS .cont
  | .kw .throw_ => throwS r
  | .kw .try_ => tryS r
  | .kw .do_ => doS r
  | .kw .switch => switchS r
  | .kw .debugger => do
    let lo ← rng
    next
    semi true
    mk .debug lo []
  | .kw .with_ => whileS r .withS
  | .kw .new_ | .kw .this | .kw .super => exprS r
  | .kw _ => fail
  | .pu .braceL => body r
  | .pu .semi => do
    let lo ← rng
    next
    mk .empty lo []
  | .eof => fail
  | k => otherS r k

/-- parser.go 2989-3062 (stmts); `inBlock`: up to the closing brace, which is taken. -/
def stmts (inBlock : Bool) : M (List Nd) := do
  let k ← peek
  if inBlock && k = .pu .braceR then do
    next
    return []
  else if k = .eof then do
    req (!inBlock)
    return []
  else do
    let s ← r.stmt
    let _ ← peek
    chk
    let l ← r.stmts inBlock
    return s :: l

/-- All of them. -/
def build : Rec where
  expr := expr r
  seqRest := seqRest r
  assign := assign r
  unary := unary r
  binRest := binRest r
  binInner := binInner r
  newE := newE r
  newRest := newRest r
  callRest := callRest r
  memRest := memRest r
  args := args r
  tplRest := tplRest r
  arrRest := arrRest r
  objRest := objRest r
  params := params r
  pat := pat r
  patElem := patElem r
  patArr := patArr r
  patObj := patObj r
  decs := decs r
  stmt := stmt r
  stmts := stmts r
  cases := cases r
  caseBody := caseBody r

end

/-- No fuel is left. -/
def Rec.none : Rec where
  expr := fail
  seqRest := fail
  assign := fail
  unary := fail
  binRest _ _ := fail
  binInner _ _ := fail
  newE := fail
  newRest _ _ := fail
  callRest _ _ _ _ := fail
  memRest _ _ _ _ := fail
  args _ := fail
  tplRest := fail
  arrRest := fail
  objRest := fail
  params := fail
  pat := fail
  patElem := fail
  patArr := fail
  patObj := fail
  decs := fail
  stmt := fail
  stmts _ := fail
  cases := fail
  caseBody := fail

/-- The functions with so much fuel: the depth of the calls. -/
def rec_ : Nat → Rec
  | 0 => Rec.none
  | n + 1 => build (rec_ n)

/-- parser.go 213-245 (Prog).  The program goes from the first byte to the last, `len`. -/
def prog (fuel : Nat) (t : List T) (o : Nat → Bool) (len : Nat) : Option Nd :=
  match (rec_ fuel).stmts false ⟨t, o⟩ ⟨0, 0, 0⟩ with
  | some (l, _) => some (.node .prog 0 len l)
  | none => none

end Mole.Parser.Rng
