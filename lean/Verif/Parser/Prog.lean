/-! # The recursive descent of the parser (ecma/parser/parser.go)

Tokens to tree, for JavaScript.  The lexer is not part of this model (C69, C71, C74 are about
it): the input is the list of tokens, each with the flag that a line terminator is before it.

Simplifications, besides those at the definitions:
* names and keywords have no escapes;
* all features are on but TypeScript and JSX;
* literals and patterns have the same nodes (C30 and C56 are about the relabelling), the locations, comments and scopes of nodes are left
  out, and so is the difference of `new A` and `new A()`;
* a check that only says no, by names and scopes, is the parameter `Chk`: it is asked with the line of parser.go where the check is made,
  the node checked and the tokens left, and may answer in any way;
* when a statement begins, just its first token has been read ahead (it may be two if a statement `let` or `async` came before);
* a token stays what it is (C75);
* nothing panics but what is marked so (C55 and C65 are about other panics). -/

namespace Mole.Parser.Prog

/-- token.go 169-197: the keywords. -/
inductive Kw where
  | break_ | case_ | catch_ | class_ | continue_ | debugger | default | do_ | else_ | enum | export_ | extends_ | finally_ | for_ | func
  | if_ | import_ | new_ | return_ | super | switch | this | throw_ | try_ | var | while_ | with_
deriving DecidableEq, Repr

/-- token.go 204-227: the words the lexer makes keywords by where they are (C71). -/
inductive Cw where
  | let_ | const_ | static | implements | interface | package | private_ | protected_ | public_ | yield | await
deriving DecidableEq, Repr

/-- token.go 229-247. -/
inductive Pu where
  | braceL | braceR | parenL | parenR | brackL | brackR | dot | dots | semi | comma | hook | colon | inc | dec | optChain | arrow
deriving DecidableEq, Repr

/-- token.go 249-285. -/
inductive BinOp where
  | nullish | lt | gt | lte | gte | eq | ne | eqs | nes | lsh | rsh | rshu | bitOr | bitXor | bitAnd | or | and | instanceof | in_
  | add | sub | mul | div | mod | pow
deriving DecidableEq, Repr

/-- token.go 287-294. -/
inductive UnOp where
  | typeof | void | delete | not | bitNot
deriving DecidableEq, Repr

/-- token.go 296-315. -/
inductive AsgOp where
  | assign | add | sub | nullish | or | and | bitOr | bitXor | bitAnd | lsh | rsh | rshu | mul | div | mod | pow
deriving DecidableEq, Repr

/-- token.go 147-330: tokens, with their text where it matters.  `in` is a name to the lexer (it is not in the table of keywords,
token.go 517-532). -/
inductive K where
  | eof
  | name (s : String)
  | pvt (s : String)
  | num (s : String)
  | str (s : String)
  | regexp (s : String)
  | null | true_ | false_
  /-- T_TPL_HEAD with `Plain` -/
  | tplPlain (s : String)
  | tplHead (s : String)
  | tplSpan (s : String)
  | tplTail (s : String)
  | kw (k : Kw)
  | cw (c : Cw)
  | pu (p : Pu)
  | bin (o : BinOp)
  | un (o : UnOp)
  | asg (o : AsgOp)
deriving DecidableEq, Repr

/-- token.go 5-20. -/
structure Tok where
  k : K
  /-- afterLineTerm -/
  nl : Bool
deriving DecidableEq, Repr

/-- token.go 349-510: the column StartExpr. -/
def startExpr : K → Bool
  | .name _ | .num _ | .str _ | .regexp _ | .null | .true_ | .false_ | .tplPlain _ | .tplHead _ => true
  | .kw k => k = .class_ || k = .func || k = .import_ || k = .new_ || k = .super || k = .this
  | .cw c => c = .yield
  | .pu p => p = .braceL || p = .parenL || p = .brackL || p = .inc || p = .dec
  | .bin o => o = .add || o = .sub
  | .un _ => true
  | _ => false

/-- token.go 41-48. -/
def isKw : K → Bool
  | .kw _ | .cw _ | .null | .true_ | .false_ => true
  | .un o => o = .typeof || o = .void || o = .delete
  | .bin o => o = .instanceof || o = .in_
  | _ => false

/-- token.go 50-62. -/
def canKey : K → Bool
  | .name _ | .num _ => true
  | k => isKw k

/-- token.go 349-510: the column Pcd. -/
def pcd : BinOp → Nat
  | .nullish | .or => 6
  | .and => 7
  | .bitOr => 8
  | .bitXor => 9
  | .bitAnd => 10
  | .eq | .ne | .eqs | .nes => 11
  | .lt | .gt | .lte | .gte | .instanceof | .in_ => 12
  | .lsh | .rsh | .rshu => 13
  | .add | .sub => 14
  | .mul | .div | .mod => 15
  | .pow => 16

/-- token.go 68-79 (IsBin). -/
def isBin (notIn : Bool) : K → Option BinOp
  | .bin o => some o
  | .name s => if s = "in" && !notIn then some .in_ else none
  | _ => none

/-- TokText, lexer.go: the text of a token, where it is compared to "get" and "set" (parser.go 3805). -/
def text : K → String
  | .name s | .str s => s
  | _ => ""

/-- ast.go.  A token that is a node by itself is `leaf`. -/
inductive Node where
  | nil
  | leaf (k : K)
  | tpl (tag : Node) (parts : List Node)
  | arr (elems : List Node)
  | obj (props : List Node)
  /-- `key: value`, `[key]: value`, and without a value `key` -/
  | prop (computed : Bool) (key value : Node)
  /-- `key = value` -/
  | init (computed : Bool) (key value : Node)
  /-- kind is 0 for a method, 1 for a getter, 2 for a setter -/
  | method (kind : Nat) (async gen computed : Bool) (key : Node) (params : List Node) (body : Node)
  | spread (arg : Node)
  | fn (async gen : Bool) (name : Node) (params : List Node) (body : Node)
  | arrow (async : Bool) (params : List Node) (body : Node)
  | paren (e : Node)
  | seq (es : List Node)
  | yield_ (delegate : Bool) (arg : Node)
  | unary (op : K) (arg : Node)
  | update (isPrefix : Bool) (op : K) (arg : Node)
  | bin (op : BinOp) (l r : Node)
  | cond (t c a : Node)
  | assign (op : AsgOp) (l r : Node)
  | member (opt : Bool) (obj prop : Node)
  | index (opt : Bool) (obj prop : Node)
  | call (opt : Bool) (callee : Node) (args : List Node)
  | new_ (callee : Node) (args : List Node)
  | newTarget
  | chain (e : Node)
  -- statements
  | exprStmt (e : Node)
  | varDec (kind : K) (decs : List Node)
  /-- VarDec -/
  | dec (id init : Node)
  | block (l : List Node)
  | empty
  | ifS (test cons alt : Node)
  | whileS (test body : Node)
  | doS (body test : Node)
  | forS (init test update body : Node)
  | forIn (await isIn : Bool) (left right body : Node)
  | ret (arg : Node)
  | throwS (arg : Node)
  | brk (label : Node)
  | cont (label : Node)
  | label (name body : Node)
  | switchS (test : Node) (cases : List Node)
  /-- `default` has no test -/
  | case (test : Node) (body : List Node)
  | tryS (body catch_ fin : Node)
  | catchS (param body : Node)
  | withS (obj body : Node)
  | debug
  /-- a class; without a name or without `extends` it is `nil` -/
  | class_ (name super : Node) (body : List Node)
  /-- a member of a class, which is a method or a field -/
  | elem (static : Bool) (e : Node)
  | field (computed : Bool) (key value : Node)
  | staticBlock (l : List Node)
  | importCall (src : Node)
  | importMeta
  | importS (specs : List Node) (src : Node)
  /-- the default import -/
  | impDef (id : Node)
  /-- `* as id` -/
  | impNS (id : Node)
  /-- `a as b`, and without `as` `a` -/
  | spec (a b : Node)
  | exportDec (d : Node)
  | exportDefault (d : Node)
  | exportNamed (specs : List Node) (src : Node)
  | exportAll (name src : Node)
  | prog (l : List Node)
deriving Repr

/-- A check at a line of parser.go, of a node, before the tokens left; true is: no objection. -/
abbrev Chk := Nat → Node → List Tok → Bool

/-- The kinds of a scope that decide how to go on (symtab.go 5-41). -/
structure Ctx where
  /-- SPK_NOT_IN -/
  notIn : Bool := false
  /-- SPK_GENERATOR -/
  gen : Bool := false
  /-- SPK_ASYNC -/
  async : Bool := false
  /-- SPK_INTERIM -/
  interim : Bool := false
  /-- SPK_LOOP_DIRECT or SPK_LOOP_INDIRECT -/
  loop : Bool := false
  /-- SPK_SWITCH or SPK_SWITCH_INDIRECT -/
  sw : Bool := false
  /-- SPK_TRY -/
  try_ : Bool := false
  /-- SPK_FUNC or SPK_FUNC_INDIRECT -/
  fn : Bool := false
  /-- `retsStk` is not empty: a function is around (after a call of `async`, which leaves its list there, the code may have one where
  this is false) -/
  rets : Bool := false
deriving DecidableEq, Repr

/-- What the parser remembers: the tokens left, the scopes (the current one and those around it), and the length of `loopStk`. -/
structure S where
  ts : List Tok
  cur : Ctx
  up : List Ctx
  loops : Nat
deriving DecidableEq, Repr

/-- How a function ends. -/
inductive Out (α : Type) where
  | ok (a : α) (s : S)
  | err
  | panic
  /-- a panic: a return statement, and `retsStk` is empty (parser.go 183-187) -/
  | noRets

def M (α : Type) := S → Out α

instance : Monad M where
  pure a := fun s => .ok a s
  bind m f := fun s =>
    match m s with
    | .ok a s' => f a s'
    | .err => .err
    | .panic => .panic
    | .noRets => .noRets

/-- An error is reported. -/
def fail {α : Type} : M α := fun _ => .err

def req (b : Bool) : M Unit := fun s => if b then .ok () s else .err

/-- The next token of the list, if any. -/
def hd : List Tok → K
  | [] => .eof
  | t :: _ => t.k

/-- afterLineTerm of the next token.  The end of the code is treated apart. -/
def nlB : List Tok → Bool
  | [] => false
  | t :: _ => t.nl

/-- lexer.go 195-200 (Peek): the next token. -/
def peek : M K := fun s => .ok (hd s.ts) s

/-- afterLineTerm of the next token. -/
def nl : M Bool := fun s => .ok (nlB s.ts) s

/-- The tokens left. -/
def left : M (List Tok) := fun s => .ok s.ts s

/-- The current scope. -/
def scope : M Ctx := fun s => .ok s.cur s

/-- lexer.go 176-181 (Next). -/
def next : M Unit := fun s => .ok () { s with ts := s.ts.tail }

/-- parser.go 6455-6461 (nextMustTok). -/
def must (k : K) : M Unit := fun s => if hd s.ts = k then .ok () { s with ts := s.ts.tail } else .err

/-- A check at this line. -/
def chk (o : Chk) (line : Nat) (n : Node) : M Unit := fun s => if o line n s.ts then .ok () s else .err

/-- symtab.go 513-590 (EnterScope): a scope that is not that of a function, with more kinds. -/
def enter (f : Ctx → Ctx) : M Unit := fun s =>
  .ok () { s with
    cur := f { gen := s.cur.gen, async := s.cur.async, loop := s.cur.loop, sw := s.cur.sw || s.cur.try_, fn := s.cur.fn, rets := s.cur.rets },
    up := s.cur :: s.up }

/-- symtab.go 513-590 (EnterScope): the scope of a function, and its returns (parser.go 173-175, incRetsStk). -/
def enterFn (async gen notIn : Bool) : M Unit := fun s =>
  .ok () { s with cur := { gen := gen, async := async, notIn := notIn, fn := true, rets := true }, up := s.cur :: s.up }

/-- symtab.go 513-590 (EnterScope): the scope of a class, which is that of a function, but nothing is there for returns. -/
def enterCls : M Unit := fun s =>
  .ok () { s with cur := { fn := true, rets := s.cur.rets }, up := s.cur :: s.up }

/-- symtab.go 592-598 (LeaveScope).  There is no scope around the outermost. -/
def leave : M Unit := fun s =>
  match s.up with
  | [] => .panic
  | c :: l => .ok () { s with cur := c, up := l }

/-- The current scope, to be named later: the number of scopes around it. -/
def scopeRef : M Nat := fun s => .ok s.up.length s

/-- The scope with so many around it is changed. -/
def modAt (f : Ctx → Ctx) (d : Nat) (c : Ctx) : List Ctx → Ctx × List Ctx
  | [] => (f c, [])
  | c' :: l =>
    if (c' :: l).length = d then (f c, c' :: l)
    else (c, (modAt f d c' l).1 :: (modAt f d c' l).2)

/-- symtab.go: AddKind and EraseKind. -/
def setKind (d : Nat) (f : Ctx → Ctx) : M Unit := fun s =>
  .ok () { s with cur := (modAt f d s.cur s.up).1, up := (modAt f d s.cur s.up).2 }

/-- parser.go 150-152. -/
def pushLoop : M Unit := fun s => .ok () { s with loops := s.loops + 1 }

/-- parser.go 154-156. -/
def popLoop : M Unit := fun s => if s.loops = 0 then .panic else .ok () { s with loops := s.loops - 1 }

/-- parser.go 2050: the last loop. -/
def lastLoop : M Unit := fun s => if s.loops = 0 then .panic else .ok () s

/-- parser.go 183-187 (pushRetsStk): the list of the function gets one more. -/
def pushRet : M Unit := fun s => if s.cur.rets then .ok () s else .noRets

/-- parser.go 6428-6441 (isExprOpening). -/
def isOpening (ts : List Tok) : Bool :=
  hd ts = .pu .semi || hd ts = .pu .braceR || hd ts = .pu .comma || hd ts = .pu .parenR || hd ts = .pu .colon || nlB ts || hd ts = .eof

/-- parser.go 6428-6441 (isExprOpening). -/
def opening : M Unit := fun s => if isOpening s.ts then .ok () s else .err

/-- parser.go 6443-6453 (advanceIfSemi). -/
def semi (raise : Bool) : M Unit := fun s =>
  if raise && !isOpening s.ts then .err
  else .ok () (if hd s.ts = .pu .semi then { s with ts := s.ts.tail } else s)

/-- The functions that call each other, with one step of fuel less. -/
structure Rec where
  expr : M Node
  seqRest : M (List Node)
  assign : M Node
  unary : M Node
  binRest : Node → Nat → Bool → Bool → M Node
  binInner : Node → Nat → Bool → Bool → M Node
  newE : M Node
  newRest : Node → Bool → Bool → M Node
  callRest : Node → Bool → Bool → Bool → M (Node × Bool)
  memRest : Node → Bool → Bool → Bool → M (Node × Bool)
  args : Bool → Bool → M (List Node × Bool)
  tplRest : M (List Node)
  arrRest : M (List Node)
  objRest : M (List Node)
  params : M (List Node)
  pat : M Node
  patElem : M Node
  patArr : M (List Node)
  patObj : M (List Node)
  decs : Bool → M (List Node)
  stmt : M Node
  stmts : Bool → M (List Node)
  cases : Bool → M (List Node)
  caseBody : M (List Node)
  lhs : M Node
  members : M (List Node)
  impSpecs : M (List Node)
  expSpecs : M (List Node)

section
variable (o : Chk) (r : Rec)

/-! ## Names and patterns -/

/-- parser.go 3287-3324 (identStrict, ident). -/
def ident : M Node := do
  match ← peek with
  | .name s => do
    chk o 3300 (.leaf (.name s))
    next
    return .leaf (.name s)
  | .cw c => do
    chk o 3300 (.leaf (.cw c))
    next
    return .leaf (.cw c)
  | _ => fail

/-- N_NAME, of an expression. -/
def isName : Node → Bool
  | .leaf (.name _) | .leaf (.cw _) => true
  | _ => false

/-- parser.go 4145-4181 (isSimpleLVal), without the names that are not allowed as targets. -/
def simpleLVal (pat member : Bool) : Node → Bool
  | .leaf (.name _) | .leaf (.cw _) => true
  | .arr _ | .obj _ => pat
  | .member _ _ _ | .index _ _ _ => member
  | .paren e => simpleLVal pat false e
  | _ => false

mutual
/-- parser.go 4928-5212 (argToParam) when `destruct` is set: a target of an assignment.  The checks of names and defaults are asked of
`Chk`.  Only parentheses are taken away.  Of the nodes taken out of parentheses (isPrimitive, 4919-4925) only names are targets. -/
def toTarget (o : Node → Bool) (prop : Bool) : Node → Option Node
  | .arr l => (toTargets o false l).map .arr
  | .obj l => (toTargets o true l).map .obj
  | .prop c key .nil => if o (.prop c key .nil) then some (.prop c key .nil) else none
  | .prop c key value => (toTarget o prop value).map (.prop c key)
  | .init false key value => if o (.init false key value) then some (.init false key value) else none
  | .init true key value =>
    match toTarget o prop key with
    | some key' => if o (.init true key' value) then some (.init true key' value) else none
    | none => none
  | .assign .assign l rhs =>
    match toTarget o false l with
    | some l' => if o (.assign .assign l' rhs) then some (.assign .assign l' rhs) else none
    | none => none
  | .leaf (.name s) => if o (.leaf (.name s)) then some (.leaf (.name s)) else none
  | .leaf (.cw c) => if o (.leaf (.cw c)) then some (.leaf (.cw c)) else none
  | .spread (.assign ..) => none
  | .spread (.leaf (.name s)) => if o (.leaf (.name s)) then some (.spread (.leaf (.name s))) else none
  | .spread (.leaf (.cw c)) => if o (.leaf (.cw c)) then some (.spread (.leaf (.cw c))) else none
  | .spread (.paren e) => if isName e && o e then some (.spread e) else none
  | .spread (.arr l) => if prop then none else ((toTargets o false l).map .arr).map .spread
  | .spread (.obj l) => if prop then none else ((toTargets o true l).map .obj).map .spread
  | .paren e => if isName e && o e then some e else none
  | .member opt a b => some (.member opt a b)
  | .index opt a b => some (.index opt a b)
  | _ => none

def toTargets (o : Node → Bool) (prop : Bool) : List Node → Option (List Node)
  | [] => some []
  | .nil :: l => (toTargets o prop l).map (.nil :: ·)
  | n :: l =>
    match toTarget o prop n, toTargets o prop l with
    | some n', some l' => some (n' :: l')
    | _, _ => none
end

/-- parser.go 4928-5212 (argToParam) when `destruct` is set. -/
def target (n : Node) : M Node := fun s =>
  match toTarget (fun n => o 4928 n s.ts) false n with
  | some n' => .ok n' s
  | none => .err

/-- parser.go 3928-3969 (patternRest); `arrPat`: an array or object may follow. -/
def patRest (arrPat : Bool) : M Node := do
  next
  let k ← peek
  req (k matches .name _ || arrPat && (k = .pu .brackL || k = .pu .braceL))
  let a ← r.pat
  let k ← peek
  req (k ≠ .pu .comma)
  return .spread a

/-- parser.go 3603-3627 (bindingPattern), 3879-3896 (the same part of bindingElem). -/
def pat : M Node := do
  match ← peek with
  | .pu .braceL => do
    next
    let l ← r.patObj
    return .obj l
  | .pu .brackL => do
    next
    let l ← r.patArr
    return .arr l
  | .pu .dots => patRest r true
  | _ => ident o

/-- parser.go 3879-3926 (bindingElem, patternAssign). -/
def patElem : M Node := do
  let b ← r.pat
  if (← peek) = .asg .assign then do
    next
    let v ← r.assign
    chk o 3910 v
    return .assign .assign b v
  else return b

def isRest : Node → Bool
  | .spread _ => true
  | _ => false

/-- parser.go 3831-3864 (patternArr), after the opening bracket. -/
def patArr : M (List Node) := do
  let k ← peek
  if k = .pu .comma then do
    next
    let l ← r.patArr
    return .nil :: l
  else if k = .pu .brackR then do
    next
    return []
  else do
    let n ← r.patElem
    let k ← peek
    req (!isRest n || k = .pu .brackR)
    if k = .pu .comma then do
      next
      let l ← r.patArr
      return n :: l
    else do
      must (.pu .brackR)
      return [n]

/-- parser.go 3402-3500 (param), without TypeScript.  `this` is a parameter of a method. -/
def param : M Node := do
  let k ← peek
  let ts ← left
  if k = .kw .this && o 3430 .nil ts then do
    next
    return .leaf (.kw .this)
  else do
    let b ← r.pat
    if (← peek) = .asg .assign then do
      next
      let v ← r.assign
      chk o 3470 v
      req (!isRest b)
      return .assign .assign b v
    else return b

/-- parser.go 3528-3601 (paramList), after the opening parenthesis. -/
def params : M (List Node) := do
  if (← peek) = .pu .parenR then do
    next
    return []
  else do
    let n ← param o r
    if (← peek) = .pu .comma then do
      next
      let l ← r.params
      return n :: l
    else do
      must (.pu .parenR)
      return [n]

/-- parser.go 2959-2961, 3064-3095 (fnBody, blockStmt without a scope). -/
def body : M Node := do
  must (.pu .braceL)
  let l ← r.stmts true
  return .block l

/-- parser.go 3064-3095 (blockStmt with a scope). -/
def blockS (f : Ctx → Ctx) : M Node := do
  must (.pu .braceL)
  enter f
  let l ← r.stmts true
  leave
  return .block l

/-- parser.go 6144-6366 (method), after the key. -/
def methodTail (kind : Nat) (async gen computed : Bool) (key : Node) : M Node := do
  must (.pu .parenL)
  let ps ← r.params
  let b ← body r
  leave
  chk o 6225 (.method kind async gen computed key ps b)
  return .method kind async gen computed key ps b

/-- parser.go 3755-3804 (propName up to the key): the key, and whether it is computed. -/
def propKey : M (Node × Bool) := do
  let k ← peek
  if k = .pu .brackL then do
    next
    let e ← r.assign
    must (.pu .brackR)
    return (e, true)
  else do
    req (k matches .str _ || canKey k)
    chk o 3793 (.leaf k)
    next
    return (.leaf k, false)

/-- parser.go 3725-3753 (isField). -/
def isField (getter : Bool) (ts : List Tok) : Bool :=
  hd ts = .pu .colon || hd ts = .asg .assign || hd ts = .pu .semi || hd ts = .pu .comma || hd ts = .pu .braceR || hd ts = .pu .parenR ||
  (if getter then !startExpr (hd ts) && !(hd ts matches .pvt _) && hd ts ≠ .pu .brackL && !isKw (hd ts) else nlB ts)

/-- parser.go 3755-3829 (propName): a key, or a method. -/
def propName : M (Node × Bool ⊕ Node) := do
  let w := text (← peek)
  let (key, computed) ← propKey o r
  let ts ← left
  if isField (w = "get" || w = "set") ts then return .inl (key, computed)
  else if (w = "get" || w = "set") && hd ts ≠ .pu .parenL then do
    enterFn false false false
    let (key, computed) ← propKey o r
    let m ← methodTail o r (if w = "get" then 1 else 2) false false computed key
    return .inr m
  else do
    enterFn false false false
    let m ← methodTail o r 0 false false computed key
    return .inr m

/-- The key is an identifier (N_NAME), parser.go 3755-3804. -/
def isIdent (computed : Bool) : Node → Bool
  | .leaf k => if computed then isName (.leaf k) else !(k matches .str _) && !(k matches .num _)
  | _ => false

/-- parser.go 3672-3723 (patternProp), 3637-3650. -/
def patProp : M Node := do
  if (← peek) = .pu .dots then patRest r false
  else do
    match ← propName o r with
    | .inr _ => fail
    | .inl (key, computed) => do
      let k ← peek
      if k = .pu .colon then do
        next
        let v ← r.patElem
        return .prop computed key v
      else if k = .asg .assign then do
        req (isIdent computed key)
        next
        let v ← r.assign
        chk o 3910 v
        return .init false key v
      else return .prop computed key .nil

/-- parser.go 3629-3670 (patternObj), after the opening brace. -/
def patObj : M (List Node) := do
  if (← peek) = .pu .braceR then do
    next
    return []
  else do
    let n ← patProp o r
    let k ← peek
    req (!isRest n || k = .pu .braceR)
    if k = .pu .comma then do
      next
      let l ← r.patObj
      return n :: l
    else do
      must (.pu .braceR)
      return [n]

/-! ## Functions -/

/-- parser.go 5788-5860 (arrowFn), from the arrow on. -/
def arrowFn (ps : List Node) : M Node := do
  next
  let c ← scope
  enterFn false false false
  let d ← scopeRef
  if (← peek) = .pu .braceL then do
    let b ← body r
    opening
    chk o 5849 (.arrow false ps b)
    leave
    return .arrow false ps b
  else do
    setKind d (fun c' => { c' with notIn := c.notIn })
    let b ← r.assign
    chk o 5849 (.arrow false ps b)
    leave
    return .arrow false ps b

/-- parser.go 2485-2512 (aheadIsAsync); `prop`: as the key of a property. -/
def isAsync (c : Ctx) (prop : Bool) (ts : List Tok) : Bool :=
  hd ts = .name "async" && !nlB ts.tail &&
  (match hd ts.tail with
   | .kw .func | .bin .mul => true
   | .pu .parenL => !prop
   | .name s => prop || !(c.notIn && (s = "in" || s = "of"))
   | .pu .brackL | .str _ => prop
   | k => prop && canKey k)

/-- parser.go 2549-2559: the star. -/
def star : M Bool := do
  if (← peek) = .bin .mul then do
    next
    return true
  else return false

/-- parser.go 2549-2559: the name. -/
def fnName : M Node := do
  let k ← peek
  if k = .pu .parenL || k = .bin .lt then return .nil
  else ident o

def isNil : Node → Bool
  | .nil => true
  | _ => false

/-- parser.go 2680-2687: the body. -/
def bodyOrExpr : M Node := do
  if (← peek) = .pu .braceL then body r else r.expr

/-- parser.go 2514-2845 (fnDec) with the keyword, which is the next token; `anon`: there may be no name (canNameOmitted). -/
def fnKw (expr async anon : Bool) : M Node := do
  next
  let gen ← star
  let id ← fnName o
  req (expr || anon || !isNil id)
  enterFn async gen false
  must (.pu .parenL)
  let ps ← r.params
  let k ← peek
  req (k = .pu .braceL || expr && k ≠ .pu .arrow)
  let b ← bodyOrExpr r
  chk o 2774 (.fn async gen id ps b)
  leave
  let k ← peek
  if expr && k = .pu .parenL then do
    let (e, _) ← r.callRest (.fn async gen id ps b) true false false
    return e
  else return .fn async gen id ps b

/-- What `async` without `function` is found to be. -/
inductive AsyncRes where
  | arrow (n : Node)
  /-- a function without `function` -/
  | fn (n : Node)
  /-- a call of a function `async`, or a product -/
  | call (n : Node)

/-- parser.go 2597-2625: the arguments, or the parameters. -/
def asyncArgs (id : Node) : M (List Node) := do
  let k ← peek
  let b ← nl
  if !isNil id && k = .pu .arrow && !b then return [id]
  else do
    must (.pu .parenL)
    let (l, _) ← r.args false false
    return l

/-- parser.go 2514-2845 (fnDec) for `async` without `function`, after `async`.  The scope is not left if it is a call. -/
def asyncTail : M AsyncRes := do
  let gen ← star
  let id ← fnName o
  enterFn true gen false
  let args ← asyncArgs r id
  let k ← peek
  let b ← nl
  if k = .pu .arrow && !b then do
    chk o 4834 (.seq args)
    next
    let b ← bodyOrExpr r
    chk o 2774 (.arrow true args b)
    leave
    return .arrow (.arrow true args b)
  else if k = .pu .braceL then do
    chk o 4834 (.seq args)
    let b ← body r
    chk o 2774 (.fn true gen id args b)
    leave
    return .fn (.fn true gen id args b)
  else if gen then
    match args with
    | [] => fail
    | [a] => return .call (.bin .mul (.leaf (.name "async")) a)
    | args => return .call (.bin .mul (.leaf (.name "async")) (.seq args))
  else do
    chk o 2725 (.seq args)
    return .call (.call false (.leaf (.name "async")) args)

/-- parser.go 2514-2845 (fnDec) for `async` in an expression. -/
def asyncExpr : M Node := do
  next
  if (← peek) = .kw .func then fnKw o r true true false
  else do
    match ← asyncTail o r with
    | .arrow n => return n
    | .call n => return n
    | .fn n => do
      if (← peek) = .pu .parenL then do
        let (e, _) ← r.callRest n true false false
        return e
      else return n

/-! ## Expressions -/

/-- parser.go 4775-4827 (tplExpr), a part and what follows. -/
def tplRest : M (List Node) := do
  let k ← peek
  match k with
  | .tplPlain _ | .tplTail _ => do
    chk o 4792 (.leaf k)
    next
    return [.leaf k]
  | .tplHead _ | .tplSpan _ => do
    chk o 4792 (.leaf k)
    next
    let e ← r.expr
    let l ← r.tplRest
    return .leaf k :: e :: l
  | _ => fail

def isChain : Node → Bool
  | .chain _ => true
  | _ => false

/-- parser.go 4775-4827 (tplExpr). -/
def tpl (tag : Node) : M Node := do
  req (!isChain tag)
  let l ← r.tplRest
  return .tpl tag l

def isTplHead : K → Bool
  | .tplPlain _ | .tplHead _ => true
  | _ => false

/-- parser.go 6005-6045 (spread). -/
def spread : M Node := do
  next
  let e ← r.assign
  return .spread e

/-- parser.go 5421-5426 (arg), 5995-6000 (arrElem). -/
def arg : M Node := do
  if (← peek) = .pu .dots then spread r else r.assign

/-- parser.go 5358-5415 (argList), after the opening parenthesis: the arguments, and whether a comma is the last.
`incall`: a comma may follow a spread; `check`: parser.go 5401. -/
def args (incall check : Bool) : M (List Node × Bool) := do
  if (← peek) = .pu .parenR then do
    next
    return ([], false)
  else do
    let a ← arg r
    if (← peek) = .pu .comma then do
      next
      req (incall || !isRest a)
      let ts ← left
      req (!check || o 5403 a ts)
      let (l, tc) ← r.args incall check
      return (a :: l, hd ts = .pu .parenR || tc)
    else do
      must (.pu .parenR)
      let ts ← left
      req (!check || o 5403 a ts)
      return ([a], false)

/-- parser.go 5862-5955 (parenExpr). -/
def parenE : M Node := do
  enter id
  must (.pu .parenL)
  let (l, tc) ← r.args false false
  leave
  let k ← peek
  let b ← nl
  if k = .pu .arrow && !b then do
    chk o 4834 (.seq l)
    arrowFn o r l
  else do
    req (!tc)
    chk o 5927 (.seq l)
    match l with
    | [] => fail
    | [a] => return .paren a
    | l => return .paren (.seq l)

/-- parser.go 5969-5999 (arrLit, arrElem), after the opening bracket. -/
def arrRest : M (List Node) := do
  let k ← peek
  if k = .pu .comma then do
    next
    let l ← r.arrRest
    return .nil :: l
  else if k = .pu .brackR then do
    next
    return []
  else do
    let n ← arg r
    if (← peek) = .pu .comma then do
      next
      let l ← r.arrRest
      return n :: l
    else do
      must (.pu .brackR)
      return [n]

/-- parser.go 6105-6142 (propData). -/
def propData : M Node := do
  match ← propName o r with
  | .inr m => return m
  | .inl (key, computed) => do
    let k ← peek
    if k = .pu .colon then do
      next
      let v ← r.assign
      return .prop computed key v
    else if k = .asg .assign then do
      next
      let v ← r.assign
      return .init computed key v
    else if k = .pu .parenL then do
      enterFn false false false
      methodTail o r 0 false false computed key
    else do
      req (!computed)
      chk o 6135 key
      return .prop computed key .nil

/-- parser.go 6083-6103 (objProp). -/
def objProp : M Node := do
  let k ← peek
  let c ← scope
  let ts ← left
  if k = .pu .dots then spread r
  else if k = .bin .mul then do
    enterFn false true false
    next
    let (key, computed) ← propKey o r
    methodTail o r 0 false true computed key
  else if isAsync c true ts then do
    next
    let gen ← star
    enterFn true gen false
    let (key, computed) ← propKey o r
    methodTail o r 0 true gen computed key
  else propData o r

/-- parser.go 6049-6081 (objLit), after the opening brace. -/
def objRest : M (List Node) := do
  if (← peek) = .pu .braceR then do
    next
    return []
  else do
    let n ← objProp o r
    if (← peek) = .pu .comma then do
      next
      let l ← r.objRest
      return n :: l
    else do
      must (.pu .braceR)
      return [n]

/-- parser.go 5663-5786 (primaryExpr): the tokens that are a node. -/
def isAtom : K → Bool
  | .num _ | .str _ | .null | .true_ | .false_ | .regexp _ | .kw .this => true
  | _ => false

/-! ## Classes -/

/-- parser.go 1708-1710 (classElemName), 3755-3804 (propName up to the key): a key, which may be private. -/
def classKey : M (Node × Bool) := do
  let k ← peek
  if k matches .pvt _ then do
    next
    return (.leaf k, false)
  else propKey o r

/-- parser.go 6144-6366 (method), after the key, for a class.  That it is the constructor is left out. -/
def memberTail (st : Bool) (kind : Nat) (async gen computed : Bool) (key : Node) : M Node := do
  let m ← methodTail o r kind async gen computed key
  chk o 6348 (.elem st m)
  return .elem st m

/-- parser.go 1641-1704 (field): the value. -/
def fieldValue : M Node := do
  if (← peek) = .asg .assign then do
    next
    r.assign
  else return .nil

/-- parser.go 1599-1706 (field), after the key. -/
def fieldTail (st computed : Bool) (key : Node) : M Node := do
  if (← peek) = .pu .parenL then do
    enterFn false false false
    memberTail o r st 0 false false computed key
  else do
    let v ← fieldValue r
    semi false
    chk o 1676 (.elem st (.field computed key v))
    return .elem st (.field computed key v)

/-- parser.go 1510-1572 (classElem): a member that begins with a name, a keyword or a string. -/
def namedMember (st : Bool) (k : K) : M Node := do
  next
  let ts ← left
  if isField (text k = "get" || text k = "set") ts then fieldTail o r st false (.leaf k)
  else if hd ts = .pu .parenL then do
    enterFn false false false
    memberTail o r st 0 false false false (.leaf k)
  else do
    req (text k = "get" || text k = "set")
    enterFn false false false
    let (key, computed) ← classKey o r
    memberTail o r st (if text k = "get" then 1 else 2) false false computed key

/-- parser.go 2485-2512 (aheadIsAsync) for a member. -/
def isAsyncMember (c : Ctx) (ts : List Tok) : Bool :=
  isAsync c true ts || hd ts = .name "async" && !nlB ts.tail && hd ts.tail matches .pvt _

/-- parser.go 1482-1575 (classElem), after `static`.  A method may be without a name. -/
def memberRest (st : Bool) : M Node := do
  let k ← peek
  let c ← scope
  let ts ← left
  if isAsyncMember c ts then do
    next
    let gen ← star
    enterFn true gen false
    let (key, computed) ← classKey o r
    memberTail o r st 0 true gen computed key
  else if k = .pu .parenL then do
    enterFn false false false
    memberTail o r false 0 false false false .nil
  else if k = .bin .mul then do
    next
    enterFn false true false
    let (key, computed) ← classKey o r
    memberTail o r st 0 false true computed key
  else if k matches .name _ || k matches .str _ || isKw k then namedMember o r st k
  else do
    let (key, computed) ← classKey o r
    fieldTail o r st computed key

/-- parser.go 3725-3753 (isField) after `static`. -/
def isStaticField (ts : List Tok) : Bool :=
  hd ts = .pu .colon || hd ts = .asg .assign || hd ts = .pu .semi || hd ts = .pu .comma || hd ts = .pu .braceR || hd ts = .pu .parenR

/-- parser.go 1446-1575 (classElem), 1333-1444 (modifiers), 1712-1718 (staticBlock). -/
def member : M Node := do
  if (← peek) = .cw .static then do
    next
    let ts ← left
    if isStaticField ts then fieldTail o r false false (.leaf (.cw .static))
    else if hd ts = .pu .braceL then do
      must (.pu .braceL)
      enter id
      let l ← r.stmts true
      leave
      return .staticBlock l
    else if hd ts = .pu .parenL then do
      enterFn false false false
      memberTail o r false 0 false false false (.leaf (.cw .static))
    else memberRest o r true
  else memberRest o r false

/-- parser.go 1184-1331 (classBody), after the opening brace. -/
def members : M (List Node) := do
  let k ← peek
  if k = .pu .braceR then do
    next
    return []
  else if k = .pu .semi then do
    next
    r.members
  else do
    let n ← member o r
    chk o 1236 n
    let l ← r.members
    return n :: l

/-- parser.go 1084-1117 (classDec): the name. -/
def className : M Node := do
  let k ← peek
  if k = .pu .braceL || k = .kw .extends_ then return .nil
  else ident o

/-- parser.go 1119-1132 (classDec): what is extended. -/
def heritage : M Node := do
  if (← peek) = .kw .extends_ then do
    next
    let e ← r.lhs
    chk o 1129 e
    return e
  else return .nil

/-- parser.go 1059-1182 (classDec); `named`: there must be a name. -/
def classE (named : Bool) : M Node := do
  next
  let id ← className o
  req (!named || !isNil id)
  let e ← heritage o r
  enterCls
  must (.pu .braceL)
  let l ← r.members
  leave
  return .class_ id e l

/-! ## `import` in expressions -/

/-- parser.go 4199-4242 (condExpr), after the first operand. -/
def condTail (u : Node) : M Node := do
  let t ← r.binRest u 0 false false
  if (← peek) = .pu .hook then do
    next
    let a ← r.assign
    must (.pu .colon)
    let b ← r.assign
    return .cond t a b
  else return t

/-- parser.go 4724-4747 (importCall): `import.meta`, after `import`. -/
def importMeta : M Node := do
  next
  must (.name "meta")
  let k ← peek
  if k = .pu .parenL then do
    let (e, _) ← r.callRest .importMeta true false false
    return e
  else if k = .pu .brackL || k = .pu .dot || k = .pu .optChain then do
    let (e, _) ← r.memRest .importMeta true true false
    return e
  else return .importMeta

/-- parser.go 4715-4772 (importCall).  A semicolon after the call is taken; otherwise the call is read as the first operand of a
conditional expression. -/
def importE : M Node := do
  next
  if (← peek) = .pu .dot then importMeta r
  else do
    must (.pu .parenL)
    let e ← r.assign
    must (.pu .parenR)
    let k ← peek
    let b ← nl
    if k = .pu .semi then do
      next
      return .importCall e
    else if b then return .importCall e
    else condTail r (.importCall e)

/-- parser.go 5663-5786 (primaryExpr). -/
def primary : M Node := do
  let k ← peek
  let c ← scope
  let ts ← left
  if isAtom k then do
    chk o 5676 (.leaf k)
    next
    return .leaf k
  else if k matches .name _ then
    if isAsync c false ts then asyncExpr o r
    else do
      chk o 5708 (.leaf k)
      next
      return .leaf k
  else if k = .kw .func then fnKw o r true false false
  else if k = .kw .class_ then classE o r false
  else if k = .kw .import_ then importE r
  else if k = .kw .super then do
    chk o 5747 (.leaf k)
    next
    let k' ← peek
    req (k' = .pu .dot || k' = .pu .parenL)
    return .leaf k
  else if k = .pu .parenL then parenE o r
  else if k = .pu .brackL then do
    next
    let l ← r.arrRest
    return .arr l
  else if k = .pu .braceL then do
    next
    let l ← r.objRest
    return .obj l
  else if isTplHead k then tpl r .nil
  else fail

/-- parser.go 5632-5661 (memberExprPropDot), after the dot. -/
def dot (obj : Node) (opt : Bool) : M Node := do
  let k ← peek
  req (!(k matches .num _) && (canKey k || k matches .pvt _))
  chk o 5645 (.leaf k)
  next
  return .member opt obj (.leaf k)

/-- parser.go 5617-5630 (memberExprPropSubscript). -/
def subscript (obj : Node) (opt : Bool) : M Node := do
  next
  let e ← r.expr
  must (.pu .brackR)
  return .index opt obj e

/-- parser.go 4631-4700 (callExpr), one turn of the loop and what follows. -/
def callRest (callee : Node) (root directOpt opt : Bool) : M (Node × Bool) := do
  let k ← peek
  if k = .pu .parenL then do
    next
    let (l, _) ← r.args true true
    chk o 4667 callee
    r.callRest (.call directOpt callee l) root directOpt opt
  else if k = .pu .brackL || k = .pu .dot || k = .pu .optChain then do
    let (e, fo) ← r.memRest callee true root opt
    r.callRest e root directOpt (opt || fo)
  else if isTplHead k then do
    let e ← tpl r callee
    r.callRest e root directOpt opt
  else return (if root && opt && !isName callee && !isChain callee then .chain callee else callee, opt)

/-- parser.go 5555-5577 (memberExpr): after `?.`. -/
def optional (obj : Node) : M Node := do
  let k ← peek
  if k = .pu .brackL then subscript r obj true
  else if k = .pu .parenL then do
    let (e, _) ← r.callRest obj false true true
    return e
  else dot o obj true

/-- parser.go 5547-5604 (memberExpr), one turn of the loop and what follows. -/
def memRest (obj : Node) (call root opt : Bool) : M (Node × Bool) := do
  let k ← peek
  if k = .pu .optChain then do
    next
    let e ← optional o r obj
    r.memRest e call root true
  else if k = .pu .brackL then do
    let e ← subscript r obj false
    r.memRest e call root opt
  else if k = .pu .dot then do
    next
    let e ← dot o obj false
    r.memRest e call root opt
  else do
    chk o 5587 obj
    if call && k = .pu .parenL then r.callRest obj root false opt
    else return (if root && opt && !isName obj then .chain obj else obj, opt)

/-- parser.go 4525-4551 (newExpr): one turn of the loop and what follows. -/
def newRest (e : Node) (root opt : Bool) : M Node := do
  let k ← peek
  if k = .pu .parenL then do
    let (e, _) ← r.callRest e root false false
    r.newRest e false opt
  else if k = .pu .brackL || k = .pu .dot || k = .pu .optChain then do
    let (e, _) ← r.memRest e true root (opt || k = .pu .optChain)
    r.newRest e false (opt || k = .pu .optChain)
  else return e

/-- parser.go 5536-5544, 5606-5615 (memberExpr, memberExprObj): the first part. -/
def memObj : M Node := do
  if (← peek) = .kw .new_ then r.newE
  else do
    let p ← primary o r
    if isTplHead (← peek) then tpl r p else return p

/-- parser.go 4446-4551 (newExpr). -/
def newE : M Node := do
  next
  if (← peek) = .pu .dot then do
    next
    must (.name "target")
    chk o 4470 .newTarget
    return .newTarget
  else do
    let obj ← memObj o r
    let (e, opt) ← r.memRest obj false true false
    req (!opt)
    chk o 4485 e
    if (← peek) = .pu .parenL then do
      next
      let (l, _) ← r.args true true
      if l.isEmpty && isTplHead (← peek) then do
        let e ← tpl r e
        r.newRest (.new_ e l) true false
      else r.newRest (.new_ e l) true false
    else r.newRest (.new_ e []) true false

/-- parser.go 4425-4444 (lhs), without the second turn. -/
def lhs1 : M Node := do
  if (← peek) = .kw .new_ then r.newE
  else do
    let p ← primary o r
    let (e, _) ← r.callRest p true false false
    return e

/-- parser.go 4425-4444 (lhs). -/
def lhs : M Node := do
  let n ← lhs1 o r
  if (← peek) = .pu .dot then do
    let (e, _) ← r.callRest n true false false
    return e
  else return n

def isIncDec (k : K) : Bool := k = .pu .inc || k = .pu .dec

/-- parser.go 4360-4423 (updateExpr). -/
def update : M Node := do
  let k ← peek
  if isIncDec k then do
    next
    let a ← r.unary
    req (simpleLVal true true a)
    chk o 4370 a
    return .update true k a
  else do
    let a ← lhs o r
    let k ← peek
    let b ← nl
    if !b && isIncDec k then do
      req (simpleLVal true true a)
      chk o 4411 a
      next
      return .update false k a
    else return a

def isUnary : K → Bool
  | .un _ | .bin .add | .bin .sub => true
  | _ => false

def isArrow : Node → Bool
  | .arrow .. => true
  | _ => false

/-- parser.go 4245-4357 (awaitExpr, unaryExpr). -/
def unary : M Node := do
  let k ← peek
  if isUnary k then do
    next
    let a ← r.unary
    req (!isArrow a)
    chk o 4316 a
    return .unary k a
  else if k = .cw .await then do
    next
    if !startExpr (← peek) then do
      chk o 4251 .nil
      return .leaf (.cw .await)
    else do
      let c ← scope
      req c.async
      chk o 4263 .nil
      let a ← r.unary
      return .unary (.cw .await) a
  else update o r

/-- parser.go 5491-5503 (binExpr): the inner loop. -/
def binInner (rhs : Node) (p : Nat) (logic nullish : Bool) : M Node := do
  let c ← scope
  match isBin c.notIn (← peek) with
  | some op =>
    if pcd op > p || (pcd op = p && op = .pow) then do
      let e ← r.binRest rhs (pcd op) logic nullish
      r.binInner e (pcd op) logic nullish
    else return rhs
  | none => return rhs

def isUn : Node → Bool
  | .unary .. => true
  | _ => false

/-- parser.go 5446-5532 (binExpr): one turn of the loop and what follows. -/
def binRest (l : Node) (minPcd : Nat) (logic nullish : Bool) : M Node := do
  let c ← scope
  match isBin c.notIn (← peek) with
  | none => return l
  | some op =>
    if pcd op < minPcd then return l
    else do
      req (!((logic && op = .nullish) || (nullish && (op = .and || op = .or))))
      next
      let rhs ← r.unary
      let rhs ← r.binInner rhs (pcd op) (logic || op = .and || op = .or) (nullish || op = .nullish)
      req (!(isUn l && op = .pow) && !isArrow rhs)
      r.binRest (.bin op l rhs) minPcd (logic || op = .and || op = .or) (nullish || op = .nullish)

/-- parser.go 4199-4242 (condExpr). -/
def cond : M Node := do
  let u ← r.unary
  condTail r u

def isYield (k : K) : Bool := k = .cw .yield || k = .name "yield"

/-- parser.go 4031-4069 (aheadIsYield, yieldExpr). -/
def yieldE : M Node := do
  next
  chk o 4044 .nil
  let k ← peek
  let b ← nl
  if b || (!startExpr k && k ≠ .bin .mul) then return .yield_ false .nil
  else do
    let del ← star
    let a ← r.assign
    return .yield_ del a

/-- parser.go 4095-4138 (assignExpr), from the operator on.  isSimpleLVal (4126) is not asked inside the parentheses of a call or of an
expression; after argToParam it can only say no to a pattern before an operator, and to names: this is left to `Chk`. -/
def assignTail (l : Node) : M Node := do
  match ← peek with
  | .asg op => do
    next
    let rhs ← r.assign
    let l' ← target o l
    chk o 4127 l'
    chk o 4131 rhs
    return .assign op l' rhs
  | _ => return l

/-- parser.go 4072-4138 (assignExpr). -/
def assign : M Node := do
  let c ← scope
  if c.gen && isYield (← peek) then yieldE o r
  else do
    let l ← cond r
    let k ← peek
    let b ← nl
    if isName l && k = .pu .arrow && !b then do
      chk o 4834 (.seq [l])
      let f ← arrowFn o r [l]
      assignTail o r f
    else assignTail o r l

/-- parser.go 4011-4026 (seqExpr): the rest of the list. -/
def seqRest : M (List Node) := do
  if (← peek) = .pu .comma then do
    next
    let e ← r.assign
    let l ← r.seqRest
    return e :: l
  else return []

/-- parser.go 4004-4029 (seqExpr), from the first one on. -/
def seqTail (e : Node) : M Node := do
  if (← peek) = .pu .comma then do
    let l ← r.seqRest
    return .seq (e :: l)
  else return e

/-- parser.go 3989-4029 (expr, seqExpr). -/
def expr : M Node := do
  let e ← r.assign
  chk o 4003 e
  seqTail r e

/-! ## Statements -/

/-- parser.go 3103-3115: the kind of a declaration the word may begin. -/
def decKind : K → Option K
  | .cw .let_ => some (.cw .let_)
  | .cw .const_ => some (.cw .const_)
  | .name s => if s = "let" then some (.cw .let_) else if s = "const" then some (.cw .const_) else none
  | _ => none

/-- parser.go 3097-3136 (aheadIsVarDec): the kind.  Line 3121 is the question whether the code is strict. -/
def isVarDec (ts : List Tok) : Option K :=
  if hd ts = .kw .var then some (.kw .var)
  else
    match decKind (hd ts) with
    | none => none
    | some v =>
      if o 3121 .nil ts then some v
      else if !nlB ts.tail && (match hd ts.tail with | .name _ | .cw _ | .pu .braceL | .pu .brackL => true | _ => false) then some v
      else none

/-- parser.go 3241-3247 (varDec): the initialiser. -/
def initE : M Node := do
  if (← peek) = .asg .assign then do
    next
    r.assign
  else return .nil

/-- parser.go 3223-3255 (varDec) and 3184-3197 (the loop of varDecStmt). -/
def decs (isConst : Bool) : M (List Node) := do
  let b ← r.pat
  let i ← initE r
  let c ← scope
  req (!isNil i || c.notIn || (isName b && !isConst))
  if (← peek) = .pu .comma then do
    next
    let l ← r.decs isConst
    return .dec b i :: l
  else return [.dec b i]

/-- parser.go 3153-3213 (varDecStmt), up to the semicolon. -/
def varDec (kind : K) : M Node := do
  next
  let l ← r.decs (kind = .cw .const_)
  chk o 3206 (.varDec kind l)
  return .varDec kind l

/-- parser.go 3153-3221 (varDecStmt). -/
def varDecS (kind : K) : M Node := do
  let n ← varDec o r kind
  semi true
  return n

/-- parser.go 3971-3986 (exprStmt). -/
def exprS : M Node := do
  let e ← r.expr
  semi true
  return .exprStmt e

/-- The expression in parentheses after `if`, `while`, `switch` and `with`. -/
def head : M Node := do
  must (.pu .parenL)
  let e ← r.expr
  must (.pu .parenR)
  return e

/-- A statement that is a part of another, in the scope `d`. -/
def sub (d : Nat) : M Node := do
  setKind d (fun c => { c with interim := true })
  let s ← r.stmt
  setKind d (fun c => { c with interim := false })
  return s

/-- parser.go 2148-2194 (ifStmt). -/
def ifS : M Node := do
  next
  let t ← head r
  let d ← scopeRef
  let a ← sub r d
  if (← peek) = .kw .else_ then do
    next
    let b ← sub r d
    return .ifS t a b
  else return .ifS t a .nil

/-- parser.go 2247-2289 (whileStmt). -/
def whileS : M Node := do
  next
  pushLoop
  let t ← head r
  enter (fun c => { c with loop := true })
  let d ← scopeRef
  let b ← sub r d
  leave
  popLoop
  return .whileS t b

/-- parser.go 2197-2244 (doWhileStmt). -/
def doS : M Node := do
  next
  pushLoop
  enter (fun c => { c with loop := true })
  let d ← scopeRef
  let b ← sub r d
  must (.kw .while_)
  let t ← head r
  semi false
  leave
  popLoop
  return .doS b t

/-- parser.go 1728-1757 (withStmt). -/
def withS : M Node := do
  next
  let t ← head r
  let b ← r.stmt
  chk o 1752 .nil
  return .withS t b

/-- parser.go 2318-2331 (forStmt): the first part. -/
def forInit : M Node := do
  let ts ← left
  match isVarDec o ts with
  | some kind => varDec o r kind
  | none => if hd ts = .pu .semi then return .nil else r.expr

/-- parser.go 2352-2386 (forStmt): the target of a loop over keys or values. -/
def forLeft (init : Node) : M Node := do
  match init with
  | .nil => fail
  | .varDec k l => do
    req (l.length = 1)
    chk o 2374 (.varDec k l)
    return .varDec k l
  | .arr l => target o (.arr l)
  | .obj l => target o (.obj l)
  | e => do
    req (simpleLVal true true e)
    chk o 2355 e
    return e

/-- parser.go 2388-2398 (forStmt): what is looped over. -/
def forRight (isIn : Bool) : M Node :=
  if isIn then r.expr else r.assign

/-- parser.go 2345-2424 (forStmt): the loops over keys and values, from `in` or `of` on. -/
def forInTail (d : Nat) (await isIn : Bool) (init : Node) : M Node := do
  pushLoop
  let l ← forLeft o init
  next
  let e ← forRight r isIn
  must (.pu .parenR)
  let b ← sub r d
  leave
  popLoop
  return .forIn await isIn l e b

/-- parser.go 2436-2455 (forStmt): a part that may be left out. -/
def optE (k : K) : M Node := do
  if (← peek) = k then return .nil else r.expr

/-- parser.go 2430-2481 (forStmt): the loop with three parts, from the first semicolon on. -/
def forTail (d : Nat) (init : Node) : M Node := do
  pushLoop
  must (.pu .semi)
  let t ← optE r (.pu .semi)
  must (.pu .semi)
  let u ← optE r (.pu .parenR)
  must (.pu .parenR)
  let b ← sub r d
  leave
  popLoop
  return .forS init t u b

/-- parser.go 2297-2307 (forStmt): `await`. -/
def forAwait : M Bool := do
  let c ← scope
  let k ← peek
  if c.async && k = .cw .await then do
    next
    return true
  else return false

def isAsyncName : Node → Bool
  | .leaf (.name s) => s = "async"
  | _ => false

/-- parser.go 2292-2483 (forStmt). -/
def forS : M Node := do
  next
  let await ← forAwait
  must (.pu .parenL)
  enter (fun c => { c with loop := true, notIn := true })
  let d ← scopeRef
  let i ← forInit o r
  setKind d (fun c => { c with notIn := false })
  let k ← peek
  if k = .name "in" then do
    req (!await)
    forInTail o r d await true i
  else if k = .name "of" then do
    req (await || !isAsyncName i)
    forInTail o r d await false i
  else do
    req (!await)
    forTail r d i

/-- parser.go 1896-1921 (retStmt): the operand and the semicolons. -/
def retArg : M Node := do
  let k ← peek
  let b ← nl
  if k = .pu .semi then do
    next
    semi false
    return .nil
  else if k = .pu .braceR || k = .pu .parenR || k = .pu .brackR || k = .eof || b then do
    semi true
    return .nil
  else do
    let e ← r.expr
    semi true
    return e

/-- parser.go 1896-1928 (retStmt). -/
def retS : M Node := do
  next
  let a ← retArg r
  let c ← scope
  req c.fn
  pushRet
  return .ret a

/-- parser.go 1865-1893 (throwStmt). -/
def throwS : M Node := do
  next
  let k ← peek
  let b ← nl
  req (k ≠ .eof && !b)
  let e ← r.expr
  semi true
  return .throwS e

/-- parser.go 1980-1988, 2020-2028 (brkStmt, contStmt): the label. -/
def jumpLabel : M Node := do
  let k ← peek
  let b ← nl
  if (k matches .name _) && !b then do
    let l ← ident o
    semi true
    return l
  else do
    semi true
    return .nil

/-- parser.go 1975-2011 (brkStmt). -/
def brkS : M Node := do
  next
  let l ← jumpLabel o
  let c ← scope
  chk o 1993 l
  req (!isNil l || c.loop || c.sw)
  return .brk l

/-- parser.go 2014-2051 (contStmt).  Without a label, the last loop is taken from `loopStk`. -/
def contS : M Node := do
  next
  let l ← jumpLabel o
  let c ← scope
  chk o 2033 l
  if isNil l then do
    req c.loop
    lastLoop
    return .cont l
  else return .cont l

/-- parser.go 1940-1972 (labelStmt).  The code takes the token after the name without looking; if that is no colon, a colon is next, and no
statement begins with it. -/
def labelS : M Node := do
  let l ← ident o
  must (.pu .colon)
  chk o 1954 l
  let d ← scopeRef
  let b ← sub r d
  return .label l b

/-- parser.go 2112-2145 (switchCase): the statements. -/
def caseBody : M (List Node) := do
  let k ← peek
  if k = .kw .case_ || k = .kw .default || k = .pu .braceR then return []
  else do
    let s ← r.stmt
    let l ← r.caseBody
    return s :: l

/-- parser.go 2076-2100 (switchStmt), 2112-2145 (switchCase), after the opening brace. -/
def cases (metDefault : Bool) : M (List Node) := do
  let k ← peek
  if k = .pu .braceR then do
    next
    return []
  else if k = .kw .case_ then do
    next
    let t ← r.expr
    must (.pu .colon)
    let b ← r.caseBody
    let l ← r.cases false
    return .case t b :: l
  else do
    req (!metDefault)
    must (.kw .default)
    must (.pu .colon)
    let b ← r.caseBody
    let l ← r.cases true
    return .case .nil b :: l

/-- parser.go 2054-2110 (switchStmt). -/
def switchS : M Node := do
  next
  let t ← head r
  must (.pu .braceL)
  enter (fun c => { c with sw := true })
  let l ← r.cases false
  leave
  return .switchS t l

/-- parser.go 1797-1815 (tryStmt): the parameter of the catch clause. -/
def catchParam : M Node := do
  if (← peek) = .pu .parenL then do
    next
    let p ← r.pat
    must (.pu .parenR)
    return p
  else return .nil

/-- parser.go 1791-1842 (tryStmt): the catch clause, from the keyword on. -/
def catchS : M Node := do
  must (.kw .catch_)
  let p ← catchParam r
  chk o 1818 p
  enter id
  let b ← body r
  leave
  return .catchS p b

/-- parser.go 1844-1851 (tryStmt): the finally clause, from the keyword on. -/
def finallyS : M Node := do
  must (.kw .finally_)
  blockS r id

/-- parser.go 1772-1862 (tryStmt). -/
def tryS : M Node := do
  next
  let b ← blockS r (fun c => { c with try_ := true })
  if (← peek) = .kw .catch_ then do
    let h ← catchS o r
    if (← peek) = .kw .finally_ then do
      let f ← finallyS r
      return .tryS b h f
    else return .tryS b h .nil
  else do
    let f ← finallyS r
    return .tryS b .nil f

/-- parser.go 2514-2845 (fnDec) for `async` at the beginning of a statement. -/
def asyncStmt (anon : Bool) : M Node := do
  next
  if (← peek) = .kw .func then fnKw o r false true anon
  else do
    match ← asyncTail o r with
    | .arrow n => do
      semi true
      return .exprStmt n
    | .call n => do
      let n ← r.binRest n 0 false false
      let n ← seqTail r n
      semi true
      return .exprStmt n
    | .fn n => return n

/-! ## Modules -/

/-- parser.go 733-741 (identWithKw). -/
def identKw : M Node := do
  let k ← peek
  if isKw k then do
    next
    return .leaf k
  else ident o

/-- The local name is not a keyword. -/
def localName : Node → Bool
  | .spec (.leaf k) _ => !isKw k
  | _ => false

/-- parser.go 6455-6461 (nextMustTok): a string. -/
def srcE : M Node := do
  let k ← peek
  req (k matches .str _)
  next
  return .leaf k

/-- parser.go 952-1008 (importSpec), without TypeScript. -/
def impSpec : M Node := do
  let a ← identKw o
  if (← peek) = .name "as" then do
    next
    let b ← ident o
    return .spec a b
  else do
    req (localName (.spec a .nil))
    return .spec a .nil

/-- parser.go 1028-1030: a comma, if there is one. -/
def optComma : M Unit := do
  if (← peek) = .pu .comma then next
  else return ()

/-- parser.go 1011-1038 (importNamed), after the opening brace. -/
def impSpecs : M (List Node) := do
  if (← peek) = .pu .braceR then do
    next
    return []
  else do
    let n ← impSpec o
    optComma
    let l ← r.impSpecs
    return n :: l

/-- parser.go 941-950 (importNamedOrNS), 1040-1056 (importNS). -/
def impGroup : M (List Node) := do
  if (← peek) = .pu .braceL then do
    next
    r.impSpecs
  else do
    must (.bin .mul)
    must (.name "as")
    let i ← ident o
    return [.impNS i]

/-- parser.go 873-887 (importDec): what is imported first. -/
def impFirst : M (List Node) := do
  if (← peek) matches .name _ then do
    let i ← ident o
    return [.impDef i]
  else impGroup o r

/-- parser.go 889-896 (importDec): what is imported after a comma. -/
def impMore : M (List Node) := do
  if (← peek) = .pu .comma then do
    next
    impGroup o r
  else return []

/-- parser.go 870-903 (importDec): what is imported. -/
def impClause : M (List Node) := do
  if (← peek) matches .str _ then return []
  else do
    let a ← impFirst o r
    let b ← impMore o r
    return a ++ b

/-- parser.go 905-909 (importDec): `from`, if it is there. -/
def optFrom : M Unit := do
  if (← peek) = .name "from" then next
  else return ()

/-- parser.go 800-939 (importDec), without `import(` and `import.`. -/
def importS : M Node := do
  next
  let l ← impClause o r
  optFrom
  let s ← srcE
  chk o 917 s
  semi true
  return .importS l s

/-- parser.go 743-797 (exportSpec), without TypeScript. -/
def expSpec : M Node := do
  let a ← identKw o
  if (← peek) = .name "as" then do
    next
    let b ← identKw o
    return .spec a b
  else return .spec a .nil

/-- parser.go 699-731 (exportNamed), after the opening brace. -/
def expSpecs : M (List Node) := do
  if (← peek) = .pu .braceR then do
    next
    return []
  else do
    let n ← expSpec o
    if (← peek) = .pu .comma then do
      next
      let l ← r.expSpecs
      return n :: l
    else do
      must (.pu .braceR)
      return [n]

/-- parser.go 655-668 (exportFrom): `as` and the name. -/
def nsName : M Node := do
  if (← peek) = .name "as" then do
    next
    ident o
  else return .nil

/-- parser.go 647-697 (exportFrom) for `*`. -/
def exportAll : M Node := do
  next
  let n ← nsName o
  must (.name "from")
  let s ← srcE
  semi true
  return .exportAll n s

/-- parser.go 680-696 (exportFrom): where from, for names. -/
def fromOpt (l : List Node) : M Node := do
  if (← peek) = .name "from" then do
    next
    srcE
  else do
    req (l.all localName)
    return .nil

/-- parser.go 647-697 (exportFrom) for names. -/
def exportNamed : M Node := do
  next
  let l ← r.expSpecs
  let s ← fromOpt l
  semi true
  return .exportNamed l s

/-- parser.go 507-538 (exportDec) after `default`. -/
def defaultS : M Node := do
  let k ← peek
  let c ← scope
  let ts ← left
  if k = .kw .func then fnKw o r false false true
  else if isAsync c false ts then asyncStmt o r true
  else if k = .kw .class_ then classE o r false
  else do
    let e ← r.assign
    semi false
    return e

/-- parser.go 470-538 (exportDec), without TypeScript; `export` has been taken. -/
def exportRest : M Node := do
  let k ← peek
  let c ← scope
  let ts ← left
  if k = .bin .mul then exportAll o
  else if k = .pu .braceL then exportNamed r
  else
    match isVarDec o ts with
    | some kind => do
      let d ← varDecS o r kind
      return .exportDec d
    | none =>
      if k = .kw .func then do
        let d ← fnKw o r false false false
        return .exportDec d
      else if isAsync c false ts then do
        let d ← asyncStmt o r false
        return .exportDec d
      else if k = .kw .class_ then do
        let d ← classE o r true
        return .exportDec d
      else do
        must (.kw .default)
        let d ← defaultS o r
        return .exportDefault d

/-- parser.go 459-625 (exportDec), 629-645 (addExp): only in the outermost scope. -/
def exportS : M Node := do
  next
  let n ← exportRest o r
  let d ← scopeRef
  req (d = 0)
  chk o 629 n
  return n

/-- parser.go 808-811 (importDec): an expression. -/
def isImportExpr (ts : List Tok) : Bool := hd ts.tail = .pu .parenL || hd ts.tail = .pu .dot

/-- parser.go 1931-1937 (aheadIsLabel): the next token that has not been looked at, which is the second one unless the questions
whether a declaration or an async function begins have been asked. -/
def isLabel (ts : List Tok) : Bool :=
  match hd ts with
  | .name s => if s = "async" || s = "let" || s = "const" then hd ts.tail.tail = .pu .colon else hd ts.tail = .pu .colon
  | _ => false

/-- parser.go 394-431 (stmt): the statements that begin with no keyword, brace or semicolon. -/
def otherS : M Node := do
  let ts ← left
  let c ← scope
  match isVarDec o ts with
  | some kind => do
    req (!c.interim)
    varDecS o r kind
  | none =>
    if isAsync c false ts then asyncStmt o r false
    else if isLabel ts then labelS o r
    else exprS r

/-- parser.go 336-455 (stmt), without TypeScript. -/
def stmt : M Node := do
  let c ← scope
  match ← peek with
  | .kw .var => varDecS o r (.kw .var)
  | .kw .func => do
    let f ← fnKw o r false false false
    let ts ← left
    req (!c.interim || o 440 f ts)
    return f
  | .kw .if_ => ifS r
  | .kw .for_ => forS o r
  | .kw .return_ => retS r
  | .kw .while_ => whileS r
  | .kw .break_ => brkS o
  | .kw .continue_ => contS o
  | .kw .throw_ => throwS r
  | .kw .try_ => tryS o r
  | .kw .do_ => doS r
  | .kw .switch => switchS r
  | .kw .debugger => do
    next
    semi true
    return .debug
  | .kw .with_ => withS o r
  | .kw .new_ | .kw .this | .kw .super => exprS r
  | .kw .class_ => do
    req (!c.interim)
    classE o r true
  | .kw .import_ => do
    let ts ← left
    if isImportExpr ts then exprS r
    else do
      let n ← importS o r
      req (!c.interim)
      return n
  | .kw .export_ => do
    let n ← exportS o r
    req (!c.interim)
    return n
  | .kw _ => fail
  | .pu .braceL => blockS r id
  | .pu .semi => do
    next
    return .empty
  | .eof => fail
  | _ => otherS o r

/-- parser.go 2989-3062 (stmts); `inBlock`: up to the closing brace, which is taken. -/
def stmts (inBlock : Bool) : M (List Node) := do
  let k ← peek
  if inBlock && k = .pu .braceR then do
    next
    return []
  else if k = .eof then do
    req (!inBlock)
    return []
  else do
    let s ← r.stmt
    chk o 3030 s
    let l ← r.stmts inBlock
    return s :: l

/-- All of them. -/
def build : Rec where
  expr := expr o r
  seqRest := seqRest r
  assign := assign o r
  unary := unary o r
  binRest := binRest r
  binInner := binInner r
  newE := newE o r
  newRest := newRest r
  callRest := callRest o r
  memRest := memRest o r
  args := args o r
  tplRest := tplRest o r
  arrRest := arrRest r
  objRest := objRest o r
  params := params o r
  pat := pat o r
  patElem := patElem o r
  patArr := patArr r
  patObj := patObj o r
  decs := decs r
  stmt := stmt o r
  stmts := stmts o r
  cases := cases r
  caseBody := caseBody r
  lhs := lhs o r
  members := members o r
  impSpecs := impSpecs o r
  expSpecs := expSpecs o r

end

/-- No fuel is left. -/
def Rec.none : Rec where
  expr := fail
  seqRest := fail
  assign := fail
  unary := fail
  binRest _ _ _ _ := fail
  binInner _ _ _ _ := fail
  newE := fail
  newRest _ _ _ := fail
  callRest _ _ _ _ := fail
  memRest _ _ _ _ := fail
  args _ _ := fail
  tplRest := fail
  arrRest := fail
  objRest := fail
  params := fail
  pat := fail
  patElem := fail
  patArr := fail
  patObj := fail
  decs _ := fail
  stmt := fail
  stmts _ := fail
  cases _ := fail
  caseBody := fail
  lhs := fail
  members := fail
  impSpecs := fail
  expSpecs := fail

/-- The functions with so much fuel: the depth of the calls. -/
def rec_ (o : Chk) : Nat → Rec
  | 0 => Rec.none
  | n + 1 => build o (rec_ o n)

/-- The parser before the first token. -/
def start (ts : List Tok) : S := ⟨ts, {}, [], 0⟩

/-- parser.go 213-245 (Prog). -/
def prog (o : Chk) (fuel : Nat) (ts : List Tok) : Out Node :=
  ((rec_ o fuel).stmts false >>= fun l => pure (.prog l)) (start ts)

end Mole.Parser.Prog
