/-! # Types of TypeScript (C80)

Model of the functions of `ecma/parser/ts.go` that read types.  The source is the list of its tokens, as the lexer gives them in the
modes it is in (so a `>` that ends type arguments is a token of its own).  Four things are read by functions that are parameters here
(`Cfg`): object and mapped types, templates, formal parameters after the first one, and lists of type parameters.  Not modelled:
escapes in names, the word `intrinsic`, and modifiers before the first parameter (the model rejects them); JSX is switched off. -/

namespace Mole.Parser.TsType

/-- token.go 155-320: the kinds of tokens. -/
inductive K where
  | name (s : String)
  | str (s : String)
  | num (s : String)
  | tru | fls | null
  | void | const_ | new_ | this_ | typeof_ | import_ | extends_ | in_
  /-- the other keywords -/
  | kw (s : String)
  | tpl
  | sub | bar | amp | parenL | parenR | lt | gt | braceL | braceR | brackL | brackR
  | dot | dots | comma | hook | colon | arrow | assign | semi
  /-- another operator with this priority; does it begin an expression -/
  | bin (pcd : Nat) (start : Bool)
  /-- `static`, `let`, `async` and the like, where they are not names -/
  | ctx (s : String)
  | other (start : Bool)
  | eof
deriving DecidableEq, Repr

/-- token.go 22-60: the kind, and if there is a line break before. -/
structure Tok where
  k : K
  nl : Bool := false
deriving DecidableEq, Repr

/-- token.go 346-517: the priority of a token (`TokenKinds`). -/
def pcd : K → Nat
  | .bar => 8
  | .amp => 10
  | .lt => 12
  | .gt => 12
  | .in_ => 12
  | .sub => 14
  | .bin p _ => p
  | _ => 0

/-- token.go 346-517: the token begins an expression (`StartExpr`). -/
def startExpr : K → Bool
  | .name _ | .str _ | .num _ | .tru | .fls | .null | .void | .new_ | .this_ | .typeof_ | .import_ | .tpl | .sub => true
  | .parenL | .braceL | .brackL => true
  | .kw s => s == "class" || s == "function" || s == "super" || s == "delete"
  | .ctx s => s == "yield"
  | .bin _ b | .other b => b
  | _ => false

/-- `|` or `&`. -/
def isOp (k : K) : Bool := k == .bar || k == .amp

/-- ts_ast.go: `TsNsName` or a name. -/
inductive Name where
  | id (s : String)
  | dot (n : Name) (s : String)
deriving DecidableEq, Repr

/-- ts_ast.go 1040-1060: what a predicate is about. -/
inductive Who where
  | nm (n : Name)
  | this
deriving DecidableEq, Repr

/-- ts_ast.go: the nodes of types, and of the patterns the first parameter of a function is turned into. -/
inductive Nd (X : Type) where
  | predef (s : String)
  | ref (n : Name)
  | app (n : Name) (args : List (Nd X))
  | lit (k : K)
  | neg (s : String)
  | this
  | union (l : List (Nd X))
  | inter (l : List (Nd X))
  | arr (t : Nd X)
  | idx (t i : Nd X)
  | tuple (l : List (Nd X))
  | rest (t : Nd X)
  | opt (t : Nd X)
  | named (label : String) (o : Bool) (t : Nd X)
  | op (s : String) (t : Nd X)
  | query (t : Nd X)
  | infer (n : Name)
  | cond (a b c d : Nd X)
  | pred (asserts : Bool) (w : Who)
  | predTy (asserts : Bool) (w : Who) (t : Nd X)
  | imp (s : String) (q : Option Name) (args : List (Nd X))
  | fn (tp : Option X) (ps : List (Nd X)) (ret : Nd X)
  /-- a function type without a result -/
  | fnNo (tp : Option X)
  | ctor (abs : Bool) (tp : Option X) (ps : List (Nd X)) (ret : Nd X)
  | obj (x : X)
  | tpl (x : X)
  | paren (t : Nd X)
  /-- a type argument with `extends` -/
  | tparam (s : String) (t : Nd X)
  /-- patterns -/
  | pid (s : String)
  | parr (l : List (Nd X))
  | pobj (x : X)
  | prest (t : Nd X)
  /-- the first parameter -/
  | param (p : Nd X) (o : Bool)
  | paramTy (p : Nd X) (o : Bool) (t : Nd X)
  /-- another parameter -/
  | ext (x : X)

/-- What is read by other parts of the parser; each gives the tokens it leaves. -/
structure Cfg (X : Type) where
  /-- ts.go 1160-1194 `tsObj`, from the `{`; is it read roughly -/
  obj : Bool → List Tok → Option (X × List Tok)
  /-- `tplExpr` -/
  tpl : List Tok → Option (X × List Tok)
  /-- parser.go 3402-3500 `param` -/
  param : List Tok → Option (X × List Tok)
  /-- ts.go 1549-1573 `tsTypParams`, from the `<` -/
  tparams : List Tok → Option (X × List Tok)
  /-- ts.go 453-460, 461-473: an object read roughly as a type -/
  toTyp : X → Option X
  /-- ts.go 327-353: an object read roughly as a pattern -/
  toPat : X → Option X

/-- What a function of the parser gives. -/
inductive Out (α : Type) where
  | ok (a : α) (r : List Tok)
  | err
  | panic
  | fuel

abbrev M (α : Type) := List Tok → Out α

instance : Monad M where
  pure a := fun s => .ok a s
  bind m f := fun s =>
    match m s with
    | .ok a r => f a r
    | .err => .err
    | .panic => .panic
    | .fuel => .fuel

def fail {α : Type} : M α := fun _ => .err
def crash {α : Type} : M α := fun _ => .panic
def outOfFuel {α : Type} : M α := fun _ => .fuel

/-- The next token. -/
def hd (s : List Tok) : Tok := s.headD ⟨.eof, false⟩

/-- lexer.go 205-210 `Peek`. -/
def peek : M Tok := fun s => .ok (hd s) s

/-- lexer.go 212-222 `Peek2nd`. -/
def peek2 : M Tok := fun s => .ok (hd s.tail) s

/-- lexer.go 186-191 `Next`. -/
def next : M Unit := fun s => .ok () s.tail

/-- parser.go 6455-6461 `nextMustTok`. -/
def must (k : K) : M Unit := fun s => if (hd s).k = k then .ok () s.tail else .err

/-- A function of another part of the parser. -/
def call {X : Type} (f : List Tok → Option (X × List Tok)) : M X := fun s =>
  match f s with
  | some (x, r) => .ok x r
  | none => .err

/-- ts.go 83-176 and what it is called with: read roughly, `const` is a type, conditional types. -/
structure Fl where
  rough : Bool := false
  const_ : Bool := false
  cond : Bool := false
deriving DecidableEq, Repr

/-- The flags of most calls. -/
def no : Fl := {}
def yes : Fl := { cond := true }

/-- ts.go 10-24 `builtinTyp`. -/
def builtin (s : String) : Bool :=
  ["any", "number", "boolean", "string", "symbol", "object", "void", "never", "unknown", "undefined", "null", "bigint"].contains s

variable {X : Type}

/-- parser.go 3287-3324 `ident` where it is not a binding. -/
def ident : M String := fun s =>
  match (hd s).k with
  | .name v => .ok v s.tail
  | _ => .err

/-- token.go 540-570 `TokenKinds[…].Name`: the text of a keyword. -/
def kwText : K → Option String
  | .kw s => some s
  | .ctx s => some s
  | .void => some "void"
  | .const_ => some "const"
  | .new_ => some "new"
  | .this_ => some "this"
  | .typeof_ => some "typeof"
  | .import_ => some "import"
  | .extends_ => some "extends"
  | .in_ => some "in"
  | .null => some "null"
  | .tru => some "true"
  | .fls => some "false"
  | _ => none

/-- parser.go 3276-3285 `identWithKw`. -/
def identKw : M String := fun s =>
  match kwText (hd s).k with
  | some v => .ok v s.tail
  | none => ident s

/-- ts.go 603-615: the loop of `tsTypName`. -/
def nameLoop : Nat → Name → M Name
  | 0, n => fun s => .ok n s
  | k + 1, n => fun s =>
    if (hd s).k = .dot then (do next; let v ← identKw; nameLoop k (.dot n v)) s else .ok n s

/-- ts.go 594-602: the first name. -/
def firstName (ns : Option Name) : M Name :=
  match ns with
  | some n => pure n
  | none => do let v ← identKw; return .id v

/-- ts.go 594-616 `tsTypName`. -/
def typName (ns : Option Name) : M Name := do
  let n ← firstName ns
  fun s => nameLoop s.length n s

/-- The token has the text `is` (`ahead.text`): a string may have it too. -/
def textIs : K → Bool
  | .name s => s == "is"
  | .str s => s == "is"
  | _ => false

def isName : K → Bool
  | .name _ => true
  | _ => false

/-- ast.go 27 `InParenNode`: all nodes of types but `TsNewSig`. -/
def inParen : Nd X → Bool
  | .ctor .. => false
  | _ => true

/-- ts.go 909-915. -/
def unwrap : Nd X → Nd X
  | .paren t => if inParen t then t else .paren t
  | t => t

/-- ts.go 98: `N_TS_FN_TYP`. -/
def isFn : Nd X → Bool
  | .fn .. => true
  | .fnNo _ => true
  | _ => false

/-- The functions that call each other. -/
structure Rec (X : Type) where
  typ : Fl → M (Nd X)
  uni : Option (Nd X) → Nat → Fl → Bool → M (Nd X)
  loop : Nat → Fl → Option (Nd X) → Option Bool → List (Nd X) → Option (Nd X) → M (Nd X)
  prim : Fl → M (Nd X)
  arr : Nd X → M (Nd X)
  args : Bool → List (Nd X) → M (List (Nd X))
  mem : Bool → M (Nd X)
  mems : Bool → List (Nd X) → M (List (Nd X))
  params : List (Nd X) → M (List (Nd X))

/-- ts.go 127-131, 158-164: a union or an intersection. -/
def mk (or : Bool) (l : List (Nd X)) : Nd X := if or then .union l else .inter l

/-- ts.go 141-153: the operand, with what is joined to it by an operator of a higher priority.  This loop runs at most once: 10 is the
highest priority. -/
def climb (r : Rec X) (a : K) (r1 : Nd X) (F : Fl) : M (Nd X × Nat) := do
  let b ← peek
  if isOp b.k = true ∧ pcd a < pcd b.k then do
    let y ← r.uni (some r1) (pcd b.k) F false
    return (y, pcd b.k)
  else return (r1, pcd a)

/-- ts.go 107-176: the loop. -/
def uniLoop (r : Rec X) (min : Nat) (F : Fl) (lhs : Option (Nd X)) (nt : Option Bool) (elems : List (Nd X)) (rhs : Option (Nd X)) : M (Nd X) := do
  let a ← peek
  if isOp a.k = true ∧ min ≤ pcd a.k then do
    next
    let or := nt.getD (a.k == .bar)
    let el := if nt.isNone then lhs.toList else elems
    let r1 ← r.prim F
    let x ← climb r a.k r1 F
    let c ← peek
    if lhs.isSome = true ∧ pcd c.k < x.2 then r.loop min F (some (mk or (el ++ [x.1]))) none [] (some x.1)
    else r.loop min F lhs (some or) (el ++ [x.1]) (some x.1)
  else
    match lhs, rhs with
    | some l, _ => return l
    | none, some t => return t
    | none, none => fail

/-- ts.go 84-96: the first operand, if there is no operator before it. -/
def operand (r : Rec X) (lhs : Option (Nd X)) (F : Fl) : M (Option (Nd X)) :=
  match lhs with
  | some l => pure (some l)
  | none => do
    let a ← peek
    if isOp a.k = true then return none else do let t ← r.prim F; return some t

/-- ts.go 83-106 `tsUnionOrIntersectType`. -/
def uni (r : Rec X) (lhs : Option (Nd X)) (min : Nat) (F : Fl) (canFn : Bool) : M (Nd X) := do
  let lhs ← operand r lhs F
  match lhs with
  | some l => if isFn l = true ∧ canFn = false then return l else r.loop min F (some l) none [] none
  | none => r.loop min F none none [] none

/-- parser.go 3504-3578 `paramList`: the parameters, from the one before which we are, with the `)`. -/
def paramLoop (C : Cfg X) (r : Rec X) (acc : List (Nd X)) : M (List (Nd X)) := do
  let a ← peek
  if a.k = .parenR then do next; return acc
  else if a.k = .eof then fail
  else do
    let x ← call C.param
    let b ← peek
    if b.k = .comma then do next; r.params (acc ++ [.ext x])
    else if b.k = .parenR then r.params (acc ++ [.ext x])
    else fail

/-- Words that are modifiers before a parameter (`modifiers`). -/
def modifier (k : K) : Bool :=
  match k with
  | .name s | .ctx s => ["public", "private", "protected", "static", "abstract", "readonly", "override", "declare"].contains s
  | _ => false

/-- The next token is taken if it is a `?`. -/
def opt : M Bool := do
  let b ← peek
  if b.k = .hook then do next; return true else return false

/-- parser.go 3385-3398: the type annotation of a parameter. -/
def anno (r : Rec X) (t : Nd X) (o : Bool) : M (Nd X) := do
  let c ← peek
  if c.k = .colon then do next; let u ← r.typ yes; return .paramTy t o u else return .param t o

def isThis : Nd X → Bool
  | .this => true
  | _ => false

/-- parser.go 3350-3400 `roughParam`. -/
def roughParam (r : Rec X) : M (Nd X) := do
  let t ← r.typ { rough := true }
  let o ← opt
  if o = true ∧ isThis t = true then fail else anno r t o

/-- parser.go 3504-3578 `paramList(true, …)`: the list of parameters, the first one as a type; from
the `(` to the `)`. -/
def roughList (r : Rec X) : M (List (Nd X)) := do
  must .parenL
  let a ← peek
  if a.k = .parenR then do next; return []
  else if a.k = .eof then fail
  else if modifier a.k then fail
  else do
    let p ← roughParam r
    let d ← peek
    if d.k = .comma then do next; r.params [p]
    else if d.k = .parenR then r.params [p]
    else fail

/-- ts.go 201-207 `tsIsPrimitive`. -/
def primitive : Nd X → Bool
  | .predef s => ["any", "number", "boolean", "string", "symbol", "void"].contains s
  | .this => true
  | _ => false

mutual
/-- ts.go 289-403 `tsRoughParamToParam` for a type. -/
def toPat (C : Cfg X) : Nd X → Option (Nd X)
  | .predef s =>
    if ["any", "number", "boolean", "string", "symbol"].contains s then some (.pid s)
    else if s = "void" then none else some (.predef s)
  | .ref (.id s) => some (.pid s)
  | .ref (.dot _ _) => none
  | .app _ _ => none
  | .obj x => (C.toPat x).map .pobj
  | .arr t => if primitive t then none else toPat C t
  | .tuple l => (toPats C l).map .parr
  | .paren _ => none
  | .this => some (.pid "this")
  | .fn .. => none
  | .fnNo .. => none
  | .union _ => none
  | .inter _ => none
  | .rest t =>
    match t with
    | .ref (.id _) => some (.prest t)
    | _ => none
  | t => some t
/-- ts.go 356-363. -/
def toPats (C : Cfg X) : List (Nd X) → Option (List (Nd X))
  | [] => some []
  | t :: l =>
    match toPat C t with
    | none => none
    | some p => (toPats C l).map (p :: ·)
end

/-- ts.go 304-308, 239-262: the node can have a type annotation (`NodeWithTypInfo`). -/
def hasInfo : Nd X → Bool
  | .pid _ | .parr _ | .pobj _ | .prest _ => true
  | _ => false

/-- ts.go 289-310: the first parameter of a function type. -/
def toParam (C : Cfg X) : Nd X → Option (Nd X)
  | .param t o =>
    match t with
    | .this => none
    | t =>
      match toPat C t with
      | some p => if hasInfo p then some (.param p o) else none
      | none => none
  | .paramTy t o u =>
    match toPat C t with
    | some p => if hasInfo p then some (.paramTy p o u) else none
    | none => none
  | _ => none

mutual
/-- ts.go 433-491 `tsRoughParamToTyp` for a type. -/
def toTyp (C : Cfg X) : Nd X → Option (Nd X)
  | .obj x => (C.toTyp x).map .obj
  | .tuple l => (toTyps C l).map .tuple
  | t => some t
/-- ts.go 474-482. -/
def toTyps (C : Cfg X) : List (Nd X) → Option (List (Nd X))
  | [] => some []
  | t :: l =>
    match toTyp C t with
    | none => none
    | some p => (toTyps C l).map (p :: ·)
end

/-- ts.go 505-509: the first parameter is turned into a parameter. -/
def firstParam (C : Cfg X) : List (Nd X) → Option (List (Nd X))
  | [] => some []
  | p :: l => (toParam C p).map (· :: l)

/-- Type parameters, if there are some. -/
def tpars (C : Cfg X) : M (Option X) := do
  let a ← peek
  if a.k = .lt then do let x ← call C.tparams; return some x else return none

/-- ts.go 494-560 `tsParen(true)`. -/
def paren (C : Cfg X) (r : Rec X) : M (Nd X) := do
  let tp ← tpars C
  let ps ← roughList r
  let b ← peek
  if b.k = .arrow then
    match firstParam C ps with
    | none => fail
    | some ps => do
      must .arrow
      let t ← r.typ no
      return .paren (.fn tp ps t)
  else
    match ps with
    | [.param t _] =>
      match toTyp C t with
      | none => fail
      | some t =>
        if isOp b.k = true then r.uni (some t) 0 no true else return .paren t
    | [] => return .paren (.fnNo tp)
    | _ => fail

/-- ts.go 674-696 `tsArr`. -/
def arrLoop (r : Rec X) (t : Nd X) : M (Nd X) := do
  let a ← peek
  if a.k = .brackL then do
    next
    let b ← peek
    if b.k ≠ .brackR then do
      let i ← r.typ yes
      must .brackR
      r.arr (.idx t i)
    else do
      next
      r.arr (.arr t)
  else return t

/-- token.go `IsLit(true)`, `IsCtxKw`, ts.go 1762: what a type argument may begin with. -/
def argStart : K → Bool
  | .name _ | .void | .null | .tru | .fls | .str _ | .num _ | .in_ | .const_ | .ctx _ | .lt | .parenL | .braceL => true
  | _ => false

/-- ts.go 1734-1743 `tsPredefToName`. -/
def toName (C : Cfg X) (t : Nd X) : Option String :=
  match toPat C t with
  | some (.pid s) => some s
  | _ => none

/-- ts.go 1776-1798: the constraint of a type argument. -/
def argExt (C : Cfg X) (r : Rec X) (t : Nd X) : M (Nd X) := do
  let b ← peek
  if b.k = .extends_ then
    match toName C t with
    | none => fail
    | some s => do
      next
      let u ← r.typ no
      return .tparam s u
  else return t

/-- ts.go 1769-1798: a type argument. -/
def argM (C : Cfg X) (r : Rec X) (c : Bool) : M (Nd X) := do
  let t ← r.typ { const_ := c }
  argExt C r t

/-- ts.go 1745-1812 `tsTypArgs`: after the `<`. -/
def argLoop (C : Cfg X) (r : Rec X) (c : Bool) (acc : List (Nd X)) : M (List (Nd X)) := do
  let a ← peek
  if a.k = .gt then do
    next
    if acc.isEmpty = true then fail else return acc
  else if argStart a.k = true then do
    let t ← argM C r c
    let d ← peek
    if d.k = .comma then do next; r.args c (acc ++ [t])
    else if d.k = .gt then do next; return acc ++ [t]
    else fail
  else fail

/-- ts.go 1745-1752: with the `<`. -/
def typArgs (r : Rec X) (c : Bool) : M (List (Nd X)) := do
  next
  r.args c []

/-- ts.go 620-632: what a predicate with `asserts` is about. -/
def about (w : Who) (asserts thisAhead : Bool) : M Who :=
  if asserts = true then
    if thisAhead = true then do next; return .this else do let v ← ident; return .nm (.id v)
  else pure w

/-- ts.go 618-647 `tsTypPredicate`: after the name, with `asserts` before the `is`. -/
def predicate (r : Rec X) (w : Who) (asserts thisAhead : Bool) : M (Nd X) := do
  let w ← about w asserts thisAhead
  let a ← peek
  if a.k = .name "is" then do
    next
    let t ← r.typ no
    return .predTy asserts w t
  else return .pred asserts w

/-- ts.go 649-672 `tsRef`.  Without a name before (`ns` is nil) the type arguments end in a nil dereference (671). -/
def ref (r : Rec X) (ns : Option Name) : M (Nd X) := do
  let n ← typName ns
  let a ← peek
  let asserts := decide (n = .id "asserts")
  if (asserts = true ∧ (isName a.k = true ∨ a.k = .this_)) ∨ textIs a.k = true then
    predicate r (.nm n) asserts (decide (a.k = .this_))
  else if a.k ≠ .lt then return .ref n
  else do
    let l ← typArgs r false
    match ns with
    | none => crash
    | some _ => return .app n l

/-- ts.go 829-861 `tsPredefOrRef`. -/
def predefOrRef (r : Rec X) : M (Nd X) := do
  let a ← peek
  match a.k with
  | .name s => do
    next
    let b ← peek
    if builtin s = true ∧ b.k ≠ .dot then return .predef s else ref r (some (.id s))
  | .void => do
    next
    let b ← peek
    if b.k ≠ .dot then return .predef "void" else ref r none
  | _ => ref r none

/-- ts.go 873-887 `tsAheadIsRo`; an error is `none`. -/
def aheadIsRo (a b : K) : Option Bool :=
  if a = .name "readonly" then
    if b = .brackL ∨ (isName b = true ∧ b ≠ .name "readonly") then some true
    else if startExpr b = true then none else some false
  else some false

/-- ts.go 1046-1053: the name after `import("m")`. -/
def qualifier : M (Option Name) := do
  let b ← peek
  if b.k = .dot then do next; let n ← typName none; return some n else return none

/-- ts.go 1034-1061 `tsImport`. -/
def importTyp (r : Rec X) : M (Nd X) := do
  next
  must .parenL
  let a ← peek
  match a.k with
  | .str s => do
    next
    must .parenR
    let q ← qualifier
    let c ← peek
    if c.k = .lt then do
      let l ← typArgs r true
      return .imp s q l
    else return .imp s q []
  | _ => fail

/-- ts.go 178-199 `tsConstructTyp`: after `abstract`. -/
def construct (C : Cfg X) (r : Rec X) (abs : Bool) : M (Nd X) := do
  next
  let tp ← tpars C
  must .parenL
  let ps ← r.params []
  must .arrow
  let t ← r.typ no
  return .ctor abs tp ps t

/-- ts.go 726-770 `tsTupleMember`: what `...` may be before. -/
def restOk : Nd X → Bool
  | .arr _ => true
  | .tuple _ => true
  | .named _ _ t =>
    match t with
    | .arr _ => true
    | .tuple _ => true
    | _ => false
  | _ => false

/-- ts.go 698-709 `tsToBeTupleLabel`. -/
def label : Nd X → Option String
  | .ref (.id s) => some s
  | .predef s => some s
  | _ => none

/-- ts.go 726-770 `tsTupleMember`, 711-724 `tsTupleNamedMember`. -/
def member (r : Rec X) (rough : Bool) : M (Nd X) := do
  let a ← peek
  if a.k = .dots then do
    next
    let t ← r.mem rough
    if rough = true ∨ restOk t = true then return .rest t else fail
  else do
    let t ← r.typ { rough := rough }
    let b ← peek
    if b.k = .colon then
      match label t with
      | some s => do
        next
        let u ← r.typ yes
        return .named s false u
      | none => fail
    else if b.k = .hook then
      match label t with
      | some s => do
        next
        let c ← peek
        if c.k = .colon then do
          next
          let u ← r.typ yes
          return .named s true u
        else return .opt t
      | none =>
        if inParen t = true then do
          next
          return .opt t
        else fail
    else return t

/-- ts.go 790-797: a member that is optional. -/
def isOpt : Nd X → Bool
  | .named _ o _ => o
  | .opt _ => true
  | _ => false

def isRest : Nd X → Bool
  | .rest _ => true
  | _ => false

def isNamed : Nd X → Bool
  | .named .. => true
  | _ => false

/-- ts.go 812-816: a member with a name, or a rest of one. -/
def namedOk : Nd X → Bool
  | .named .. => true
  | .rest t => isNamed t
  | _ => false

/-- ts.go 790-800: is there an optional member before; a named member sets it to what it is. -/
def optAfter : List (Nd X) → Bool
  | l => l.foldl (fun o m => match m with | .named _ b _ => b | .opt _ => true | _ => o) false

/-- ts.go 788-801: the member may come after these. -/
def mayFollow (acc : List (Nd X)) (m : Nd X) : Bool :=
  match m with
  | .named _ o _ => o || !optAfter acc
  | .opt _ => true
  | .rest _ => true
  | _ => !optAfter acc

/-- ts.go 806-819. -/
def allNamed (l : List (Nd X)) : Bool := !l.any isNamed || l.all namedOk

/-- ts.go 772-827 `tsTuple`: after the `[`. -/
def memLoop (r : Rec X) (rough : Bool) (acc : List (Nd X)) : M (List (Nd X)) := do
  let a ← peek
  if a.k = .brackR then do next; return acc
  else do
    let m ← r.mem rough
    if mayFollow acc m = true then do
      let b ← peek
      if b.k = .comma then do
        next
        if allNamed (acc ++ [m]) = true then r.mems rough (acc ++ [m]) else fail
      else if allNamed (acc ++ [m]) = true then r.mems rough (acc ++ [m]) else fail
    else fail

/-- ts.go 2539-2565 `tsConditional`. -/
def conditional (r : Rec X) (t : Nd X) : M (Nd X) := do
  must .extends_
  let e ← r.typ no
  must .hook
  let a ← r.typ yes
  must .colon
  let b ← r.typ yes
  return .cond t e a b

/-- ts.go 1019-1033: what comes after the type. -/
def suffix (r : Rec X) (F : Fl) (t : Nd X) : M (Nd X) := do
  let a ← peek
  if a.k = .brackL ∧ a.nl = false then r.arr t
  else if a.k = .extends_ ∧ F.cond = true then conditional r t
  else return t

/-- ts.go 921-956: a type that begins with a name, `void` or `const`. -/
def primName (C : Cfg X) (r : Rec X) (F : Fl) (a : Tok) : M (Nd X) := do
  let b ← peek2
  if a.k = .name "abstract" ∧ b.nl = false ∧ b.k = .new_ then do
    next
    construct C r true
  else if a.k = .name "infer" then do
    next
    let n ← typName none
    suffix r F (.infer n)
  else if a.k = .name "keyof" ∨ a.k = .name "unique" then do
    next
    let t ← r.typ yes
    suffix r F (.op (if a.k = .name "keyof" then "keyof" else "unique") t)
  else
    match aheadIsRo a.k b.k with
    | none => fail
    | some true => do
      next
      let t ← r.prim no
      match t with
      | .arr _ => return .op "readonly" t
      | .tuple _ => return .op "readonly" t
      | _ => fail
    | some false => do
      let t ← predefOrRef r
      suffix r F t

/-- ts.go 891-1032 `tsPrimary`. -/
def prim (C : Cfg X) (r : Rec X) (F : Fl) : M (Nd X) := do
  let a ← peek
  match a.k with
  | .parenL | .lt => do
    let t ← paren C r
    let t ← r.arr t
    return unwrap t
  | .name _ | .void => primName C r F a
  | .const_ => if F.const_ = true then primName C r F a else fail
  | .null => do next; return .predef "null"
  | .tru | .fls | .str _ | .num _ => do next; return .lit a.k
  | .braceL => do
    let x ← call (C.obj F.rough)
    suffix r F (.obj x)
  | .brackL => do
    next
    let l ← r.mems F.rough []
    suffix r F (.tuple l)
  | .typeof_ => do
    next
    let t ← r.typ { cond := F.cond }
    suffix r F (.query t)
  | .this_ => do
    next
    let b ← peek
    if b.k = .name "is" then do
      let t ← predicate r .this false false
      suffix r F t
    else suffix r F .this
  | .import_ => importTyp r
  | .sub => do
    next
    let b ← peek
    match b.k with
    | .num s => do next; return .neg s
    | _ => fail
  | .tpl => do
    let x ← call C.tpl
    return .tpl x
  | _ => fail

/-- ts.go 76-81 `tsTyp`. -/
def typ (C : Cfg X) (r : Rec X) (F : Fl) : M (Nd X) := do
  let a ← peek
  if a.k = .new_ then construct C r false else r.uni none 0 F false

/-- The functions with calls to this depth. -/
def run (C : Cfg X) : Nat → Rec X
  | 0 =>
    { typ := fun _ => outOfFuel, uni := fun _ _ _ _ => outOfFuel, loop := fun _ _ _ _ _ _ => outOfFuel, prim := fun _ => outOfFuel,
      arr := fun _ => outOfFuel, args := fun _ _ => outOfFuel, mem := fun _ => outOfFuel, mems := fun _ _ => outOfFuel,
      params := fun _ => outOfFuel }
  | n + 1 =>
    { typ := typ C (run C n), uni := uni (run C n), loop := uniLoop (run C n), prim := prim C (run C n), arr := arrLoop (run C n),
      args := argLoop C (run C n), mem := member (run C n), mems := memLoop (run C n), params := paramLoop C (run C n) }

/-- ts.go 46-60: a type annotation after the `:`, with calls to this depth. -/
def parse (C : Cfg X) (n : Nat) (F : Fl) (s : List Tok) : Out (Nd X) := (run C n).typ F s

end Mole.Parser.TsType
