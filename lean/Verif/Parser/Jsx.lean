import Verif.Lexer.Scan
import Verif.Lexer.Jsx

/-! # JSX elements (ecma/parser/jsx.go; ecma/parser/lexer.go 259-406)

From the characters to the tree: the parser pushes and pops the modes of the lexer, and a token is read in the mode that is on top when
it is looked at first.  So the lexer is part of this model, and so is the token it has read ahead.

Simplifications, besides those at the definitions:
* TypeScript is off, JSX is on (both are the default);
* expressions in braces are read by functions that are parameters, they get the text and leave the rest of it (C76 is about them);
* locations and comments are left out. -/

namespace Mole.Parser.Jsx
open Mole.Lexer (ScanCfg Ask)

/-- lexer.go 14-31: the modes that matter here; a mode also has the flags `strict` and `async` of the mode below it (lexer.go 275-285), so
these are the same for all the modes of an element. -/
inductive Mode where
  | none | jsx | child | attr
deriving DecidableEq, Repr

/-- The tokens as far as jsx.go tells them apart; `word` is a keyword, `ctx` if it is one only in certain places. -/
inductive Tok where
  | eof | braceL | braceR | lt | gt | div | colon | dot | assign | hyphen | dots
  | str (v : List Nat)
  | name (v : List Nat)
  | word (v : List Nat) (ctx : Bool)
  /-- T_JSX_TXT -/
  | txt (v : List Nat)
  /-- T_ILLEGAL -/
  | bad
  | other
deriving DecidableEq, Repr

/-- What does not change. -/
structure Cfg (E : Type) where
  scan : ScanCfg
  strict : Bool
  async : Bool
  /-- FEAT_JSX_NS -/
  ns : Bool
  /-- html.go: HTMLEntities -/
  ents : List Nat → Option (List Nat)
  /-- parser.go 3287-3314 (identStrict): whether the name of a property passes -/
  prop : List Nat → Bool
  /-- parser.go: `expr`, from the text before its first token to the text after its last one -/
  expr : List Nat → Option (E × List Nat)
  /-- parser.go: `assignExpr` -/
  asg : List Nat → Option (E × List Nat)

variable {E : Type}

/-- The kind of a name, lexer.go 630-654. -/
def nameTok (C : Cfg E) (v : List Nat) (esc : Bool) : Tok :=
  match Lexer.classify ⟨C.scan.module, C.scan.asyncAwait, C.strict, C.async⟩ v esc with
  | .name => .name v
  | .keyword => .word v false
  | .strictKeyword | .await => .word v true
  | .escapeInKeyword => .bad

/-- lexer.go 330-332, 377-383, 408-429: white space and comments in a tag.  The fuel is enough if there is more of it than text. -/
def tagGap : Nat → List Nat → List Nat
  | 0, s => s
  | n + 1, s =>
    match (Lexer.skipSpaceR s).2 with
    | c :: d :: t => if c = 47 ∧ d = 47 then tagGap n (Lexer.readSinglelineComment (d :: t)) else c :: d :: t
    | s1 => s1

/-- lexer.go 353-401: a token in a tag.  An error leaves the text as it is. -/
def tagTok (C : Cfg E) (s : List Nat) : Tok × List Nat :=
  match s with
  | [] => (.eof, [])
  | c :: t =>
    if c = 123 then (.braceL, t)
    else if c = 125 then (.braceR, t)
    else if c = 60 then (.lt, t)
    else if c = 58 then (.colon, t)
    else if c = 46 then (.dot, t)
    else if c = 47 then (.div, t)
    else if c = 62 then (.gt, t)
    else if c = 61 then (.assign, t)
    else if c = 45 then (.hyphen, t)
    else if Lexer.isIdStart C.scan.tables c then
      match Lexer.scanName C.scan.tables true s with
      | some (.ok (v, esc, r)) => (nameTok C v esc, r)
      | _ => (.bad, s)
    else (.bad, s)

/-- lexer.go 353-366, 403-405, 1669-1716: a token between tags; `ws` is the white space before it, `l.state.prevWs`. -/
def childTok (C : Cfg E) (ws s : List Nat) : Tok × List Nat :=
  match s with
  | [] => (.eof, [])
  | c :: t =>
    if c = 123 then (.braceL, t)
    else if c = 125 then (.braceR, t)
    else if c = 60 then (.lt, t)
    else
      match Lexer.readJSXTxt C.ents ws s with
      | some (.ok (.txt v r)) => (.txt v, r)
      | some (.ok .eof) => (.eof, [])
      | _ => (.bad, s)

/-- lexer.go 1181-1188: the loop of `readJsxStr`; the text and what is after the quote `q`. -/
def strLoop (q : Nat) : List Nat → Option (List Nat × List Nat)
  | [] => none
  | c :: t => if c = q then some ([], t) else
    match strLoop q t with
    | some (v, r) => some (c :: v, r)
    | none => none

/-- token.go: the tokens of the rest of the lexer. -/
def ofTok : Lexer.Tok → Tok
  | .eof => .eof
  | .name .name v _ => .name v
  | .name .keyword v _ => .word v false
  | .name _ v _ => .word v true
  | .str v _ => .str v
  | .punct .braceL => .braceL
  | .punct .braceR => .braceR
  | .punct .lt => .lt
  | .punct .gt => .gt
  | .punct .div => .div
  | .punct .colon => .colon
  | .punct .dot => .dot
  | .punct .dotTri => .dots
  | .punct .assign => .assign
  | _ => .other

/-- lexer.go 334-352: a token in the other modes.  A string that is the value of an attribute has no escapes. -/
def plainTok (C : Cfg E) (attr : Bool) (s : List Nat) : Tok × List Nat :=
  match s with
  | [] => (.eof, [])
  | c :: t =>
    if attr = true ∧ (c = 39 ∨ c = 34) then
      match strLoop c t with
      | some (v, r) => (.str v, r)
      | none => (.bad, s)
    else
      match Lexer.readTok C.scan ⟨false, C.strict, C.async, !attr⟩ s with
      | some (.ok (t, r)) => (ofTok t, r)
      | _ => (.bad, s)

/-- lexer.go 408-429 `lexTok` in a mode: the white space before it (between tags only), the token and the text left. -/
def lex (C : Cfg E) (m : Mode) (s : List Nat) : List Nat × Tok × List Nat :=
  match m with
  | .jsx => ([], tagTok C (tagGap (s.length + 1) s))
  | .child =>
    let r := (Lexer.skipSpaceR s).2
    let ws := s.take (s.length - r.length)
    (ws, childTok C ws r)
  | .attr | .none =>
    match Lexer.lexTrivia (s.length + 1) false s with
    | some (.ok (_, r)) => ([], plainTok C (m = .attr) r)
    | _ => ([], .bad, s)

/-- lexer.go 112-127: the lexer.  At most one token is read ahead here; with it is kept the text from before it. -/
structure S where
  buf : Option (Tok × List Nat)
  rest : List Nat
  /-- the top is first -/
  modes : List Mode
  /-- prevWs; it is empty if its `len` is 0 -/
  ws : List Nat
deriving DecidableEq, Repr

/-- `hang`: a loop goes on for ever.  `fuel`: the recursion was deeper than the bound. -/
inductive Out (α : Type) where
  | ok (a : α) (s : S)
  | err
  | hang
  | fuel
deriving DecidableEq, Repr

def M (α : Type) : Type := S → Out α

instance : Monad M where
  pure a := fun s => .ok a s
  bind m f := fun s => match m s with
    | .ok a s' => f a s'
    | .err => .err
    | .hang => .hang
    | .fuel => .fuel

def fail {α : Type} : M α := fun _ => .err
def hang {α : Type} : M α := fun _ => .hang
def outOfFuel {α : Type} : M α := fun _ => .fuel

/-- lexer.go 287-296 `PopMode`. -/
def pop : List Mode → List Mode
  | [_] => [.none]
  | l => l.tail

/-- lexer.go 298-300 `CurMode`. -/
def top (ms : List Mode) : Mode := ms.headD .none

/-- lexer.go 357-364, 711-716: braces change the modes when they are read, in each mode. -/
def act : Tok → List Mode → List Mode
  | .braceL, ms => .none :: ms
  | .braceR, ms => pop ms
  | _, ms => ms

/-- lexer.go 205-210, 451-465 `Peek`.  The end of the source is not kept, it is read again; what was skipped before it is not taken off
here. -/
def peek (C : Cfg E) : M Tok := fun s =>
  match s.buf with
  | some (t, _) => .ok t s
  | none =>
    match lex C (top s.modes) s.rest with
    | (ws, t, r) =>
      if t = .eof then .ok .eof s
      else .ok t { buf := some (t, s.rest), rest := r, modes := act t s.modes, ws := ws }

/-- lexer.go 186-191, 467-472 `Next`. -/
def next (C : Cfg E) : M Tok := do
  let t ← peek C
  fun s => .ok t { s with buf := none }

/-- parser.go 6455-6461 `nextMustTok`. -/
def must (C : Cfg E) (t : Tok) : M Unit := do
  let a ← next C
  if a = t then return else fail

/-- lexer.go 275-285. -/
def pushMode (m : Mode) : M Unit := fun s => .ok () { s with modes := m :: s.modes }

/-- lexer.go 287-296. -/
def popMode : M Unit := fun s => .ok () { s with modes := pop s.modes }

/-- jsx_ast.go: names of elements and attributes. -/
inductive Name where
  | id (v : List Nat)
  | member (obj : Name) (v : List Nat)
  | ns (a b : List Nat)
deriving DecidableEq, Repr

/-- jsx.go 19, 36, 73: the name as a text, by which the tags are compared. -/
def Name.path : Name → List Nat
  | .id v => v
  | .member o v => o.path ++ [46] ++ v
  | .ns a b => a ++ [58] ++ b

/-- jsx_ast.go: elements and what is in them. -/
inductive J (E : Type) where
  /-- no name: a fragment; no close: the tag ends with `/>` -/
  | elem (name : Option Name) (attrs : List (J E)) (kids : List (J E)) (close : Option (Option Name))
  | attr (name : Name) (val : Option (J E))
  | spreadAttr (e : E)
  | str (v : List Nat)
  /-- JsxExprSpan -/
  | box (e : E)
  | boxEmpty
  | spread (e : E)
  | text (v : List Nat)

/-- jsx.go 185-222, the calls of `expr`, from the text before the token looked at. -/
def exprE (C : Cfg E) : M E := fun s =>
  match C.expr s.rest with
  | some (e, r) => .ok e { s with rest := r, buf := none }
  | none => .err

/-- parser.go 6023. -/
def asgE (C : Cfg E) : M E := fun s =>
  match C.asg s.rest with
  | some (e, r) => .ok e { s with rest := r, buf := none }
  | none => .err

/-- The state, and going back to it: the lexer reads the token again in the same mode, so this is the same as keeping it. -/
def get : M S := fun s => .ok s s
def put (s : S) : M Unit := fun _ => .ok () s

/-- jsx.go 185-222. -/
def jsxExpr (C : Cfg E) : M (J E) := do
  pushMode .none
  let s ← get
  let a ← peek C
  if a = .dots then do
    let _ ← next C
    let e ← asgE C
    must C .braceR
    popMode
    return .spread e
  else if a = .braceR then do
    let _ ← next C
    popMode
    return .boxEmpty
  else do
    put s
    let e ← exprE C
    must C .braceR
    popMode
    return .box e

/-- jsx.go 39-48. -/
def jsxId (C : Cfg E) : M (List Nat) := do
  let t ← next C
  match t with
  | .name v => return v
  | _ => fail

/-- parser.go 3287-3324 (ident). -/
def ident (C : Cfg E) : M (List Nat) := do
  let t ← next C
  match t with
  | .name v => if C.prop v then return v else fail
  | .word v true => if C.prop v then return v else fail
  | _ => fail

/-- jsx.go 9-26. -/
def jsxMember (C : Cfg E) : Nat → Name → M Name
  | 0, _ => outOfFuel
  | n + 1, obj => do
    let a ← peek C
    if a = .dot then do
      let _ ← next C
      let v ← ident C
      jsxMember C n (.member obj v)
    else return obj

/-- jsx.go 50-74: a name before the type arguments. -/
def jsxName0 (C : Cfg E) (n : Nat) : M Name := do
  let v ← jsxId C
  let a ← peek C
  if a = .dot then jsxMember C n (.id v)
  else if a = .colon ∧ C.ns = true then do
    must C .colon
    let w ← jsxId C
    return .ns v w
  else return .id v

/-- Whether a node can have type arguments: jsx_ast.go, `JsxNsName` cannot. -/
def Name.typed : Name → Bool
  | .ns _ _ => false
  | _ => true

/-- jsx.go 255-267; the text is taken once. -/
def wsTxt : M (List (J E)) := fun s =>
  if s.ws = [] then .ok [] s else .ok [.text s.ws] { s with ws := [] }

/-- What the recursion is about: jsx.go 271 (an element or a closing tag), 142 and 296. -/
structure Rec (E : Type) where
  jsx : Bool → Bool → M (J E ⊕ Option Name)
  attrs : M (List (J E))
  kids : Option Name → M (List (J E) × Option Name)

/-- jsx.go 50-89, ts.go 1604-1611: the place of type arguments is after a name.  If TypeScript is off, what begins there with `<` is read as
an element and is lost, since a node has no room for it (ts.go 39-44). -/
def jsxName (C : Cfg E) (r : Rec E) (n : Nat) : M Name := do
  let nm ← jsxName0 C n
  let a ← peek C
  if a = .lt then do
    let _ ← r.jsx true false
    if nm.typed then return nm else fail
  else return nm

/-- jsx.go 91-140. -/
def jsxAttr (C : Cfg E) (r : Rec E) (n : Nat) : M (J E) := do
  let a ← peek C
  if a = .braceL then do
    let _ ← next C
    let v ← jsxExpr C
    match v with
    | .spread e => return .spreadAttr e
    | _ => fail
  else do
    let nm ← jsxName C r n
    pushMode .attr
    let a ← peek C
    if a ≠ .assign then do
      popMode
      return .attr nm none
    else do
      let _ ← next C
      let a ← peek C
      if a = .braceL then do
        let _ ← next C
        let v ← jsxExpr C
        popMode
        return .attr nm (some v)
      else match a with
        | .str v => do
          let _ ← next C
          popMode
          return .attr nm (some (.str v))
        | .lt => do
          let e ← r.jsx true false
          popMode
          match e with
          | .inl e => return .attr nm (some e)
          | .inr _ => fail
        | _ => do
          popMode
          return .attr nm none

/-- jsx.go 142-157. -/
def jsxAttrs (C : Cfg E) (r : Rec E) (n : Nat) : M (List (J E)) := do
  let a ← peek C
  if a = .gt ∨ a = .div ∨ a = .eof then return []
  else do
    let x ← jsxAttr C r n
    let l ← r.attrs
    return x :: l

/-- jsx.go 159-183: the name, the attributes and whether the tag ends with `/>`. -/
def jsxOpen (C : Cfg E) (r : Rec E) (n : Nat) : M (Option Name × List (J E) × Bool) := do
  let a ← peek C
  if a = .gt then do
    let _ ← next C
    return (none, [], false)
  else do
    let nm ← jsxName C r n
    let as ← r.attrs
    let a ← peek C
    if a = .div then do
      let _ ← next C
      must C .gt
      return (some nm, as, true)
    else do
      must C .gt
      return (some nm, as, false)

/-- jsx.go 224-244. -/
def jsxClose (C : Cfg E) (r : Rec E) (n : Nat) : M (Option Name) := do
  let _ ← next C
  let a ← peek C
  if a = .gt then do
    let _ ← next C
    popMode
    return none
  else do
    let nm ← jsxName C r n
    must C .gt
    popMode
    return some nm

/-- jsx.go 246-253 with 164 and 231: a fragment has the empty text. -/
def pathOf : Option Name → List Nat
  | none => []
  | some n => n.path

/-- jsx.go 315-322, 340-347. -/
def afterKid (C : Cfg E) : M (List (J E)) := do
  let a ← peek C
  if a = .gt ∨ a = .braceL then wsTxt else return []

/-- jsx.go 296-357: the loop over what is between the tags. -/
def kidsLoop (C : Cfg E) (r : Rec E) (o : Option Name) : M (List (J E) × Option Name) := do
  let a ← peek C
  match a with
  | .braceL => do
    let w ← wsTxt
    let _ ← next C
    let v ← jsxExpr C
    let w' ← afterKid C
    let (l, c) ← r.kids o
    return (w ++ v :: (w' ++ l), c)
  | .lt => do
    let w ← wsTxt
    let x ← r.jsx false true
    match x with
    | .inr c => if pathOf o = pathOf c then return (w, c) else fail
    | .inl e => do
      let w' ← afterKid C
      let (l, c) ← r.kids o
      return (w ++ e :: (w' ++ l), c)
  | .txt v => do
    let _ ← next C
    let (l, c) ← r.kids o
    return (.text v :: l, c)
  | .eof => fail
  | .bad => fail
  -- no case of the code: nothing is read and the loop goes on
  | _ => hang

/-- jsx.go 271-371: an element, or a closing tag. -/
def jsxElem (C : Cfg E) (r : Rec E) (n : Nat) (root opening : Bool) : M (J E ⊕ Option Name) := do
  let _ ← next C
  pushMode .jsx
  let a ← peek C
  if a = .div then
    if opening then do
      let c ← jsxClose C r n
      return .inr c
    else fail
  else do
    let (nm, as, closed) ← jsxOpen C r n
    if closed then do
      popMode
      let a ← peek C
      if a = .lt ∧ root = true then fail else return .inl (.elem nm as [] none)
    else do
      pushMode .child
      let (l, c) ← r.kids nm
      popMode
      popMode
      let a ← peek C
      if a = .lt ∧ root = true then fail else return .inl (.elem nm as l (some c))

/-- The recursion, with a bound on the depth of calls. -/
def rec (C : Cfg E) : Nat → Rec E
  | 0 => ⟨fun _ _ => outOfFuel, outOfFuel, fun _ => outOfFuel⟩
  | n + 1 => ⟨jsxElem C (rec C n) n, jsxAttrs C (rec C n) n, kidsLoop C (rec C n)⟩

/-- parser.go 5765-5768: an element that is an expression.  `s` is the text after its `<`, which has been looked at; `ms` are the modes of
the lexer there. -/
def parse (C : Cfg E) (n : Nat) (ms : List Mode) (s : List Nat) : Out (J E ⊕ Option Name) :=
  (rec C n).jsx true false ⟨some (.lt, 60 :: s), s, ms, []⟩

end Mole.Parser.Jsx
