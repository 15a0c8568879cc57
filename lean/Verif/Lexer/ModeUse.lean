/-! How the parser and the lexer together keep track of what the lexer is in: strict code, an async function, a
substitution of a template (ecma/parser/lexer.go 265-315, ecma/parser/parser.go).

The lexer keeps a stack of modes.  Braces and templates push and pop while they are read; the parser adds bits and pushes
and pops between two tokens.  A program is given here by what matters for the stack. -/

namespace Mole.Lexer.ModeUse

/-! ## Programs -/

mutual
/-- A piece of a program: a token which is no brace and no part of a template (`sens`: what it is depends on strict code or
async functions, like `010` and `await`), something in braces, a template with its substitutions, a function, a method and a
class with what is between `class` and the braces.  `dir` tells that the body begins with the directive `use strict`. -/
inductive Item where
  | tok (sens : Bool)
  | braces (body : Items)
  | tpl (subs : Parts)
  | fn (async gen dir : Bool) (params body : Items)
  | method (async dir : Bool) (params body : Items)
  | cls (head body : Items)
inductive Items where
  | nil
  | cons (i : Item) (rest : Items)
inductive Parts where
  | nil
  | cons (sub : Items) (rest : Parts)
end

/-! ## The stack of modes -/

/-- The bits of a mode which are looked at here, ecma/parser/lexer.go 10-35: `LM_STRICT`, `LM_ASYNC`, `LM_TEMPLATE`.  JSX, the
type arguments of TypeScript and the bit for TypeScript are left out, and `LM_GENERATOR`, which nothing looks at. -/
structure Mode where
  strict : Bool := false
  async : Bool := false
  tpl : Bool := false
deriving DecidableEq, Repr

/-- The stack, the current mode apart from those below. -/
structure Stk where
  cur : Mode
  below : List Mode
deriving DecidableEq, Repr

/-- lexer.go 275-285 (PushMode, inheriting). -/
def push (strict tpl : Bool) (s : Stk) : Stk := ⟨⟨strict || s.cur.strict, s.cur.async, tpl⟩, s.cur :: s.below⟩

/-- lexer.go 287-296 (PopMode): the last mode is not taken off but cleared. -/
def pop (s : Stk) : Stk :=
  match s.below with
  | [] => ⟨{}, []⟩
  | m :: r => ⟨m, r⟩

/-- What happens to the stack: the lexer reads a token, a brace or a part of a template (`fin`: up to the end of the
template, and not to a substitution), or the parser does something. -/
inductive Ev where
  | tok (sens : Bool)
  | lbrace
  | rbrace
  | thead (fin : Bool)
  | tcont (fin : Bool)
  | addStrict
  | addAsync
  | popMode
  | pushStrict
deriving DecidableEq, Repr

/-- lexer.go 515 and 537: the end of a chunk of a template. -/
def chunkEnd (fin : Bool) (s : Stk) : Stk := if fin then pop s else push false true s

/-- One event; `none` when a brace is read as something else than the program means: `}` continues a template exactly if the
current mode is that of a template (lexer.go 1753).  The second part is what a sensitive token was read as: strict, async.
lexer.go 713-716 (braces), 475-523 (templates), 302-305 (AddMode), parser.go 2984 (strict), 2586 (async), 2756 (generators), 1070, 1166 (classes). -/
def step (s : Stk) : Ev → Option (Stk × List (Bool × Bool))
  | .tok sens => some (s, if sens then [(s.cur.strict, s.cur.async)] else [])
  | .lbrace => some (push false false s, [])
  | .rbrace => if s.cur.tpl then none else some (pop s, [])
  | .thead fin => some (chunkEnd fin (push false true s), [])
  | .tcont fin => if s.cur.tpl then some (chunkEnd fin (pop s), []) else none
  | .addStrict => some (⟨{ s.cur with strict := true }, s.below⟩, [])
  | .addAsync => some (⟨{ s.cur with async := true }, s.below⟩, [])
  | .popMode => some (pop s, [])
  | .pushStrict => some (push true false s, [])

/-- A sequence of events. -/
def run (s : Stk) : List Ev → Option (Stk × List (Bool × Bool))
  | [] => some (s, [])
  | e :: es =>
    match step s e with
    | none => none
    | some (s1, o1) =>
      match run s1 es with
      | none => none
      | some (s2, o2) => some (s2, o1 ++ o2)

/-! ## The events of a program -/

/-- parser.go 3019-3032 (stmts): the token after the directive has been read when the mode becomes strict; nothing happens if
this is the closing brace. -/
def afterDirective (dir : Bool) (es : List Ev) : List Ev :=
  if dir then
    match es with
    | [] => [.tok false]
    | e :: r => .tok false :: e :: .addStrict :: r
  else es

mutual
/-- The events of a piece: parser.go 2527-2757 (fnDec), 6225-6290 (method), 1059-1166 (classDec), 3064-3090 (blocks), and for
templates lexer.go 475-545. -/
def evs : Item → List Ev
  | .tok sens => [.tok sens]
  | .braces b => .lbrace :: (evsL b ++ [.rbrace])
  | .tpl .nil => [.thead true]
  | .tpl (.cons a r) => .thead false :: (evsL a ++ evsP r)
  | .fn async gen dir ps b =>
    .tok false :: ((if async then [.addAsync] else []) ++ (evsL ps ++ (.lbrace :: (afterDirective dir (evsL b) ++
      (.rbrace :: (if gen then [.popMode] else []))))))
  | .method _ dir ps b => .tok false :: (evsL ps ++ (.lbrace :: (afterDirective dir (evsL b) ++ [.rbrace])))
  | .cls h b => .tok false :: .pushStrict :: (evsL h ++ (.lbrace :: .addStrict :: (evsL b ++ [.rbrace, .popMode])))
def evsL : Items → List Ev
  | .nil => []
  | .cons i r => evs i ++ evsL r
/-- The rest of a template after a substitution. -/
def evsP : Parts → List Ev
  | .nil => [.tcont true]
  | .cons a r => .tcont false :: (evsL a ++ evsP r)
end

/-- parser.go 213-250 (Prog): the program, strict from the start or by a directive; what the sensitive tokens are read as. -/
def read (strict dir : Bool) (p : Items) : Option (List (Bool × Bool)) :=
  (run ⟨{ strict := strict }, []⟩ (afterDirective dir (evsL p))).map (·.2)

end Mole.Lexer.ModeUse
