/-! # Whether a slash divides (ecma/parser/lexer.go 657-679, token.go 346-508)

A slash in the source is a division or the beginning of a regular expression; the lexer decides by the token before it and by
whether the parser says that a statement begins.  The model has the table of tokens, this decision, and the part of the lexer that
remembers the token before: the calls by which the parser looks ahead and reads. -/

namespace Mole.Lexer.Slash

/-- token.go 346-508: the tokens, in the order of the table (the entries which only mark the begin or end of a group are left out). -/
inductive T where
  | illegal | eof | comment | null | tru | fals | num | string | tplHead | tplSpan | tplTail | name | namePvt | break
  | case | catch_ | class_ | continue | debugger | default | do_ | else_ | enum | export_ | extends_ | finally_ | for_
  | func | if_ | import_ | new | return_ | super | switch | this | throw_ | try_ | var | while_ | with_ | let_ | const
  | static | implements | interface | package | private_ | protected_ | public_ | yield | as | async | await | from_
  | get | meta_ | of | set | target | regexp | backQuote | braceL | braceR | parenL | parenR | bracketL | bracketR
  | dot | dotTri | semi | comma | hook | colon | inc | dec | optChain | arrow | nullish | lt | gt | lte | gte | eq
  | ne | eqS | neS | lsh | rsh | rshU | bitOr | bitXor | bitAnd | or | and | instanceOf | in_ | add | sub | mul | div
  | mod | pow | typeOf | void | delete | not | bitNot | assign | assignAdd | assignSub | assignNullish | assignOr
  | assignAnd | assignBitOr | assignBitXor | assignBitAnd | assignBitLsh | assignBitRsh | assignBitRshU | assignMul
  | assignDiv | assignMod | assignPow | jsxTxt | hyphen | tsAs | tsNoNull | at_
deriving DecidableEq, Repr

/-- token.go 346-508, the fifth column (`BeforeExpr`). -/
def beforeExpr : T → Bool
  | .null | .tru | .fals | .tplHead | .tplTail | .case | .default | .do_ | .else_ | .extends_ | .new | .return_
  | .throw_ | .yield | .of | .braceL | .parenL | .bracketL | .semi | .comma | .hook | .colon | .arrow | .nullish
  | .lt | .gt | .lte | .gte | .eq | .ne | .eqS | .neS | .lsh | .rsh | .rshU | .bitOr | .bitXor | .bitAnd | .or | .and
  | .instanceOf | .in_ | .add | .sub | .mul | .div | .mod | .pow | .not | .bitNot | .assign | .assignAdd | .assignSub
  | .assignNullish | .assignOr | .assignAnd | .assignBitOr | .assignBitXor | .assignBitAnd | .assignBitLsh
  | .assignBitRsh | .assignBitRshU | .assignMul | .assignDiv | .assignMod | .assignPow | .tsAs => true
  | _ => false

/-- lexer.go 657-679 (aheadIsRegexp).  `special`: the mode is one of JSX or of the type arguments of TypeScript.  The field `pptVal` is
never set, so that it is `T_ILLEGAL`. -/
def aheadIsRegexp (special beginStmt : Bool) (prt : T) : Bool :=
  if special then false
  else if beginStmt then true
  else if prt = .illegal then true
  else beforeExpr prt

/-- What stands in the source: a token of its own, or a slash, or a slash followed by `=`. -/
inductive Sym where
  | tok (t : T)
  | slash
  | slashEq

/-- lexer.go 918-929: the token made of it; the rest of the lexer gives the same token whatever came before. -/
def scan (beginStmt : Bool) (prt : T) : Sym → T
  | .tok t => t
  | .slash => if aheadIsRegexp false beginStmt prt then .regexp else .div
  | .slashEq => if aheadIsRegexp false beginStmt prt then .regexp else .assignDiv

/-- lexer.go 112-127 (LexerState): the tokens read ahead, the token remembered, what is left of the source; `log` has all tokens made
so far. -/
structure St where
  buf : List T
  prt : T
  src : List Sym
  log : List T

/-- lexer.go 451-464 (advance). -/
def advance (beginStmt : Bool) (s : St) : St :=
  match s.src with
  | [] => { s with prt := .eof }
  | x :: src =>
    let t := scan beginStmt s.prt x
    { buf := s.buf ++ [t], prt := t, src := src, log := s.log ++ [t] }

/-- The calls of the parser. -/
inductive Op where
  | peek
  | peekStmtBegin
  | peekGrow
  | peek2nd
  | next

/-- lexer.go 175-181, 195-227, 466-471 (Next, Peek, PeekStmtBegin, PeekGrow, Peek2nd, readTok). -/
def step (s : St) : Op → St
  | .peek => if s.buf = [] then advance false s else s
  | .peekStmtBegin => if s.buf = [] then advance true s else s
  | .peekGrow => advance false s
  | .peek2nd =>
    let s := if s.buf.length < 2 then advance false s else s
    if s.buf.length < 2 then advance false s else s
  | .next =>
    match s.buf with
    | t :: rest => { s with buf := rest, prt := t }
    | [] =>
      match s.src with
      | [] => { s with prt := .eof }
      | x :: src =>
        let t := scan false s.prt x
        { s with prt := t, src := src, log := s.log ++ [t] }

def run : St → List Op → St
  | s, [] => s
  | s, op :: ops => run (step s op) ops

/-- lexer.go 129-133 (newLexerState). -/
def start (src : List Sym) : St := { buf := [], prt := .illegal, src := src, log := [] }

end Mole.Lexer.Slash
