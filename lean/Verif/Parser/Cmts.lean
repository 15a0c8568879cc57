/-! # Comments and the nodes they are reported for (ecma/parser/lexer.go, parser.go)

The lexer puts each comment into one of two lists, the parser empties the lists and reports what was in them for a node (`PrevCmts`,
`PostCmts`).  The source is the list of what `readTokWithComment` reads; which tokens there are does not matter here.

Simplifications: what the parser does is a list of the operations below, in any order; `Src` gives the operations for programs of
expression statements made of names, empty objects and assignments. -/

namespace Mole.Parser.Cmts

/-- token.go 5-20: a comment, by where it begins and ends; `nl`: after a line feed. -/
structure Cmt where
  lo : Nat
  hi : Nat
  nl : Bool := false
deriving DecidableEq, Repr

/-- What `readTokWithComment` reads. -/
inductive Item where
  | cmt (c : Cmt)
  | tok (lo : Nat)
deriving DecidableEq, Repr

/-- A node, and whether it is what precedes it that is reported. -/
structure Key where
  node : Nat
  prev : Bool
deriving DecidableEq, Repr

/-- lexer.go 143-144, 150-151; parser.go 59-60, and the local variables `cmts` of `stmts` and `primaryExpr` that are in use.
The entries of the two maps are in one list, the last written first. -/
structure St where
  src : List Item
  stmt : List Cmt := []
  expr : List Cmt := []
  held : List (List Cmt) := []
  maps : List (Key × List Cmt) := []
  saved : List (List Item) := []

/-- lexer.go 411-428 (lexTok): up to the next token; `prt` is whether the comment before was after a line feed.  The flag of the token is
part of C15. -/
def lexTok (prt : Bool) (s : St) : List Item → St
  | [] => { s with src := [] }
  | .tok _ :: r => { s with src := r }
  | .cmt c :: r =>
    if c.nl || prt || c.lo = 0 then lexTok c.nl { s with stmt := s.stmt ++ [c] } r
    else lexTok c.nl { s with expr := s.expr ++ [c] } r

/-- parser.go 3011-3014 and others: an entry of a map is written if there is something to report. -/
def report (s : St) (k : Key) (l : List Cmt) : St :=
  if l = [] then s else { s with maps := (k, l) :: s.maps }

/-- What the parser does. -/
inductive Op where
  /-- lexer.go 195-200, 468-473 (Peek, readTok): a token is read that has not been read ahead -/
  | lex
  /-- parser.go 3006: before a statement -/
  | holdStmt
  /-- parser.go 5724: before an object literal -/
  | holdExpr
  /-- parser.go 3012-3014, 5729-5731: after it -/
  | release (n : Nat)
  /-- parser.go 3054-3057: after a statement, when the next token has been looked at -/
  | post (n : Nat)
  /-- parser.go 4103-4106, 4117-4120: after an assignment expression, or its right side -/
  | prev (n : Nat)
  /-- parser.go 4588-4591 (pushState) -/
  | save
  /-- parser.go 4598-4601 (popState), lexer.go 268-273: the lists of comments are not part of the state -/
  | restore
deriving DecidableEq, Repr

/-- One operation.  Nothing held or saved does not occur. -/
def step (s : St) : Op → St
  | .lex => lexTok false s s.src
  | .holdStmt => { s with stmt := [], held := s.stmt :: s.held }
  | .holdExpr => { s with expr := [], held := s.expr :: s.held }
  | .release n =>
    match s.held with
    | l :: r => report { s with held := r } ⟨n, true⟩ l
    | [] => s
  | .post n => report { s with expr := [] } ⟨n, false⟩ s.expr
  | .prev n => report { s with expr := [] } ⟨n, true⟩ s.expr
  | .save => { s with saved := s.src :: s.saved }
  | .restore =>
    match s.saved with
    | l :: r => { s with src := l, saved := r }
    | [] => s

def run (s : St) (l : List Op) : St := l.foldl step s

def start (src : List Item) : St := { src := src }

/-- parser.go 193-199 (PrevCmts, PostCmts). -/
def St.get (s : St) (k : Key) : List Cmt := (s.maps.lookup k).getD []

/-! ## Programs -/

/-- Expressions, with the numbers of their nodes. -/
inductive E where
  | name (n : Nat)
  /-- `{}` -/
  | obj (n : Nat)
  /-- a name, `=` and the right side -/
  | asg (n l : Nat) (r : E)
deriving Repr

def E.node : E → Nat
  | .name n | .obj n | .asg n _ _ => n

/-- parser.go 4072-4138 (assignExpr), 5723-5732 (primaryExpr): the first token has been read ahead; the one after the expression is
read ahead in the end. -/
def E.ops : E → List Op
  | .name n => [.lex, .prev n]
  | .obj n => [.holdExpr, .lex, .release n, .lex, .prev n]
  | .asg _ _ r => [.lex, .lex] ++ r.ops ++ [.prev r.node]

/-- parser.go 2989-3062 (stmts), 3971-3986 (exprStmt): a statement and its semicolon; its first token has been read ahead, and so is the
one after it in the end. -/
def stmtOps (n : Nat) (e : E) : List Op := [.holdStmt] ++ e.ops ++ [.release n, .lex, .post n]

/-- parser.go 2989-3062 (stmts). -/
def progOps (l : List (Nat × E)) : List Op := .lex :: l.flatMap fun p => stmtOps p.1 p.2

/-- parser.go 4493-4512, 4628-4645: `a < b;` in TypeScript, where type arguments are tried first.  The token `<` is read after the name; the
type and the token after it are read before it is given up, and read again as the right operand. -/
def ltOps (n e : Nat) : List Op :=
  [.lex, .holdStmt, .lex, .save, .lex, .lex, .restore, .lex, .lex, .prev e, .release n, .lex, .post n]

end Mole.Parser.Cmts
