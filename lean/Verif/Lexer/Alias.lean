import Verif.Lexer.Buf
/-! # How long a token stays what it is (ecma/parser/lexer.go 40-99, 175-200, 451-471)

The lexer hands out pointers to the five cells of its ring of tokens.  A token read later is written into one of these cells, so that
the parser must not look at a token too late.  The ring itself is `TB` of `Lexer/Buf`. -/

namespace Mole.Lexer.Alias

/-- What the parser makes the lexer do. -/
inductive Act (T : Type) where
  /-- a lookahead reads a token into the ring (`advance`, lexer.go 451-465) -/
  | ahead (t : T)
  /-- a lookahead finds the end of the code: the token is written but its cell stays free (lexer.go 459-461) -/
  | fin (t : T)
  /-- `Next` with no token waiting reads one past the ring (`readTok`, lexer.go 470): its cell stays free -/
  | direct (t : T)
  /-- `Next` takes the token waiting (lexer.go 468) -/
  | take

/-- lexer.go 451-471. -/
def step {T : Type} (b : TB T) : Act T → Option (TB T)
  | .ahead t => b.advance t
  | .fin t => some (b.fill t)
  | .direct t => if b.len = 0 then some (b.fill t) else none
  | .take => b.read.map (·.2)

def run {T : Type} (b : TB T) : List (Act T) → Option (TB T)
  | [] => some b
  | a :: l => (step b a).bind (run · l)

/-- The tokens of a prefix update of a member expression, `++a.b.c;` -/
inductive Tok where
  | inc
  | name (n : Nat)
  | dot
  /-- the end of the code -/
  | eof
  /-- any other token -/
  | other (n : Nat)
deriving DecidableEq, Repr

/-- The member names after the first, parser.go 4626-4690, 5547-5588, 5633-5636: the dot is looked at and taken, the name is read by
`Next` without a look. -/
def members : List Nat → List (Act Tok)
  | [] => []
  | n :: l => .ahead .dot :: .take :: .direct (.name n) :: members l

/-- lexer.go 451-465: a look at a token not yet read. -/
def look : Tok → Act Tok
  | .eof => .fin .eof
  | t => .ahead t

/-- parser.go 4357-4372 (updateExpr) and what it calls to read the argument: `++` is taken, the name is looked at and taken, then the
members, and a look at the token after. -/
def argument (a : Nat) (l : List Nat) (after : Tok) : List (Act Tok) :=
  [.take, .ahead (.name a), .take] ++ members l ++ [look after]

/-- parser.go 4361-4372: the operator of the node is `tok.value`, looked up after the argument has been read; `tok` points to the
cell where `++` was written. -/
def updateOp (b : TB Tok) (a : Nat) (l : List Nat) (after : Tok) : Option Tok :=
  (b.advance .inc).bind fun b' => (run b' (argument a l after)).map fun b'' => b''.buf b.w

end Mole.Lexer.Alias
