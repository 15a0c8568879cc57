import Verif.Parser.Prog

/-! # How deep the calls of the parser are (specification for C78)

The functions of the parser call each other.  In the model a call takes one from a supply, and `Rec.none` is what is called when nothing is
left.  Here something else, `r0`, may be called then: if the result is the same whatever `r0` is, the supply has been enough. -/

namespace Mole.Parser.Prog

/-- The functions with so much of a supply; `r0` is called when there is none. -/
def recFrom (o : Chk) (r0 : Rec) : Nat → Rec
  | 0 => r0
  | n + 1 => build o (recFrom o r0 n)

/-- The parser whose calls are at most so deep. -/
def progFrom (o : Chk) (r0 : Rec) (depth : Nat) (ts : List Tok) : Out Node :=
  ((recFrom o r0 depth).stmts false >>= fun l => pure (.prog l)) (start ts)

end Mole.Parser.Prog
