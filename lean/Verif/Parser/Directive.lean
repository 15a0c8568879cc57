/-! Directives: which statements at the beginning of a program or function body are directives, and what `use strict` does
(ecma/parser/parser.go 2967-3062). -/

namespace Mole.Parser.Directive

/-- A statement: an expression statement which is only a string literal, with its text in the source (quotes included), or
another one; `lo`: it has a string literal with a legacy octal escape, outside of functions. -/
inductive St where
  | str (raw : String) (lo : Bool)
  | other (lo : Bool)
deriving DecidableEq, Repr

/-- parser.go 2967-2980 (isDirective): is it `use strict`, is it a directive. -/
def isDirective : St → Bool × Bool
  | .str raw _ => if raw == "\"use strict\"" || raw == "'use strict'" then (true, true) else (false, true)
  | .other _ => (false, false)

/-- The statement has a string literal with a legacy octal escape. -/
def St.lo : St → Bool
  | .str _ lo => lo
  | .other lo => lo

/-- The statement is a string literal with a legacy octal escape, as looked at in parser.go 3038-3043. -/
def loStr : St → Bool
  | .str _ lo => lo
  | .other _ => false

/-- The state of the loop: the scope is strict, the counter `prologue`, the statements so far with their flag `dir`. -/
structure S where
  strict : Bool
  prologue : Int := 0
  done : List (St × Bool) := []
deriving DecidableEq, Repr

/-- One turn of the loop, parser.go 2994-3059 (stmts), in a scope which is that of a function or the program or not.  `none` is
a syntax error: parser.go 5675 (a legacy octal escape in strict code) and 3043 (one in the prologue). -/
def turn (top : Bool) (s : S) (st : St) : Option S :=
  if s.strict && st.lo then none
  else if s.prologue != -1 && top then
    let (strict, dir) := isDirective st
    let p1 := if !dir then (if s.prologue == 0 then -1 else s.prologue) else s.prologue
    if strict && decide (p1 > 0) && (s.done.take p1.toNat).any (fun x => loStr x.1) then none
    else
      let p2 := if strict && decide (p1 > 0) then -1 else p1
      let p3 := if dir then p2 + 1 else p2
      some ⟨s.strict || strict, p3, s.done ++ [(st, dir)]⟩
  else some ⟨s.strict, s.prologue, s.done ++ [(st, false)]⟩

/-- The loop over all statements. -/
def loop (top : Bool) (s : S) : List St → Option S
  | [] => some s
  | st :: r =>
    match turn top s st with
    | none => none
    | some s1 => loop top s1 r

/-- parser.go 2989-3062 (stmts): is the code strict after the statements, and which statements are directives. -/
def stmts (top strict : Bool) (p : List St) : Option (Bool × List Bool) :=
  (loop top ⟨strict, 0, []⟩ p).map fun s => (s.strict, s.done.map (·.2))

end Mole.Parser.Directive
