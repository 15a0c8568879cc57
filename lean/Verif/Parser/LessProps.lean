import Verif.Parser.LessAll
/-!
# `<` in TypeScript: which expressions are read as meant

The full property (C90): with TypeScript on, an expression with `<` in it is read as a comparison or as type arguments, whichever it
is, `parse true (.atom n :: us) = some (n, x)` wherever `Written x us`, unless it can be read in two ways, and what is accepted is
written as `Written` says.
-/
namespace Mole.Parser.Less

/-- `x.show` is a way to write `x` (the first one: no commas at the end), so that the theorems below are about it too. -/
theorem show_written (x : X) (h : x.proper = true) : Written x x.show := show_written_aux x h

example : (X.mem true 1 (.op .lt 2 .done)).proper = true := rfl

/-- **C90.** Expressions of any size out of names, members and calls, with `<` and `+` between them, also in arguments and in
parentheses behind a `+`, are read as they were written: no `<` is taken for the beginning of type arguments, however many there are and
whatever the trials before have left behind.  Missing: subscripts, `>` and `?.`, for which this is false. -/
theorem plain_read_partial (n : Nat) (x : X) (us : List Tok) (w : Written x us) (h : x.plain = true) :
    parse true (.atom n :: us) = some (n, x) := by
  obtain ⟨s, l, e⟩ := tail_less w (us.length + 3) [] [] [] h rfl rfl (by simp)
  rw [List.append_nil] at e
  simp [parse, e]

/-- `a.b < c(d < e, f.g + h) < i`, and the chain of three -/
example : parse true [.atom 0, .mem false 1, .lt, .atom 2, .lp, .atom 3, .lt, .atom 4, .comma, .atom 5, .mem false 6, .plus, .atom 7, .rp,
    .lt, .atom 8] =
    some (0, .mem false 1 (.op .lt 2 (.call .nil (.cons 3 (.op .lt 4 .done) (.cons 5 (.mem false 6 (.op .plus 7 .done)) .nil))
      (.op .lt 8 .done)))) := rfl
example : (X.op .lt 1 (.op .lt 2 (.op .lt 3 .done))).plain = true := rfl

/-- **C90.** Expressions of any size without the operator `<` are read as they were written: calls with type arguments of any number and
depth, subscripts, `?.` and `>`.  Missing: the two kinds of `<` in one expression. -/
theorem generic_read_partial (n : Nat) (x : X) (us : List Tok) (w : Written x us) (h : x.noLess = true) :
    parse true (.atom n :: us) = some (n, x) := by
  have e := tail_generic w (us.length + 3) false [] [] h rfl (by simp)
  rw [List.append_nil] at e
  simp [parse, e]

/-- `a?.b<c<d>[e][], e.g.h>(f<g>() > (h?.i))[i + j]` -/
example : parse true [.atom 0, .mem true 1, .lt, .atom 2, .lt, .atom 3, .gt, .lb, .atom 4, .rb, .lb, .rb, .comma, .atom 4, .mem false 6,
    .mem false 7, .gt, .lp, .atom 5, .lt, .atom 6, .gt, .lp, .rp, .gt, .lp, .atom 7, .mem true 8, .rp, .rp, .lb, .atom 8, .plus,
    .atom 9, .rb] =
    some (0, .mem true 1 (.call (.cons (.arr (.idx (.name 2 [] (.cons (.name 3 [] .nil) .nil)) (.name 4 [] .nil)))
        (.cons (.name 4 [6, 7] .nil) .nil))
      (.cons 5 (.call (.cons (.name 6 [] .nil) .nil) .nil (.par .gt 7 (.mem true 8 .done) .done)) .nil)
      (.sub 8 (.op .plus 9 .done) .done))) := rfl

/-- **C90.** Without `?.`, whatever is accepted, with all its trials, is a way to write the tree that is given back: nothing is skipped,
read twice, or left out, and type arguments are only where they can be.  Missing: sources with `?.`, for which this is false. -/
theorem accepted_written_partial (ts : List Tok) (n : Nat) (x : X) (h : ∀ m, .mem true m ∉ ts) (e : parse true ts = some (n, x)) :
    ∃ us, ts = .atom n :: us ∧ Written x us := by
  unfold parse at e
  split at e
  · rename_i m r
    have hs := tail_sound true (r.length + 3) { toks := r } (fun k hk => h k (by simp [hk]))
    split at e
    · rename_i y s e1
      rw [e1] at hs
      split at e
      · rename_i hn
        obtain ⟨us, eu, w⟩ := hs
        simp only [Option.some.injEq, Prod.mk.injEq] at e
        obtain ⟨rfl, rfl⟩ := e
        simp only [List.isEmpty_iff] at hn
        exact ⟨us, by simpa [hn] using eu, w⟩
      · simp at e
    · simp at e
  · simp at e

/-- `a<b,>(c,) < d`: with commas at the ends, and a comparison behind a call with type arguments -/
example : parse true [.atom 0, .lt, .atom 1, .comma, .gt, .lp, .atom 2, .comma, .rp, .lt, .atom 3] =
    some (0, .call (.cons (.name 1 [] .nil) .nil) (.cons 2 .done .nil) (.op .lt 3 .done)) := rfl

/-- **C90.** Without TypeScript every way to write an expression without type arguments is read as that expression, of any size, with
`?.`, subscripts and all the operators.  Missing: the same with TypeScript on, for which it is false. -/
theorem javascript_read_partial (n : Nat) (x : X) (us : List Tok) (w : Written x us) (h : x.noTys = true) :
    parse false (.atom n :: us) = some (n, x) := by
  have e := tail_js w (us.length + 3) false [] [] [] h rfl (by simp)
  rw [List.append_nil] at e
  simp [parse, e]

/-- `f(a < b, c > d) < a?.b[i + 1]` -/
example : parse false [.atom 0, .lp, .atom 1, .lt, .atom 2, .comma, .atom 3, .gt, .atom 4, .rp, .lt, .atom 1, .mem true 2, .lb, .atom 5,
    .plus, .atom 6, .rb] =
    some (0, .call .nil (.cons 1 (.op .lt 2 .done) (.cons 3 (.op .gt 4 .done) .nil))
      (.op .lt 1 (.mem true 2 (.sub 5 (.op .plus 6 .done) .done)))) := rfl

/-- So the specification is not ambiguous without type arguments: no source is a way to write two trees. -/
theorem written_unique (x y : X) (us : List Tok) (hx : Written x us) (hy : Written y us) (nx : x.noTys = true) (ny : y.noTys = true) :
    x = y := by
  have := (javascript_read_partial 0 x us hx nx).symm.trans (javascript_read_partial 0 y us hy ny)
  simpa using this

/-- With them it is: `a < b > (c)` is a call and two comparisons.  The parser, as TypeScript does, takes the call. -/
theorem call_preferred (a b c : Nat) : Written (.op .lt b (.par .gt c .done .done)) [.lt, .atom b, .gt, .lp, .atom c, .rp] ∧
    Written (.call (.cons (.name b [] .nil) .nil) (.cons c .done .nil) .done) [.lt, .atom b, .gt, .lp, .atom c, .rp] ∧
    parse true [.atom a, .lt, .atom b, .gt, .lp, .atom c, .rp] =
      some (a, .call (.cons (.name b [] .nil) .nil) (.cons c .done .nil) .done) :=
  ⟨show_written (.op .lt b (.par .gt c .done .done)) rfl,
   show_written (.call (.cons (.name b [] .nil) .nil) (.cons c .done .nil) .done) rfl, rfl⟩

/-- **C90.** TypeScript does not change the meaning of a JavaScript expression without `?.`: if it is accepted with TypeScript on, and
read without type arguments, then it is accepted without, and the tree is the same.  Missing: sources that are accepted without
TypeScript and rejected with it. -/
theorem same_tree_partial (ts : List Tok) (n : Nat) (x : X) (h : ∀ m, .mem true m ∉ ts) (e : parse true ts = some (n, x))
    (hx : x.noTys = true) : parse false ts = some (n, x) := by
  obtain ⟨us, rfl, w⟩ := accepted_written_partial ts n x h e
  exact javascript_read_partial n x us w hx

/-- `a < b(c, d < e,) + (f < g)` -/
example : parse true [.atom 0, .lt, .atom 1, .lp, .atom 2, .comma, .atom 3, .lt, .atom 4, .comma, .rp, .plus, .lp, .atom 5, .lt, .atom 6,
    .rp] = some (0, .op .lt 1 (.call .nil (.cons 2 .done (.cons 3 (.op .lt 4 .done) .nil)) (.par .plus 5 (.op .lt 6 .done) .done))) :=
  rfl

/-- **C90.** Going back never makes the parser panic: wherever a state is taken back or dropped, in any source and with `?.` too, there is
one on the stack (though not always the one that was meant, see `unclosed_violated`). -/
theorem no_panic_partial (T : Bool) (f : Nat) (opt : Bool) (s s' : St) : tail T f opt s ≠ .err .panic s' := by
  intro e
  have := tail_kept T f opt s
  rw [e] at this
  exact this

/-- `f(a?.b < c`: two states are left on the stack, of which one is taken -/
example : tail true 20 false { toks := [.lp, .atom 1, .mem true 2, .lt, .atom 3] } =
    .ok (.op .lt 3 .done) { toks := [], stack := [[.lt, .atom 3]], lts := [2] } := rfl

/-- **C90, violated.** `a?.b < c` is rejected: behind a `?.` the trial is not given up, and its error is that of the expression
(parser.go 4641). -/
theorem optional_less_violated : parse true (.atom 0 :: (X.mem true 1 (.op .lt 2 .done)).show) = none := rfl

/-- **C90, violated.** `f(a?.b < c`, without the `)`, is accepted as `f < c`: the error of the comparison inside the arguments is taken
for one of `f` by `callExpr` 4641, and the state it goes back to is not its own, but what the trial inside has left on the stack
(ts.go 1616).  With the `)` it is rejected. -/
theorem unclosed_violated :
    parse true [.atom 0, .lp, .atom 1, .mem true 2, .lt, .atom 3] = some (0, .op .lt 3 .done) ∧
    (¬ ∃ us, [.atom 0, .lp, .atom 1, .mem true 2, .lt, .atom 3] = .atom 0 :: us ∧ Written (.op .lt 3 .done) us) ∧
    parse true (.atom 0 :: (X.call .nil (.cons 1 (.mem true 2 (.op .lt 3 .done)) .nil) .done).show) = none := by
  refine ⟨rfl, ?_, rfl⟩
  rintro ⟨us, e, w⟩
  cases w with
  | op o n ho w => simp at e

/-- **C90, violated.** `a[i] < a[i + 1]` is rejected: `a[i + 1]` is begun as an indexed type, and the error in it is not one that the
trial is given up for. -/
theorem subscript_violated :
    parse true (.atom 0 :: (X.sub 1 .done (.op .lt 0 (.sub 1 (.op .plus 2 .done) .done))).show) = none := rfl

/-- **C90, violated.** So is a comparison with such a subscript in a later argument: `f(a < b, c[i + 1])`. -/
theorem later_argument_violated :
    parse true (.atom 0 :: (X.call .nil (.cons 1 (.op .lt 2 .done) (.cons 3 (.sub 4 (.op .plus 5 .done) .done) .nil)) .done).show) = none := rfl

/-- **C90, violated.** `a < b > c` is rejected: behind type arguments only `(` will do, and the trial is not given up. -/
theorem greater_violated : parse true (.atom 0 :: (X.op .lt 1 (.op .gt 2 .done)).show) = none := rfl

/-- **C90, violated.** So is a call with two comparisons, `f(a < b, c > d)`. -/
theorem two_arguments_violated :
    parse true (.atom 0 :: (X.call .nil (.cons 1 (.op .lt 2 .done) (.cons 3 (.op .gt 4 .done) .nil)) .done).show) = none := rfl

/-- **C90, violated.** `a < b<c>(d)`, a comparison with the result of a call, is read as `a < b < c > (d)`, three comparisons: the trial
at the first `<` fails behind `b<c>`, but the one error value the parser has for this now holds the place of the second `<` (ts.go 1750),
which is taken for an operator from then on. -/
theorem compared_call_violated :
    parse true (.atom 0 :: (X.op .lt 1 (.call (.cons (.name 2 [] .nil) .nil) (.cons 3 .done .nil) .done)).show) =
      some (0, .op .lt 1 (.op .lt 2 (.par .gt 3 .done .done))) := rfl

/-- with `+` for the first `<` the call is read -/
example : parse true (.atom 0 :: (X.op .plus 1 (.call (.cons (.name 2 [] .nil) .nil) (.cons 3 .done .nil) .done)).show) =
    some (0, .op .plus 1 (.call (.cons (.name 2 [] .nil) .nil) (.cons 3 .done .nil) .done)) := rfl

end Mole.Parser.Less
