import Verif.Graph.CfgMain
import Verif.Graph.CfgLive

/-! # What the control flow graph says about a program (C51, C64)

`Walk h headBlock ns x` (CfgHeap) is a path of the finished graph: it starts at the head, follows outgoing edges, ends in block
`x`, and `ns` lists the nodes of the tree held by the blocks it passes, in order.  `Stmts.exec` and `Stmts.part` (CfgSem) say
what a program evaluates when it runs, to the end or so far, without mentioning graphs. -/

namespace Mole.Cfg

/-! ## Runs are paths (C64)

The full statement: for every program, every run of it is a path of its graph.  Proved for programs made of expression
statements, declarations, blocks, `if`, `while`, `do … while` and `for (…; …; …)`, with the expressions of `Expr`, in which no
test is `a ?? b` and, in the head of a `for`, the test is not `a || b` and the other two parts are not logical operations.
Missing: the statements and expressions not in `Stmt` and `Expr` (CfgBuild lists them); and the forms left out together with
`for … in` and `for … of`, for all of which the statement is false (below). -/

/-- Whatever order the maps are visited in: the graph is built without a crash; every run to the end is a path to the block that
marks the end; and every run, whether it ends or not, stays on a path as far as it has come. -/
theorem every_run_is_a_path_partial {ω : Order} (fair : ω.Fair) (id : Nat) (ss : Stmts) (o : ss.ok = true) :
    ∃ h, analyse ω id ss = some h ∧
      (∀ ns, ss.exec ns → ∃ x, Walk h headBlock ns x ∧ .exit id ∈ (h.blk x).nodes) ∧
      (∀ ns, ss.part ns → ∃ x w, Walk h headBlock w x ∧ ns <+: w) := by
  obtain ⟨h, e, a, b, _⟩ := analyse_ok fair id ss o
  exact ⟨h, e, a, b⟩

/-- `a && b; while (c || d) { var e = f(g); } h` -/
def sample : Stmts :=
  .cons (.expr 20 (.logic 21 .and (.atom 1) (.atom 2))) (.cons
    (.while 22 (.logic 23 .or (.atom 3) (.atom 4)) (.block 24 (.cons (.var 25 (.init 26 (.atom 5) (.call 27 (.atom 6) (.cons (.atom 7) .nil)) .nil)) .nil)))
    (.cons (.expr 28 (.atom 8)) .nil))

/-- The order of insertion. -/
def ord : Order := fun _ _ l => l

/-- The reverse order. -/
def rev : Order := fun _ _ l => l.reverse

theorem ord_fair : ord.Fair := fun _ _ l => .refl l

theorem rev_fair : rev.Fair := fun _ _ l => l.reverse_perm

/-- One run: `a` is false; `c` is false and `d` true; the body is run; `c` is true; the body is run; `c` and `d` are false. -/
theorem sample_runs : sample.exec [1, 3, 4, 5, 6, 7, 3, 5, 6, 7, 3, 4, 8] := by
  refine ⟨[1], _, rfl, ⟨.falsy, .inl ⟨by simp [LOp.stops], rfl⟩⟩, [3, 4, 5, 6, 7, 3, 5, 6, 7, 3, 4], [8], rfl, ?_, [8], [], rfl, ⟨.truthy, rfl⟩, rfl⟩
  have body : (Stmt.block 24 (.cons (.var 25 (.init 26 (.atom 5) (.call 27 (.atom 6) (.cons (.atom 7) .nil)) .nil)) .nil)).exec [5, 6, 7] :=
    ⟨[5, 6, 7], [], rfl, ⟨[5], [6, 7], [], rfl, ⟨.truthy, rfl⟩, ⟨.truthy, [6], [7], rfl, ⟨.truthy, rfl⟩, [7], [], rfl, ⟨.truthy, rfl⟩, rfl⟩, rfl⟩, rfl⟩
  have last : (Expr.logic 23 .or (.atom 3) (.atom 4)).eval [3, 4] .falsy := .inr ⟨[3], [4], rfl, ⟨.falsy, by simp [LOp.stops], rfl⟩, rfl⟩
  have one : (Expr.logic 23 .or (.atom 3) (.atom 4)).eval [3, 4] .truthy := .inr ⟨[3], [4], rfl, ⟨.falsy, by simp [LOp.stops], rfl⟩, rfl⟩
  have two : (Expr.logic 23 .or (.atom 3) (.atom 4)).eval [3] .truthy := .inl ⟨rfl, rfl⟩
  exact .again one body (.again two body (.stop (by simp) last))

example : sample.ok = true ∧ ∃ h x, analyse rev 0 sample = some h ∧ Walk h headBlock [1, 3, 4, 5, 6, 7, 3, 5, 6, 7, 3, 4, 8] x := by
  obtain ⟨h, e, a, _⟩ := every_run_is_a_path_partial rev_fair 0 sample (by decide)
  obtain ⟨x, w, _⟩ := a _ sample_runs
  exact ⟨by decide, h, x, e, w⟩

/-- A loop that never ends is on a path at all times: `while (a) b` after any number of rounds. -/
example (n : Nat) : ∃ h x w, analyse ord 0 (.cons (.while 10 (.atom 1) (.expr 11 (.atom 2))) .nil) = some h ∧
    Walk h headBlock w x ∧ (List.replicate n [1, 2]).flatten <+: w := by
  obtain ⟨h, e, _, b⟩ := every_run_is_a_path_partial ord_fair 0 (.cons (.while 10 (.atom 1) (.expr 11 (.atom 2))) .nil) (by decide)
  obtain ⟨x, w, p, q⟩ := b (List.replicate n [1, 2]).flatten (.inl (by
    show LoopPart _ _ _ _ _
    induction n with
    | zero => exact .test (.inl rfl)
    | succ n ih => exact .again (n1 := [1]) (n2 := [2]) rfl ⟨.truthy, rfl⟩ ih))
  exact ⟨h, x, w, e, p, q⟩

/-- `for (var a = b || c; d && e; f) do g; while (h || i); j` -/
def loops : Stmts :=
  .cons (.for 20 (.var 21 (.init 22 (.atom 1) (.logic 23 .or (.atom 2) (.atom 3)) .nil)) (.logic 24 .and (.atom 4) (.atom 5)) (some (.atom 6))
    (.doWhile 25 (.expr 26 (.atom 7)) (.logic 27 .or (.atom 8) (.atom 9)))) (.cons (.expr 28 (.atom 10)) .nil)

/-- One run: `b` is false; `d` and `e` are true; `g` is run twice, since `h` is true and then `h` and `i` are false; `f`; `d` is false. -/
theorem loops_run : loops.exec [1, 2, 3, 4, 5, 7, 8, 7, 8, 9, 6, 4, 10] := by
  refine ⟨[1, 2, 3, 4, 5, 7, 8, 7, 8, 9, 6, 4], [10], rfl, ⟨[1, 2, 3], [4, 5, 7, 8, 7, 8, 9, 6, 4], rfl, ?_, ?_⟩, [10], [], rfl, ⟨.truthy, rfl⟩, rfl⟩
  · exact ⟨[1], [2, 3], [], rfl, ⟨.truthy, rfl⟩, ⟨.truthy, .inr ⟨[2], [3], rfl, ⟨.falsy, by simp [LOp.stops], rfl⟩, rfl⟩⟩, rfl⟩
  · refine Loop.again (n1 := [4, 5]) (n2 := [7, 8, 7, 8, 9, 6]) (n3 := [4]) (.inr ⟨[4], [5], rfl, ⟨.truthy, by simp [LOp.stops], rfl⟩, rfl⟩)
      ⟨[7, 8, 7, 8, 9], [6], rfl, ?_, .truthy, rfl⟩ (.stop (v := .falsy) (by simp) (.inl ⟨by simp [LOp.stops], rfl⟩))
    refine DoLoop.again (n1 := [7]) (n2 := [8]) (n3 := [7, 8, 9]) ⟨.truthy, rfl⟩ (.inl ⟨rfl, rfl⟩) ?_
    exact .stop (n1 := [7]) (n2 := [8, 9]) (v := .falsy) ⟨.truthy, rfl⟩ (by simp) (.inr ⟨[8], [9], rfl, ⟨.falsy, by simp [LOp.stops], rfl⟩, rfl⟩)

example : loops.ok = true ∧ ∃ h x, analyse rev 0 loops = some h ∧ Walk h headBlock [1, 2, 3, 4, 5, 7, 8, 7, 8, 9, 6, 4, 10] x := by
  obtain ⟨h, e, a, _⟩ := every_run_is_a_path_partial rev_fair 0 loops (by decide)
  obtain ⟨x, w, _⟩ := a _ loops_run
  exact ⟨by decide, h, x, e, w⟩

/-! ### What is left out

Below are programs with a run that is no path of the graph.  That a graph has no such path is checked with `Shut`, which is shown
to be enough first. -/

/-- What is left of `ns` after the nodes `l`; nothing if they differ. -/
def after : List Nat → List Nat → Option (List Nat)
  | [], ns => some ns
  | _ :: _, [] => some []
  | x :: l, y :: ns => if x = y then after l ns else none

/-- `R` lists blocks, each with what is left to be passed when a path comes to it; no path passes all of it. -/
def Shut (h : Heap) (R : List (Nat × List Nat)) : Bool :=
  R.all fun p => match after (vis (h.blk p.1).nodes) p.2 with
    | none => true
    | some [] => false
    | some ns => (h.O p.1).all fun d => match (h.edge d).dst with
      | none => true
      | some c => decide ((c, ns) ∈ R)

theorem after_some : ∀ {l ns rest : List Nat}, after l ns = some rest → rest ≠ [] → ns = l ++ rest
  | [], _, _, e, _ => by cases e; rfl
  | _ :: _, [], _, e, k => by cases e; exact absurd rfl k
  | x :: l, y :: ns, rest, e, k => by
    simp only [after] at e
    split at e
    · next xy => rw [xy, after_some e k]; rfl
    · cases e

theorem after_none : ∀ {l ns : List Nat}, after l ns = none → ∀ t, ¬ l ++ t <+: ns ∧ ¬ ns <+: l ++ t
  | [], _, e, _ => by cases e
  | _ :: _, [], e, _ => by cases e
  | x :: l, y :: ns, e, t => by
    simp only [after] at e
    split at e
    · next xy =>
      subst xy
      simpa using after_none e t
    · next xy => exact ⟨fun q => xy (List.cons_prefix_cons.mp q).1, fun q => xy (List.cons_prefix_cons.mp q).1.symm⟩

/-- If a list with `(a, ns)` is shut, no path from `a` passes `ns`. -/
theorem no_path {h : Heap} {R : List (Nat × List Nat)} (k : Shut h R = true) {a : Nat} {ns : List Nat} (m : (a, ns) ∈ R) :
    ∀ x w, Walk h a w x → ¬ ns <+: w := by
  have shut : ∀ {b ms}, (b, ms) ∈ R → after (vis (h.blk b).nodes) ms = none ∨ ∃ rest, rest ≠ [] ∧ ms = vis (h.blk b).nodes ++ rest ∧
      ∀ d ∈ h.O b, ∀ c, (h.edge d).dst = some c → (c, rest) ∈ R := by
    intro b ms m
    have k := List.all_eq_true.mp k _ m
    dsimp only at k
    split at k
    · next e => exact .inl e
    · cases k
    · next rest ne e =>
      refine .inr ⟨rest, ne, after_some e ne, fun d md c ec => ?_⟩
      have k := List.all_eq_true.mp k d md
      rw [ec] at k
      exact of_decide_eq_true k
  have apart : ∀ {u l ms t : List Nat}, after l ms = none → ¬ u ++ ms <+: u ++ l ++ t := by
    intro u l ms t e q
    rw [List.append_assoc, List.prefix_append_right_inj] at q
    exact (after_none e t).2 q
  have main : ∀ x w, Walk h a w x → (∀ t, ¬ ns <+: w ++ t) ∨ ∃ rest, rest ≠ [] ∧ ns = w ++ rest ∧ ∀ d ∈ h.O x, ∀ c, (h.edge d).dst = some c → (c, rest) ∈ R := by
    intro x w p
    induction p with
    | one =>
      rcases shut m with e | r
      · exact .inl fun t => by simpa using apart (u := []) (t := t) e
      · exact .inr r
    | @step x y w d p md ed ih =>
      rcases ih with ih | ⟨rest, ne, rfl, go⟩
      · exact .inl fun t => by rw [List.append_assoc]; exact ih _
      · rcases shut (go d md _ ed) with e | ⟨rest', ne', rfl, go'⟩
        · exact .inl fun t => apart e
        · exact .inr ⟨rest', ne', by simp, go'⟩
  intro x w p q
  rcases main x w p with r | ⟨rest, ne, rfl, _⟩
  · exact r [] (by simpa using q)
  · have := q.length_le
    rw [List.length_append] at this
    exact ne (List.eq_nil_of_length_eq_zero (by omega))

/-- The blocks a path that passes `ns` would come to, with what would be left. -/
def toPass (h : Heap) : Nat → List (Nat × List Nat) → List (Nat × List Nat) → List (Nat × List Nat)
  | 0, seen, _ => seen
  | _ + 1, seen, [] => seen
  | n + 1, seen, p :: todo =>
    if p ∈ seen then toPass h n seen todo else
    match after (vis (h.blk p.1).nodes) p.2 with
    | some ns => toPass h n (p :: seen) ((h.O p.1).filterMap (fun d => (h.edge d).dst.map fun c => (c, ns)) ++ todo)
    | none => toPass h n (p :: seen) todo

/-- What the graph built for a program satisfies, if checking it says so. -/
theorem of_check {ω : Order} {ss : Stmts} (p : Heap → Bool) (k : (analyse ω 0 ss).map p = some true) : ∃ h, analyse ω 0 ss = some h ∧ p h = true :=
  Option.map_eq_some_iff.mp k

theorem no_such_path {ω : Order} {ss : Stmts} {ns : List Nat} {n : Nat}
    (k : (analyse ω 0 ss).map (fun h => let R := toPass h n [] [(headBlock, ns)]; Shut h R && decide ((headBlock, ns) ∈ R)) = some true) :
    ∃ h, analyse ω 0 ss = some h ∧ ∀ x w, Walk h headBlock w x → ¬ ns <+: w := by
  obtain ⟨h, e, k⟩ := of_check _ k
  dsimp only at k
  rw [Bool.and_eq_true] at k
  exact ⟨h, e, no_path k.1 (of_decide_eq_true k.2)⟩

/-- `if (a ?? b) c; else d;` -/
def nulTest : Stmts := .cons (.ifElse 10 (.logic 11 .nul (.atom 1) (.atom 2)) (.expr 12 (.atom 3)) (.expr 13 (.atom 4))) .nil

/-- The restriction to tests other than `a ?? b` is needed.  In `if (a ?? b) c; else d;` a value of `a` that is false but not
absent, like `0`, is the value of the test, so `a` is followed by `d`.  No path of the graph goes that way. -/
theorem every_run_is_a_path_violated : nulTest.exec [1, 4] ∧ ∃ h, analyse ord 0 nulTest = some h ∧ ∀ x w, Walk h headBlock w x → ¬ [1, 4] <+: w :=
  ⟨⟨[1, 4], [], rfl, ⟨[1], [4], rfl, .inr ⟨⟨.falsy, by simp, .inl ⟨by simp [LOp.stops], rfl⟩⟩, .truthy, rfl⟩⟩, rfl⟩, no_such_path (n := 50) (by decide +kernel)⟩

/-- `for (; a || b;) c;` -/
def orTest : Stmts := .cons (.for 10 .none (.logic 11 .or (.atom 1) (.atom 2)) none (.expr 12 (.atom 3))) .nil

/-- In `for (; a || b;) c;`, if `a` is true, `c` is run next.  In the graph `a` leads to `b` and to the end of the loop only. -/
theorem run_of_for_with_or_violated : orTest.exec [1, 3, 1, 2] ∧ ∃ h, analyse ord 0 orTest = some h ∧ ∀ x w, Walk h headBlock w x → ¬ [1, 3] <+: w := by
  refine ⟨⟨[1, 3, 1, 2], [], rfl, ⟨[], _, rfl, rfl, ?_⟩, rfl⟩, no_such_path (n := 50) (by decide +kernel)⟩
  exact Loop.again (n1 := [1]) (n2 := [3]) (n3 := [1, 2]) (.inl ⟨rfl, rfl⟩) ⟨[3], [], rfl, ⟨.truthy, rfl⟩, rfl⟩
    (.stop (v := .falsy) (by simp) (.inr ⟨[1], [2], rfl, ⟨.falsy, by simp [LOp.stops], rfl⟩, rfl⟩))

/-- `for (; a; b && c) d;` -/
def andUpdate : Stmts := .cons (.for 10 .none (.atom 1) (some (.logic 11 .and (.atom 2) (.atom 3))) (.expr 12 (.atom 4))) .nil

/-- In `for (; a; b && c) d;`, if `b` is false, `a` is evaluated next.  In the graph `b` leads to `c` only. -/
theorem run_of_for_with_and_violated : andUpdate.exec [1, 4, 2, 1] ∧ ∃ h, analyse ord 0 andUpdate = some h ∧ ∀ x w, Walk h headBlock w x → ¬ [1, 4, 2, 1] <+: w := by
  refine ⟨⟨[1, 4, 2, 1], [], rfl, ⟨[], _, rfl, rfl, ?_⟩, rfl⟩, no_such_path (n := 50) (by decide +kernel)⟩
  exact Loop.again (n1 := [1]) (n2 := [4, 2]) (n3 := [1]) rfl ⟨[4], [2], rfl, ⟨.truthy, rfl⟩, .falsy, .inl ⟨by simp [LOp.stops], rfl⟩⟩ (.stop (v := .falsy) (by simp) rfl)

/-- `for (a || b; c;) d;` -/
def orInit : Stmts := .cons (.for 10 (.expr (.logic 11 .or (.atom 1) (.atom 2))) (.atom 3) none (.expr 12 (.atom 4))) .nil

/-- In `for (a || b; c;) d;`, if `a` is true, `c` is evaluated next.  In the graph `a` leads to `b` only. -/
theorem run_of_for_with_or_first_violated : orInit.exec [1, 3] ∧ ∃ h, analyse ord 0 orInit = some h ∧ ∀ x w, Walk h headBlock w x → ¬ [1, 3] <+: w :=
  ⟨⟨[1, 3], [], rfl, ⟨[1], [3], rfl, ⟨.truthy, .inl ⟨rfl, rfl⟩⟩, .stop (v := .falsy) (by simp) rfl⟩, rfl⟩, no_such_path (n := 50) (by decide +kernel)⟩

/-- `for (a of b) c;` -/
def eachStmt : Stmts := .cons (.each 10 (.expr (.atom 1)) (.atom 2) (.expr 12 (.atom 3))) .nil

/-- In `for (a of b) c;` (and with `in`) `b` is evaluated first and once.  In the graph `a` comes before `b`, whose value it is
to hold, and `b` is evaluated in each round.  So nothing that starts with `b` is a path, and neither is a second round. -/
theorem run_of_each_violated : eachStmt.exec [2] ∧ eachStmt.exec [2, 1, 3] ∧
    (∃ h, analyse ord 0 eachStmt = some h ∧ ∀ x w, Walk h headBlock w x → ¬ [2] <+: w) ∧
    ∃ h, analyse ord 0 eachStmt = some h ∧ ∀ x w, Walk h headBlock w x → ¬ [1, 2, 3, 1, 3] <+: w :=
  ⟨⟨[2], [], rfl, ⟨[2], [], rfl, ⟨.truthy, rfl⟩, .stop⟩, rfl⟩,
   ⟨[2, 1, 3], [], rfl, ⟨[2], [1, 3], rfl, ⟨.truthy, rfl⟩, .again (n1 := [1]) (n2 := [3]) (n3 := []) ⟨.truthy, rfl⟩ ⟨.truthy, rfl⟩ .stop⟩, rfl⟩,
   no_such_path (n := 50) (by decide +kernel), no_such_path (n := 50) (by decide +kernel)⟩

/-! ## Code is reachable (C64) -/

mutual

/-- The atoms of an expression. -/
def Expr.atoms : Expr → List Nat
  | .atom i => [i]
  | .unary _ e => e.atoms
  | .wrap _ e => e.atoms
  | .chain _ e => e.atoms
  | .bin _ l r => l.atoms ++ r.atoms
  | .logic _ _ l r => l.atoms ++ r.atoms
  | .cond _ t c a => t.atoms ++ c.atoms ++ a.atoms
  | .pair _ l r => l.atoms ++ r.atoms
  | .list _ es => es.atoms
  | .call _ f es => f.atoms ++ es.atoms
  | .new _ f es => f.atoms ++ es.atoms
  | .member _ o p => o.atoms ++ p.atoms

def Exprs.atoms : Exprs → List Nat
  | .nil => []
  | .cons e es => e.atoms ++ es.atoms

end

def Decs.atoms : Decs → List Nat
  | .nil => []
  | .bare _ e ds => e.atoms ++ ds.atoms
  | .init _ e i ds => e.atoms ++ i.atoms ++ ds.atoms

def Init.atoms : Init → List Nat
  | .none => []
  | .expr e => e.atoms
  | .var _ ds => ds.atoms

def Opt.atoms : Option Expr → List Nat
  | none => []
  | some e => e.atoms

mutual

/-- The atoms of a statement. -/
def Stmt.atoms : Stmt → List Nat
  | .expr _ e => e.atoms
  | .var _ ds => ds.atoms
  | .block _ ss => ss.atoms
  | .ifThen _ t c => t.atoms ++ c.atoms
  | .ifElse _ t c a => t.atoms ++ c.atoms ++ a.atoms
  | .while _ t b => t.atoms ++ b.atoms
  | .doWhile _ b t => b.atoms ++ t.atoms
  | .for _ i t u b => i.atoms ++ t.atoms ++ Opt.atoms u ++ b.atoms
  | .each _ i e b => i.atoms ++ e.atoms ++ b.atoms

def Stmts.atoms : Stmts → List Nat
  | .nil => []
  | .cons s ss => s.atoms ++ ss.atoms

end

mutual

theorem Expr.any : ∀ (e : Expr) (v : Val), ∃ ns, e.eval ns v
  | .atom i, _ => ⟨[i], rfl⟩
  | .unary _ e, v => let ⟨ns, p⟩ := e.any v; ⟨ns, v, p⟩
  | .wrap _ e, v => let ⟨ns, p⟩ := e.any v; ⟨ns, v, p⟩
  | .chain _ e, v => let ⟨ns, p⟩ := e.any v; ⟨ns, v, p⟩
  | .bin _ l r, v => let ⟨n, p⟩ := l.any v; let ⟨m, q⟩ := r.any v; ⟨n ++ m, n, m, rfl, ⟨v, p⟩, v, q⟩
  | .logic _ op l r, v => by
    by_cases k : op.stops v
    · obtain ⟨n, p⟩ := l.any v
      exact ⟨n, .inl ⟨k, p⟩⟩
    · obtain ⟨n, p⟩ := l.any v
      obtain ⟨m, q⟩ := r.any v
      exact ⟨n ++ m, .inr ⟨n, m, rfl, ⟨v, k, p⟩, q⟩⟩
  | .cond _ t c _, v => let ⟨n, p⟩ := t.any .truthy; let ⟨m, q⟩ := c.any v; ⟨n ++ m, n, m, rfl, .inl ⟨p, q⟩⟩
  | .pair _ l r, v => let ⟨n, p⟩ := l.any v; let ⟨m, q⟩ := r.any v; ⟨n ++ m, n, m, rfl, ⟨v, p⟩, v, q⟩
  | .list _ es, _ => es.any
  | .call _ f es, v => let ⟨n, p⟩ := f.any v; let ⟨m, q⟩ := es.any; ⟨n ++ m, n, m, rfl, ⟨v, p⟩, q⟩
  | .new _ f es, v => let ⟨n, p⟩ := f.any v; let ⟨m, q⟩ := es.any; ⟨n ++ m, n, m, rfl, ⟨v, p⟩, q⟩
  | .member _ l r, v => let ⟨n, p⟩ := l.any v; let ⟨m, q⟩ := r.any v; ⟨n ++ m, n, m, rfl, ⟨v, p⟩, v, q⟩

theorem Exprs.any : ∀ (es : Exprs), ∃ ns, es.eval ns
  | .nil => ⟨[], rfl⟩
  | .cons e es => let ⟨n, p⟩ := e.any .truthy; let ⟨m, q⟩ := es.any; ⟨n ++ m, n, m, rfl, ⟨_, p⟩, q⟩

end

theorem Decs.any : ∀ (ds : Decs), ∃ ns, ds.exec ns
  | .nil => ⟨[], rfl⟩
  | .bare _ e ds => let ⟨n, p⟩ := e.any .truthy; let ⟨m, q⟩ := ds.any; ⟨n ++ m, n, m, rfl, ⟨_, p⟩, q⟩
  | .init _ e i ds => let ⟨n, p⟩ := e.any .truthy; let ⟨k, r⟩ := i.any .truthy; let ⟨m, q⟩ := ds.any; ⟨n ++ k ++ m, n, k, m, rfl, ⟨_, p⟩, ⟨_, r⟩, q⟩

theorem Init.any : ∀ (i : Init), ∃ ns, i.exec ns
  | .none => ⟨[], rfl⟩
  | .expr e => let ⟨n, p⟩ := e.any .truthy; ⟨n, _, p⟩
  | .var _ ds => ds.any

theorem Opt.any : ∀ (u : Option Expr), ∃ ns, Opt.exec u ns
  | none => ⟨[], rfl⟩
  | some e => let ⟨n, p⟩ := e.any .truthy; ⟨n, _, p⟩

mutual

theorem Stmt.any : ∀ (s : Stmt), ∃ ns, s.exec ns
  | .expr _ e => let ⟨n, p⟩ := e.any .truthy; ⟨n, _, p⟩
  | .var _ ds => ds.any
  | .block _ ss => ss.any
  | .ifThen _ t _ => let ⟨n, p⟩ := t.any .falsy; ⟨n, .inr ⟨_, by simp, p⟩⟩
  | .ifElse _ t c _ => let ⟨n, p⟩ := t.any .truthy; let ⟨m, q⟩ := c.any; ⟨n ++ m, n, m, rfl, .inl ⟨p, q⟩⟩
  | .while _ t _ => let ⟨n, p⟩ := t.any .falsy; ⟨n, Loop.stop (by simp) p⟩
  | .doWhile _ b t => let ⟨m, q⟩ := b.any; let ⟨n, p⟩ := t.any .falsy; ⟨m ++ n, DoLoop.stop q (by simp) p⟩
  | .for _ i t _ _ => let ⟨m, q⟩ := i.any; let ⟨n, p⟩ := t.any .falsy; ⟨m ++ n, m, n, rfl, q, Loop.stop (by simp) p⟩
  | .each _ _ e _ => let ⟨n, p⟩ := e.any .truthy; ⟨n ++ [], n, [], rfl, ⟨_, p⟩, Each.stop⟩

theorem Stmts.any : ∀ (ss : Stmts), ∃ ns, ss.exec ns
  | .nil => ⟨[], rfl⟩
  | .cons s ss => let ⟨n, p⟩ := s.any; let ⟨m, q⟩ := ss.any; ⟨n ++ m, n, m, rfl, p, q⟩

end

theorem LOp.goes (op : LOp) : ∃ u, ¬ op.stops u := by
  cases op
  · exact ⟨.truthy, by simp [LOp.stops]⟩
  · exact ⟨.falsy, by simp [LOp.stops]⟩
  · exact ⟨.nullish, by simp [LOp.stops]⟩

mutual

theorem Expr.hits : ∀ (e : Expr) {i : Nat}, i ∈ e.atoms → ∃ ns, e.part ns ∧ i ∈ ns
  | .atom j, i, m => ⟨[j], .inr rfl, m⟩
  | .unary _ e, _, m => e.hits m
  | .wrap _ e, _, m => e.hits m
  | .chain _ e, _, m => e.hits m
  | .bin _ l r, _, m | .pair _ l r, _, m | .member _ l r, _, m => by
    rcases List.mem_append.mp m with m | m
    · obtain ⟨n, p, q⟩ := l.hits m
      exact ⟨n, .inl p, q⟩
    · obtain ⟨n, p⟩ := l.any .truthy
      obtain ⟨k, q, r⟩ := r.hits m
      exact ⟨n ++ k, .inr ⟨n, k, rfl, ⟨_, p⟩, q⟩, List.mem_append_right _ r⟩
  | .logic _ op l r, _, m => by
    rcases List.mem_append.mp m with m | m
    · obtain ⟨n, p, q⟩ := l.hits m
      exact ⟨n, .inl p, q⟩
    · obtain ⟨u, nu⟩ := op.goes
      obtain ⟨n, p⟩ := l.any u
      obtain ⟨k, q, r⟩ := r.hits m
      exact ⟨n ++ k, .inr ⟨n, k, rfl, ⟨_, nu, p⟩, q⟩, List.mem_append_right _ r⟩
  | .cond _ t c a, _, m => by
    rcases List.mem_append.mp m with m | m
    · rcases List.mem_append.mp m with m | m
      · obtain ⟨n, p, q⟩ := t.hits m
        exact ⟨n, .inl p, q⟩
      · obtain ⟨n, p⟩ := t.any .truthy
        obtain ⟨k, q, r⟩ := c.hits m
        exact ⟨n ++ k, .inr ⟨n, k, rfl, .inl ⟨p, q⟩⟩, List.mem_append_right _ r⟩
    · obtain ⟨n, p⟩ := t.any .falsy
      obtain ⟨k, q, r⟩ := a.hits m
      exact ⟨n ++ k, .inr ⟨n, k, rfl, .inr ⟨⟨_, by simp, p⟩, q⟩⟩, List.mem_append_right _ r⟩
  | .list _ es, _, m => es.hits m
  | .call _ f es, _, m | .new _ f es, _, m => by
    rcases List.mem_append.mp m with m | m
    · obtain ⟨n, p, q⟩ := f.hits m
      exact ⟨n, .inl p, q⟩
    · obtain ⟨n, p⟩ := f.any .truthy
      obtain ⟨k, q, r⟩ := es.hits m
      exact ⟨n ++ k, .inr ⟨n, k, rfl, ⟨_, p⟩, q⟩, List.mem_append_right _ r⟩

theorem Exprs.hits : ∀ (es : Exprs) {i : Nat}, i ∈ es.atoms → ∃ ns, es.part ns ∧ i ∈ ns
  | .nil, _, m => by cases m
  | .cons e es, _, m => by
    rcases List.mem_append.mp m with m | m
    · obtain ⟨n, p, q⟩ := e.hits m
      exact ⟨n, .inl p, q⟩
    · obtain ⟨n, p⟩ := e.any .truthy
      obtain ⟨k, q, r⟩ := es.hits m
      exact ⟨n ++ k, .inr ⟨n, k, rfl, ⟨_, p⟩, q⟩, List.mem_append_right _ r⟩

end

theorem Decs.hits : ∀ (ds : Decs) {i : Nat}, i ∈ ds.atoms → ∃ ns, ds.part ns ∧ i ∈ ns
  | .nil, _, m => by cases m
  | .bare _ e ds, _, m => by
    rcases List.mem_append.mp m with m | m
    · obtain ⟨n, p, q⟩ := e.hits m
      exact ⟨n, .inl p, q⟩
    · obtain ⟨n, p⟩ := e.any .truthy
      obtain ⟨k, q, r⟩ := ds.hits m
      exact ⟨n ++ k, .inr ⟨n, k, rfl, ⟨_, p⟩, q⟩, List.mem_append_right _ r⟩
  | .init _ e v ds, _, m => by
    rcases List.mem_append.mp m with m | m
    · rcases List.mem_append.mp m with m | m
      · obtain ⟨n, p, q⟩ := e.hits m
        exact ⟨n, .inl p, q⟩
      · obtain ⟨n, p⟩ := e.any .truthy
        obtain ⟨k, q, r⟩ := v.hits m
        exact ⟨n ++ k, .inr (.inl ⟨n, k, rfl, ⟨_, p⟩, q⟩), List.mem_append_right _ r⟩
    · obtain ⟨n, p⟩ := e.any .truthy
      obtain ⟨n', p'⟩ := v.any .truthy
      obtain ⟨k, q, r⟩ := ds.hits m
      exact ⟨n ++ n' ++ k, .inr (.inr ⟨n, n', k, rfl, ⟨_, p⟩, ⟨_, p'⟩, q⟩), List.mem_append_right _ r⟩

theorem Init.hits : ∀ (a : Init) {i : Nat}, i ∈ a.atoms → ∃ ns, a.part ns ∧ i ∈ ns
  | .none, _, m => by cases m
  | .expr e, _, m => e.hits m
  | .var _ ds, _, m => ds.hits m

theorem Opt.hits : ∀ (u : Option Expr) {i : Nat}, i ∈ Opt.atoms u → ∃ ns, Opt.part u ns ∧ i ∈ ns
  | none, _, m => by cases m
  | some e, _, m => e.hits m

mutual

theorem Stmt.hits : ∀ (s : Stmt) {i : Nat}, i ∈ s.atoms → ∃ ns, s.part ns ∧ i ∈ ns
  | .expr _ e, _, m => e.hits m
  | .var _ ds, _, m => ds.hits m
  | .block _ ss, _, m => ss.hits m
  | .ifThen _ t c, _, m => by
    rcases List.mem_append.mp m with m | m
    · obtain ⟨n, p, q⟩ := t.hits m
      exact ⟨n, .inl p, q⟩
    · obtain ⟨n, p⟩ := t.any .truthy
      obtain ⟨k, q, r⟩ := c.hits m
      exact ⟨n ++ k, .inr ⟨n, k, rfl, p, q⟩, List.mem_append_right _ r⟩
  | .ifElse _ t c a, _, m => by
    rcases List.mem_append.mp m with m | m
    · rcases List.mem_append.mp m with m | m
      · obtain ⟨n, p, q⟩ := t.hits m
        exact ⟨n, .inl p, q⟩
      · obtain ⟨n, p⟩ := t.any .truthy
        obtain ⟨k, q, r⟩ := c.hits m
        exact ⟨n ++ k, .inr ⟨n, k, rfl, .inl ⟨p, q⟩⟩, List.mem_append_right _ r⟩
    · obtain ⟨n, p⟩ := t.any .falsy
      obtain ⟨k, q, r⟩ := a.hits m
      exact ⟨n ++ k, .inr ⟨n, k, rfl, .inr ⟨⟨_, by simp, p⟩, q⟩⟩, List.mem_append_right _ r⟩
  | .while _ t b, _, m => by
    rcases List.mem_append.mp m with m | m
    · obtain ⟨n, p, q⟩ := t.hits m
      exact ⟨n, LoopPart.test p, q⟩
    · obtain ⟨n, p⟩ := t.any .truthy
      obtain ⟨k, q, r⟩ := b.hits m
      exact ⟨n ++ k, LoopPart.body p q, List.mem_append_right _ r⟩
  | .doWhile _ b t, _, m => by
    rcases List.mem_append.mp m with m | m
    · obtain ⟨n, p, q⟩ := b.hits m
      exact ⟨n, DoLoopPart.body p, q⟩
    · obtain ⟨n, p⟩ := b.any
      obtain ⟨k, q, r⟩ := t.hits m
      exact ⟨n ++ k, DoLoopPart.test p q, List.mem_append_right _ r⟩
  | .for _ a t u b, _, m => by
    obtain ⟨n1, p1⟩ := a.any
    obtain ⟨n2, p2⟩ := t.any .truthy
    rcases List.mem_append.mp m with m | m
    · rcases List.mem_append.mp m with m | m
      · rcases List.mem_append.mp m with m | m
        · obtain ⟨n, p, q⟩ := a.hits m
          exact ⟨n, .inl p, q⟩
        · obtain ⟨k, q, r⟩ := t.hits m
          exact ⟨n1 ++ k, .inr ⟨n1, k, rfl, p1, .test q⟩, List.mem_append_right _ r⟩
      · obtain ⟨n3, p3⟩ := b.any
        obtain ⟨k, q, r⟩ := Opt.hits u m
        exact ⟨n1 ++ (n2 ++ (n3 ++ k)), .inr ⟨n1, _, rfl, p1, .body p2 (.inr ⟨n3, k, rfl, p3, q⟩)⟩, by simp [r]⟩
    · obtain ⟨k, q, r⟩ := b.hits m
      exact ⟨n1 ++ (n2 ++ k), .inr ⟨n1, _, rfl, p1, .body p2 (.inl q)⟩, by simp [r]⟩
  | .each _ a e b, _, m => by
    obtain ⟨n1, p1⟩ := a.any
    obtain ⟨n2, p2⟩ := e.any .truthy
    rcases List.mem_append.mp m with m | m
    · rcases List.mem_append.mp m with m | m
      · obtain ⟨k, q, r⟩ := a.hits m
        exact ⟨n2 ++ k, .inr ⟨n2, k, rfl, ⟨_, p2⟩, .target q⟩, List.mem_append_right _ r⟩
      · obtain ⟨n, p, q⟩ := e.hits m
        exact ⟨n, .inl p, q⟩
    · obtain ⟨k, q, r⟩ := b.hits m
      exact ⟨n2 ++ (n1 ++ k), .inr ⟨n2, _, rfl, ⟨_, p2⟩, .body p1 q⟩, by simp [r]⟩

theorem Stmts.hits : ∀ (ss : Stmts) {i : Nat}, i ∈ ss.atoms → ∃ ns, ss.part ns ∧ i ∈ ns
  | .nil, _, m => by cases m
  | .cons s ss, _, m => by
    rcases List.mem_append.mp m with m | m
    · obtain ⟨n, p, q⟩ := s.hits m
      exact ⟨n, .inl p, q⟩
    · obtain ⟨n, p⟩ := s.any
      obtain ⟨k, q, r⟩ := ss.hits m
      exact ⟨n ++ k, .inr ⟨n, k, rfl, p, q⟩, List.mem_append_right _ r⟩

end

theorem mem_vis {i : Nat} : ∀ {l : List Node}, i ∈ vis l → .atom i ∈ l
  | .atom j :: r, m => by
    rcases List.mem_cons.mp m with rfl | m
    · exact List.mem_cons_self
    · exact List.mem_cons_of_mem _ (mem_vis m)
  | .enter _ :: r, m => List.mem_cons_of_mem _ (mem_vis (l := r) m)
  | .exit _ :: r, m => List.mem_cons_of_mem _ (mem_vis (l := r) m)

theorem Walk.holds {h : Heap} {a x : Nat} {w : List Nat} (k : Walk h a w x) {i : Nat} (m : i ∈ w) : ∃ y v, Walk h a v y ∧ .atom i ∈ (h.blk y).nodes := by
  induction k with
  | one => exact ⟨_, _, .one, mem_vis m⟩
  | step k d e ih =>
    rcases List.mem_append.mp m with m | m
    · exact ih m
    · exact ⟨_, _, k.step d e, mem_vis m⟩

/-- Every atom of the program is in a block that can be reached from the head, the end of the program is in such a block, and no
edge of the graph is marked as dead.  Partial for the same reason as `every_run_is_a_path_partial`. -/
theorem all_code_is_reachable_partial {ω : Order} (fair : ω.Fair) (id : Nat) (ss : Stmts) (o : ss.ok = true) :
    ∃ h, analyse ω id ss = some h ∧ (∀ i ∈ ss.atoms, ∃ x w, Walk h headBlock w x ∧ .atom i ∈ (h.blk x).nodes) ∧
      (∃ x w, Walk h headBlock w x ∧ .exit id ∈ (h.blk x).nodes) ∧ ∀ d, (h.edge d).tag.cut = false := by
  obtain ⟨h, e, a, b, _⟩ := analyse_ok fair id ss o
  refine ⟨h, e, ?_, ?_, (analyse_live e).cut⟩
  · intro i m
    obtain ⟨ns, p, q⟩ := ss.hits m
    obtain ⟨x, w, k, t⟩ := b ns p
    exact k.holds (t.subset q)
  · obtain ⟨ns, p⟩ := ss.any
    obtain ⟨x, k, m⟩ := a ns p
    exact ⟨x, ns, k, m⟩

example : sample.atoms = [1, 2, 3, 4, 5, 6, 7, 8] ∧ sample.ok = true := by decide

example : loops.atoms = [1, 2, 3, 4, 5, 6, 7, 8, 9, 10] ∧ loops.ok = true := by decide

/-- Without a jump nothing is marked as dead, whatever the tests are and whatever order the maps are visited in. -/
theorem nothing_is_marked_dead_partial {ω : Order} {id : Nat} {ss : Stmts} {h : Heap} (e : analyse ω id ss = some h) :
    (∀ d, (h.edge d).tag.cut = false) ∧ ∀ b, h.isInCut b = false :=
  ⟨(analyse_live e).cut, (analyse_live e).isInCut⟩

example : ∃ h, analyse rev 0 nulTest = some h ∧ h.isInCut headBlock = false := by
  obtain ⟨h, e, k⟩ := of_check (ω := rev) (ss := nulTest) (fun h => !h.isInCut headBlock) (by decide +kernel)
  exact ⟨h, e, by simpa using k⟩

/-! ## The edges at a block (C51)

The full statement: in the graph of every program, an edge that leaves block `a` for block `b` is matched by an edge that comes
into `b` from `a`, and the other way round. -/

/-- Every edge recorded as coming into a block that can be reached leads to that block, and a path never meets a group.  Missing:
that the edge comes from the block where it starts, which is false (below), and the programs not modelled. -/
theorem incoming_edges_lead_to_their_block_partial {ω : Order} (fair : ω.Fair) (id : Nat) (ss : Stmts) (o : ss.ok = true) :
    ∃ h, analyse ω id ss = some h ∧ ∀ w x, Walk h headBlock w x →
      (h.blk x).kind ≠ .group ∧ (h.blk x).kind ≠ .none ∧ ∀ d ∈ h.emap (h.blk x).ins, (h.edge d).dst = some x := by
  obtain ⟨h, e, _, _, c⟩ := analyse_ok fair id ss o
  refine ⟨h, e, fun w x k => ?_⟩
  obtain ⟨n, i⟩ := c w x k
  refine ⟨?_, ?_, i⟩ <;> rcases n with n | n <;> simp [n]

example : ∃ h x w, analyse ord 0 sample = some h ∧ Walk h headBlock w x ∧ x ≠ headBlock ∧ h.emap (h.blk x).ins ≠ [] := by
  obtain ⟨h, e, k⟩ := of_check (ω := ord) (ss := sample)
    (fun h => (h.O headBlock).any fun d => match (h.edge d).dst with | some c => c != headBlock && h.emap (h.blk c).ins != [] | none => false) (by decide +kernel)
  obtain ⟨d, m, k⟩ := List.any_eq_true.mp k
  split at k
  · next c ec =>
    simp only [Bool.and_eq_true, bne_iff_ne] at k
    exact ⟨h, c, _, e, .step .one m ec, k.1, k.2⟩
  · cases k

/-- `a && b;` -/
def andStmt : Stmts := .cons (.expr 10 (.logic 11 .and (.atom 1) (.atom 2))) .nil

/-- In the graph of `a && b;` an edge leaves the first block for another, which has no incoming edge from the first block. -/
theorem edges_are_recorded_at_both_ends_violated : ∃ h d c, analyse ord 0 andStmt = some h ∧ d ∈ h.emap (h.blk headBlock).outs ∧ (h.edge d).dst = some c ∧
    ∀ e ∈ h.emap (h.blk c).ins, (h.edge e).src ≠ some headBlock := by
  obtain ⟨h, e, k⟩ := of_check (ω := ord) (ss := andStmt)
    (fun h => (h.O headBlock).any fun d => match (h.edge d).dst with | some c => (h.I c).all fun i => (h.edge i).src != some headBlock | none => false) (by decide +kernel)
  obtain ⟨d, m, k⟩ := List.any_eq_true.mp k
  split at k
  · next c ec =>
    refine ⟨h, d, c, e, m, ec, fun i mi => ?_⟩
    simpa using List.all_eq_true.mp k i mi
  · cases k

/-! ## The graphs the project's tests expect

`drawn` lists the blocks that can be reached, each with its nodes and, for every edge that leads on, the number of the block it
leads to (the place in the list), whether the test says `F`, `T` or `L`, in the order the edges were made. -/

/-- The blocks found from `todo`, in the order they are found. -/
def found (h : Heap) : Nat → List Nat → List Nat → List Nat
  | 0, seen, _ => seen
  | _ + 1, seen, [] => seen
  | n + 1, seen, b :: r => if b ∈ seen then found h n seen r else found h n (seen ++ [b]) (r ++ (h.O b).filterMap fun d => (h.edge d).dst)

def Tag.label (t : Tag) : String := (if t.t then "T" else "") ++ (if t.f then "F" else "") ++ (if t.loop then "L" else "")

def drawn (h : Heap) : List (List Node × List (Nat × String)) :=
  let bs := found h 100 [] [headBlock]
  bs.map fun b => ((h.blk b).nodes, (h.O b).filterMap fun d => (h.edge d).dst.map fun c => (bs.idxOf c, (h.edge d).tag.label))

/-- ctrlflow_test.go 50-76: `a && b`. -/
example : (analyse ord 0 andStmt).map drawn = some
    [([.enter 0, .enter 10, .enter 11, .atom 1], [(1, ""), (2, "F")]),
     ([.atom 2], [(2, "")]),
     ([.exit 11, .exit 10, .exit 0], [])] := by decide +kernel

/-- ctrlflow_test.go 78-107: `a && b || c`. -/
example : (analyse ord 0 (.cons (.expr 10 (.logic 11 .or (.logic 12 .and (.atom 1) (.atom 2)) (.atom 3))) .nil)).map drawn = some
    [([.enter 0, .enter 10, .enter 11, .enter 12, .atom 1], [(1, ""), (2, "F")]),
     ([.atom 2, .exit 12], [(2, ""), (3, "T")]),
     ([.atom 3], [(3, "")]),
     ([.exit 11, .exit 10, .exit 0], [])] := by decide +kernel

/-- ctrlflow_test.go 109-138: `a; if (b) c; else d; e;`. -/
example : (analyse ord 0 (.cons (.expr 10 (.atom 1)) (.cons (.ifElse 11 (.atom 2) (.expr 12 (.atom 3)) (.expr 13 (.atom 4))) (.cons (.expr 14 (.atom 5)) .nil)))).map drawn = some
    [([.enter 0, .enter 10, .atom 1, .exit 10, .enter 11, .atom 2], [(1, ""), (2, "F")]),
     ([.enter 12, .atom 3, .exit 12], [(3, "")]),
     ([.enter 13, .atom 4, .exit 13], [(3, "")]),
     ([.exit 11, .enter 14, .atom 5, .exit 14, .exit 0], [])] := by decide +kernel

/-- ctrlflow_test.go 641-676: `while(a || b && c) { d }`. -/
example : (analyse ord 0 (.cons (.while 10 (.logic 11 .or (.atom 1) (.logic 12 .and (.atom 2) (.atom 3))) (.block 13 (.cons (.expr 14 (.atom 4)) .nil))) .nil)).map drawn = some
    [([.enter 0, .enter 10], [(1, "")]),
     ([.enter 11, .atom 1], [(2, ""), (3, "T")]),
     ([.enter 12, .atom 2], [(4, ""), (5, "F")]),
     ([.enter 13, .enter 14, .atom 4, .exit 14, .exit 13], [(1, "L")]),
     ([.atom 3, .exit 12, .exit 11], [(3, ""), (5, "F")]),
     ([.exit 10, .exit 0], [])] := by decide +kernel

/-- ctrlflow_test.go 325-355: `for (let b = 1; b < c; b++) { d; } e;`. -/
example : (analyse ord 0 (.cons (.for 10 (.var 11 (.init 12 (.atom 1) (.atom 2) .nil)) (.bin 13 (.atom 3) (.atom 4)) (some (.unary 14 (.atom 5)))
      (.block 15 (.cons (.expr 16 (.atom 6)) .nil))) (.cons (.expr 17 (.atom 7)) .nil))).map drawn = some
    [([.enter 0, .enter 10, .enter 11, .enter 12, .atom 1, .atom 2, .exit 12, .exit 11], [(1, "")]),
     ([.enter 13, .atom 3, .atom 4, .exit 13], [(2, ""), (3, "F")]),
     ([.enter 15, .enter 16, .atom 6, .exit 16, .exit 15, .enter 14, .atom 5, .exit 14], [(1, "L")]),
     ([.exit 10, .enter 17, .atom 7, .exit 17, .exit 0], [])] := by decide +kernel

/-- ctrlflow_test.go 421-454: `for (; b && c;) { d; } e;`. -/
example : (analyse ord 0 (.cons (.for 10 .none (.logic 11 .and (.atom 1) (.atom 2)) none (.block 12 (.cons (.expr 13 (.atom 3)) .nil))) (.cons (.expr 14 (.atom 4)) .nil))).map drawn = some
    [([.enter 0, .enter 10], [(1, "")]),
     ([.enter 11, .atom 1], [(2, ""), (3, "F")]),
     ([.atom 2, .exit 11], [(4, ""), (3, "F")]),
     ([.exit 10, .enter 14, .atom 4, .exit 14, .exit 0], []),
     ([.enter 12, .enter 13, .atom 3, .exit 13, .exit 12], [(1, "L")])] := by decide +kernel

/-- ctrlflow_test.go 822-850: `do { a } while(b || c)`. -/
example : (analyse ord 0 (.cons (.doWhile 10 (.block 11 (.cons (.expr 12 (.atom 1)) .nil)) (.logic 13 .or (.atom 2) (.atom 3))) .nil)).map drawn = some
    [([.enter 0, .enter 10], [(1, "")]),
     ([.enter 11, .enter 12, .atom 1, .exit 12, .exit 11, .enter 13, .atom 2], [(2, ""), (1, "TL")]),
     ([.atom 3, .exit 13], [(1, "L"), (3, "F")]),
     ([.exit 10, .exit 0], [])] := by decide +kernel

/-- ctrlflow_test.go 852-880: `do { a } while(b && c)`. -/
example : (analyse ord 0 (.cons (.doWhile 10 (.block 11 (.cons (.expr 12 (.atom 1)) .nil)) (.logic 13 .and (.atom 2) (.atom 3))) .nil)).map drawn = some
    [([.enter 0, .enter 10], [(1, "")]),
     ([.enter 11, .enter 12, .atom 1, .exit 12, .exit 11, .enter 13, .atom 2], [(2, ""), (3, "F")]),
     ([.atom 3, .exit 13], [(1, "L"), (3, "F")]),
     ([.exit 10, .exit 0], [])] := by decide +kernel

/-- ctrlflow_test.go 1418-1447: `for (let a in b) { c }`. -/
example : (analyse ord 0 (.cons (.each 10 (.var 11 (.bare 12 (.atom 1) .nil)) (.atom 2) (.block 13 (.cons (.expr 14 (.atom 3)) .nil))) .nil)).map drawn = some
    [([.enter 0, .enter 10], [(1, "")]),
     ([.enter 11, .enter 12, .atom 1, .exit 12, .exit 11, .atom 2], [(2, ""), (3, "F")]),
     ([.enter 13, .enter 14, .atom 3, .exit 14, .exit 13], [(1, "L")]),
     ([.exit 10, .exit 0], [])] := by decide +kernel

end Mole.Cfg
