import Verif.Parser.RetsLemmas

/-! # C85: a function is given its own return statements, and a throw statement the try statement that it is in -/

namespace Mole.Parser.Rets

/-- The full statement.  If each return statement is in a function, the program is accepted, `Rets()` of each function gives its own return
statements in the order of the source, and `Target()` of each throw statement the innermost try statement of the same function whose block
it is in, or the program.  Otherwise an error is reported. -/
def Recorded (p : Items) : Prop :=
  (legal false p = true → ∃ s, parse p = .ok s ∧ s.rets = fns p ∧ s.targets = throws none p) ∧
  (legal false p = false → parse p = .err)

/-- **C85, partial.**  For return statements.  Missing: programs with a call of `async`, and with a return statement in a static block. -/
theorem returns_partial (p : Items) (h : calm false p = true) :
    (legal false p = true → ∃ s, parse p = .ok s ∧ s.rets = fns p) ∧ (legal false p = false → parse p = .err) := by
  have hr := items_run p false false {} h ⟨false, [], rfl, fun _ => ⟨rfl, nofun⟩⟩
  constructor
  · intro hl
    rw [hl] at hr
    exact ⟨_, hr, rfl⟩
  · intro hl
    rw [hl] at hr
    exact hr

/-- **C85, partial.**  Missing besides: programs with a throw statement that is in no try block of its function, but its function is in one. -/
theorem recorded_partial (p : Items) (h : calm false p = true) (hn : near false false p = true) : Recorded p := by
  have hr := items_run p false false {} h ⟨false, [], rfl, fun _ => ⟨rfl, nofun⟩⟩
  constructor
  · intro hl
    rw [hl] at hr
    refine ⟨_, hr, rfl, ?_⟩
    exact any_throws p false false none none hn rfl nofun (fun _ => rfl)
  · intro hl
    rw [hl] at hr
    exact hr

/-- **C85, partial.**  Nothing is left on the stacks. -/
theorem stacks_partial (p : Items) (h : calm false p = true) (s : St) (hp : parse p = .ok s) :
    s.scopes = [false] ∧ s.frames = [] ∧ s.tries = [] := by
  have hr := items_run p false false {} h ⟨false, [], rfl, fun _ => ⟨rfl, nofun⟩⟩
  unfold parse at hp
  rw [hp] at hr
  cases hl : legal false p with
  | false => rw [hl] at hr; cases hr
  | true =>
    rw [hl] at hr
    cases hr
    exact ⟨rfl, rfl, rfl⟩

/-! ## Programs -/

def list : List Item → Items
  | [] => .nil
  | i :: l => .cons i (list l)

/-- `function f(a = () => { return }) { try { if (a) { return function() { return; throw a } } throw b } catch (e) { throw c }
class A { static { throw d } m() { return } } return }`. -/
def sample : Items :=
  list [.fn 0 .nil (list [.fn 1 .nil (list [.ret 10 .nil]),
    .try_ 20 (list [.block (list [.ret 11 (list [.fn 2 .nil (list [.ret 12 .nil])])]), .thr 30 .nil]) .nil (list [.thr 31 .nil]) .nil,
    .cls (list [.block (list [.thr 32 .nil]), .fn 3 .nil (list [.ret 13 .nil])]), .ret 14 .nil])]

/-- The hypotheses are met, and this is what is said. -/
example : calm false sample = true ∧ near false false sample = true ∧ legal false sample = true ∧
    ∃ s, parse sample = .ok s ∧ s.rets = [(1, [10]), (2, [12]), (3, [13]), (0, [11, 14])] ∧
      s.targets = [(30, some 20), (31, none), (32, none)] := by
  refine ⟨rfl, rfl, rfl, ?_⟩
  obtain ⟨s, h1, h2, h3⟩ := (recorded_partial sample rfl rfl).1 rfl
  exact ⟨s, h1, h2, h3⟩

/-- `{ return }` is an error. -/
example : calm false (list [.block (list [.ret 0 .nil])]) = true ∧ parse (list [.block (list [.ret 0 .nil])]) = .err :=
  ⟨rfl, (returns_partial _ rfl).2 rfl⟩

theorem not_recorded {p : Items} {s : St} (h : parse p = .ok s) (hl : legal false p = true)
    (hn : s.rets ≠ fns p ∨ s.targets ≠ throws none p) : ¬Recorded p := by
  intro hR
  obtain ⟨s', h1, h2, h3⟩ := hR.1 hl
  rw [h] at h1
  cases h1
  exact hn.elim (fun h => h h2) (fun h => h h3)

theorem not_recorded' {p : Items} {o : Out} (h : parse p = o) (ho : o ≠ .err) (hl : legal false p = false) : ¬Recorded p :=
  fun hR => ho (h ▸ hR.2 hl)

/-- **C85, violated.**  `function g() { function f() { return 1; async(x) } return 2 }`: `f` is said to have no return statement, and `g` to
have both. -/
theorem async_violated :
    let p := list [.fn 0 .nil (list [.fn 1 .nil (list [.ret 10 .nil, .async .nil]), .ret 11 .nil])]
    ¬Recorded p ∧ ∃ s, parse p = .ok s ∧ s.rets = [(1, []), (0, [10, 11])] := by
  have h : parse (list [.fn 0 .nil (list [.fn 1 .nil (list [.ret 10 .nil, .async .nil]), .ret 11 .nil])]) =
      .ok { scopes := [true, false], frames := [[]], rets := [(1, []), (0, [10, 11])] } := rfl
  exact ⟨not_recorded h rfl (.inl (by decide)), _, h, rfl⟩

/-- **C85, violated.**  `function f() { class A { static { return } } }`: it is accepted, and `f` is said to have a return statement. -/
theorem static_violated :
    let p := list [.fn 0 .nil (list [.cls (list [.block (list [.ret 10 .nil])])])]
    ¬Recorded p ∧ ∃ s, parse p = .ok s ∧ s.rets = [(0, [10])] := by
  have h : parse (list [.fn 0 .nil (list [.cls (list [.block (list [.ret 10 .nil])])])]) = .ok { rets := [(0, [10])] } := rfl
  exact ⟨not_recorded' h nofun rfl, _, h, rfl⟩

/-- **C85, violated.**  `class A { static { return } }` is a panic. -/
theorem static_panic_violated :
    let p := list [.cls (list [.block (list [.ret 10 .nil])])]
    ¬Recorded p ∧ parse p = .panic := by
  have h : parse (list [.cls (list [.block (list [.ret 10 .nil])])]) = .panic := rfl
  exact ⟨not_recorded' h nofun rfl, h⟩

/-- **C85, violated.**  `try { f(() => { throw 1 }) } catch {}`: the target is the try statement, though the function may be called later. -/
theorem throw_violated :
    let p := list [.try_ 20 (list [.fn 0 .nil (list [.thr 30 .nil])]) .nil .nil .nil]
    ¬Recorded p ∧ ∃ s, parse p = .ok s ∧ s.targets = [(30, some 20)] := by
  have h : parse (list [.try_ 20 (list [.fn 0 .nil (list [.thr 30 .nil])]) .nil .nil .nil]) =
      .ok { rets := [(0, [])], targets := [(30, some 20)] } := rfl
  exact ⟨not_recorded h rfl (.inr (by decide)), _, h, rfl⟩

end Mole.Parser.Rets
