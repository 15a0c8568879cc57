import Verif.Parser.PrivateLemmas

/-!
# C67: private names
-/
namespace Mole.Parser.Pvt
open Spec

/-- **C67**: a program is accepted exactly if every use of a private name lies in the body of a class that
declares it, anywhere in that body, and then every use is linked to the innermost such class. -/
theorem private_names (p : Items) : program (eventsAll p) = linksAll [] p := by
  have wf : WF start.heap := by
    intro i s hs
    match i, hs with
    | 0, hs => cases hs; exact ⟨nofun, fun _ => rfl⟩
  have hsee : ∀ H : List Scope, WF H → Ext start.heap H → H[0]? = some ⟨none, none, []⟩ → Sees H 0 [] := by
    intro H wH _ h0 n
    rw [L, B_eq wH n h0]
    rfl
  rw [program]
  rcases run_items p start wf (by simp [start]) with ⟨hr, _, hf⟩ | ⟨new, us, hr, wf', h⟩
  · rw [hr]; exact (hf [] fun _ => rfl).symm
  · rw [hr]
    simp only
    have e : Ext start.heap (start.heap ++ new) := by
      intro i x hx
      exact ⟨x, by
        rw [List.getElem?_append_left (List.getElem?_eq_some_iff.mp hx).1]
        exact hx, rfl, rfl⟩
    refine h _ [] wf' ?_ e (hsee _ wf' e rfl)
    intro i s hs
    rw [List.getElem?_append_right (by omega)]
    simpa using hs

/-- `class 1 { a() { o.#5; class 2 extends (o.#5) { #5; [o.#5]; } } #5; }`: the use in the inner class means
the inner class, the others, also the one in its `extends` clause, the outer one. -/
example : program (eventsAll (.cons (.cls 1 .nil (.cons (.cons (.scope (.cons (.use 10 5)
    (.cons (.cls 2 (.cons (.use 11 5) .nil) (.cons .nil (some 5) (.cons (.cons (.use 12 5) .nil) none .nil)))
      .nil))) .nil) none (.cons .nil (some 5) .nil))) .nil)) = some [(10, 1), (11, 1), (12, 2)] := by
  decide +kernel

/-- `class 1 {} o.#5` and `class 1 { a() { o.#5 } #6; }` are rejected. -/
example : program (eventsAll (.cons (.cls 1 .nil (.cons .nil (some 5) .nil)) (.cons (.use 10 5) .nil))) = none ∧
    program (eventsAll (.cons (.cls 1 .nil (.cons (.cons (.use 10 5) .nil) none (.cons .nil (some 6) .nil)))
      .nil)) = none := by decide +kernel

end Mole.Parser.Pvt
