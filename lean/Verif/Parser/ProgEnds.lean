import Verif.Parser.ProgEndsS
import Verif.Parser.ProgAccounts

/-! # Parsing ends, and the calls are not deeper than the program is long (C78) -/

namespace Mole.Parser.Prog

theorem recFrom_add (o : Chk) (r0 : Rec) (m : Nat) : ∀ n, recFrom o r0 (m + n) = recFrom o (recFrom o r0 m) n
  | 0 => rfl
  | n + 1 => by
    change build o (recFrom o r0 (m + n)) = build o _
    rw [recFrom_add o r0 m n]

theorem recFrom_none (o : Chk) : ∀ n, recFrom o Rec.none n = rec_ o n
  | 0 => rfl
  | n + 1 => by
    change build o _ = build o _
    rw [recFrom_none o n]

theorem prog_at (o : Chk) (ts : List Tok) (r0 : Rec) (n : Nat) (h : 16 * ts.length + 7 ≤ n) : progFrom o r0 n ts = prog o n ts := by
  exact ((e_call ((rec_e (16 * ts.length + 7 ≤ n) o r0 n).stmts false (start ts) id)
    (fun _ _ hs => e_pure (P := 16 * ts.length + 7 ≤ n) hs)).1 h).symm

/-- For every list of tokens and all answers to the checks of names, there is one outcome: all the parsers whose calls may be more than
sixteen times as deep as the list is long come to it, whatever they would do at greater depths. -/
theorem program_ends (o : Chk) (ts : List Tok) :
    ∃ out, ∀ (r0 : Rec) (depth : Nat), 16 * ts.length + 7 ≤ depth → progFrom o r0 depth ts = out := by
  refine ⟨prog o (16 * ts.length + 7) ts, ?_⟩
  intro r0 n h
  obtain ⟨m, rfl⟩ := Nat.exists_eq_add_of_le' h
  unfold progFrom
  rw [recFrom_add o r0 m]
  exact prog_at o ts (recFrom o r0 m) _ (Nat.le_refl _)

/-- The parser of the model of C76 and C77 comes to it. -/
theorem program_depth (o : Chk) (ts : List Tok) (r0 : Rec) (fuel depth : Nat)
    (h : 16 * ts.length + 7 ≤ fuel) (h' : 16 * ts.length + 7 ≤ depth) : prog o fuel ts = progFrom o r0 depth ts := by
  obtain ⟨out, hout⟩ := program_ends o ts
  have e : prog o fuel ts = progFrom o Rec.none fuel ts := by
    unfold prog progFrom
    rw [recFrom_none]
  rw [e, hout _ _ h, hout _ _ h']

theorem tree_at : tree (prog yes (16 * (line sample).length + 7) (line sample)) = some sampleTree := by rfl

/-- All kinds of statements: whatever is called when the supply is used up, the tree is found. -/
example (r0 : Rec) : 15 < sample.length ∧ ∀ depth, 16 * (line sample).length + 7 ≤ depth →
    tree (progFrom yes r0 depth (line sample)) = some sampleTree :=
  ⟨by decide, fun depth h => (congrArg tree (program_depth yes _ r0 _ depth (Nat.le_refl _) h)).symm.trans tree_at⟩

/-- If the supply is not enough, it does matter what is called. -/
example : ∃ r0, (tree (progFrom yes Rec.none 1 (line [.pu .semi]))).isSome = false ∧
    (tree (progFrom yes r0 1 (line [.pu .semi]))).isSome = true :=
  ⟨{ Rec.none with stmt := next >>= fun _ => pure .empty, stmts := fun _ => pure [] }, by decide +kernel⟩

end Mole.Parser.Prog
