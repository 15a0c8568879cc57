import Verif.Parser.LessLemmas
/-!
# `<` in TypeScript: lemmas on type arguments
-/
namespace Mole.Parser.Less

theorem suffix_end {f q t u r} (h : u ≠ .lb) : suffix (f + 1) q t (u :: r) = .ok t (u :: r) q := by
  cases u <;> first | (exact absurd rfl h) | simp [suffix]

theorem members_show {u : Tok} (hu : ∀ n, u ≠ .mem false n) (rest : List Tok) : ∀ ms : List Nat,
    members (ms.map (.mem false) ++ u :: rest) = (ms, u :: rest)
  | [] => by
    cases u with
    | mem o n => cases o with
      | false => exact absurd rfl (hu n)
      | true => rfl
    | _ => rfl
  | m :: ms => by simp [members, members_show hu rest ms]

end Mole.Parser.Less
