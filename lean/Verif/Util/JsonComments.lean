import Verif.Span.Model
/-!
# Model of `RemoveJsonComments` (util/str.go:14-136)

The text is a list of code points.  `0xFFFD` stands for every result of
`utf8.DecodeRuneInString` that the code takes for ill-formed (`RuneError` with positive width;
a literal U+FFFD is indistinguishable from an ill-formed byte there).  `none` is the error
"deformed json".
-/
namespace Mole.Util.Json

/-- util/str.go:17-21: the scanner states. -/
inductive St where
  | normal | str | line | block
  deriving DecidableEq, Repr

/-- util/str.go:33-46 `peekNoWhite`; `none` stands for `RuneError` and the end of the text. -/
def peekNoWhite : List Nat → Option Nat
  | [] => none
  | r :: t => if r = 0xFFFD then none else if Mole.Span.isSpace r then peekNoWhite t else some r

/-- util/str.go:60-133: one iteration on the character `r` with the rest `t`.  Result: the
characters written, whether a second character is consumed, the new state and the new `pr`. -/
def step (st : St) (pr r : Nat) (t : List Nat) : List Nat × Bool × St × Nat :=
  let fall : St → List Nat × Bool × St × Nat := fun st =>  -- lines 124-133
    match st with
    | .normal | .str => ([r], false, st, r)
    | .line => ([32], false, st, r)
    | .block => (if r = 13 ∨ r = 10 then [10, 32] else [32], false, st, r)
  if r = 34 then -- lines 61-66
    fall (if st = .normal then .str else if st = .str ∧ pr ≠ 92 then .normal else st)
  else if r = 47 ∧ st = .normal then -- lines 67-82
    if t.head? = some 47 then ([32, 32], true, .line, pr)
    else if t.head? = some 42 then ([32, 32], true, .block, pr)
    else fall st
  else if r = 13 ∧ st = .line then ([10], t.head? = some 10, .normal, pr) -- lines 83-93
  else if r = 10 ∧ st = .line then ([10], false, .normal, pr) -- lines 94-100
  else if r = 42 ∧ st = .block ∧ t.head? = some 47 then ([32, 32], true, .normal, pr) -- 101-112
  else if r = 44 ∧ st = .normal ∧ (peekNoWhite t = some 125 ∨ peekNoWhite t = some 93) then
    ([32], false, .normal, pr) -- lines 113-121
  else fall st

/-- util/str.go:54-135: the loop. -/
def loop (st : St) (pr : Nat) : List Nat → Option (List Nat)
  | [] => some []
  | r :: t =>
    if r = 0xFFFD then none
    else
      match step st pr r t with
      | (out, true, st', pr') =>
        match t with
        | [] => some out
        | _ :: t' => (loop st' pr' t').map (out ++ ·)
      | (out, false, st', pr') => (loop st' pr' t).map (out ++ ·)

/-- util/str.go:14 `RemoveJsonComments`. -/
def removeJsonComments (l : List Nat) : Option (List Nat) := loop .normal 0xFFFD l

end Mole.Util.Json
