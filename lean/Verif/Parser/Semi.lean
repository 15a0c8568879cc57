/-!
# C20: the ends of statements

ecma/parser/parser.go: `isExprOpening` 6428-6441, `advanceIfSemi` 6443-6453, and the statements that take an operand
only on the same line: `retStmt` 1896-1928, `throwStmt` 1865-1893, `brkStmt`/`contStmt` 1975-2051; the end
of `export default` expressions 520-525.  A token is its kind, as far as it matters, and whether a line
terminator precedes it.  `Peek` and `PeekStmtBegin` differ only in how a slash is read and are not told
apart.  The operand is read by a function `expr` that is left open.
-/
namespace Mole.Parser.Semi

/-- Kinds of token (token.go). -/
inductive K where
  | semi | braceR | comma | parenR | bracketR | colon | eof | illegal | name | other
  deriving DecidableEq, Repr

structure Tok where
  k : K
  nl : Bool := false  -- afterLineTerm
  deriving DecidableEq, Repr

/-- The token ahead; at the end of the list, the end of the file. -/
def peek : List Tok → Tok
  | [] => { k := .eof }
  | t :: _ => t

/-- parser.go:6428-6441 `isExprOpening`: whether it reports an error. -/
def isExprOpening (raise : Bool) (t : Tok) : Bool :=
  raise && t.k != .semi && t.k != .braceR && t.k != .comma && t.k != .parenR && t.k != .colon && !t.nl && t.k != .eof

/-- parser.go:6443-6453 `advanceIfSemi`: the tokens left, `none` for an error. -/
def advanceIfSemi (raise : Bool) (ts : List Tok) : Option (List Tok) :=
  if isExprOpening raise (peek ts) then none
  else if (peek ts).k = .semi then some ts.tail
  else some ts

/-- parser.go:1896-1918 `retStmt` up to the check that it is in a function: whether there is an operand, and the tokens
left. -/
def retStmt (expr : List Tok → Option (List Tok)) (ts : List Tok) : Option (Bool × List Tok) :=
  let t := peek ts
  if t.k = .semi then (advanceIfSemi false ts.tail).map ((false, ·))
  else if t.k ≠ .illegal ∧ t.k ≠ .braceR ∧ t.k ≠ .parenR ∧ t.k ≠ .bracketR ∧ t.k ≠ .eof ∧ t.nl = false then
    match expr ts with
    | none => none
    | some ts' => (advanceIfSemi true ts').map ((true, ·))
  else (advanceIfSemi true ts).map ((false, ·))

/-- parser.go:1865-1885 `throwStmt`. -/
def throwStmt (expr : List Tok → Option (List Tok)) (ts : List Tok) : Option (List Tok) :=
  let t := peek ts
  if t.k ≠ .illegal ∧ t.k ≠ .eof ∧ t.nl = false then
    match expr ts with
    | none => none
    | some ts' => advanceIfSemi true ts'
  else none

/-- parser.go:1975-2000 `brkStmt`, 2015-2040 `contStmt`: whether a label is taken, and the tokens left. -/
def jumpStmt (ts : List Tok) : Option (Bool × List Tok) :=
  let t := peek ts
  if t.k = .name ∧ t.nl = false then (advanceIfSemi true ts.tail).map ((true, ·))
  else (advanceIfSemi true ts).map ((false, ·))

/-- parser.go:520-525, `export default` followed by an expression. -/
def exportDefault (expr : List Tok → Option (List Tok)) (ts : List Tok) : Option (List Tok) :=
  match expr ts with
  | none => none
  | some ts' => advanceIfSemi false ts'

/-- parser.go:1645-1663, the end of a class field with or without initialiser, read by `init`. -/
def fieldEnd (init : List Tok → Option (List Tok)) (ts : List Tok) : Option (List Tok) :=
  match init ts with
  | none => none
  | some ts' => advanceIfSemi false ts'

/-! ## Specification -/
namespace Spec

/-- ECMA-262 12.10: a statement may end before these tokens, leaving those. -/
inductive Ends : List Tok → List Tok → Prop
  | semi {t ts} : t.k = .semi → Ends (t :: ts) ts
  | brace {t ts} : t.k = .braceR → Ends (t :: ts) (t :: ts)
  | line {t ts} : t.k ≠ .semi → t.nl = true → Ends (t :: ts) (t :: ts)
  | eof {t ts} : t.k = .eof → Ends (t :: ts) (t :: ts)
  | empty : Ends [] []

/-- Tokens with which neither a statement can begin nor one can go on. -/
def stray (k : K) : Prop := k = .comma ∨ k = .parenR ∨ k = .colon

end Spec
open Spec

/-- **C20** (partial: unless the next token is a stray `,`, `)` or `:`, where it reports nothing, see
`comma_violated`; the statement that comes next does).  A terminator is accepted exactly if the language
allows the statement to end there, and exactly the semicolon is consumed. -/
theorem semi_iff_partial (ts rest : List Tok) (h : ¬ stray (peek ts).k) :
    advanceIfSemi true ts = some rest ↔ Ends ts rest := by
  cases ts with
  | nil =>
    simp only [advanceIfSemi, isExprOpening, peek]
    constructor
    · intro h; simp at h; subst h; exact .empty
    · intro h; cases h; rfl
  | cons t ts =>
    obtain ⟨k, nl⟩ := t
    simp only [peek, stray] at h
    simp only [advanceIfSemi, isExprOpening, peek, List.tail_cons]
    constructor
    · intro he
      cases k <;> cases nl <;> simp at he h
      all_goals subst he
      all_goals first
        | exact .semi rfl
        | exact .brace rfl
        | exact .eof rfl
        | exact .line (by simp) rfl
    · intro he
      cases he with
      | semi hk => simp only at hk; subst hk; simp
      | brace hk => simp only at hk; subst hk; simp
      | line h1 h2 => simp only at h1 h2; subst h2; simp [h1]
      | eof hk => simp only at hk; subst hk; simp

/-- Whatever comes next, a line terminator, brace or semicolon is enough, and nothing but a semicolon is
consumed. -/
theorem semi_sound (ts rest : List Tok) (h : advanceIfSemi true ts = some rest) :
    Ends ts rest ∨ (rest = ts ∧ stray (peek ts).k) := by
  by_cases hs : stray (peek ts).k
  · right
    refine ⟨?_, hs⟩
    unfold advanceIfSemi at h
    split at h
    · cases h
    · split at h
      · rename_i hk; rcases hs with e | e | e <;> rw [e] at hk <;> cases hk
      · cases h; rfl
  · exact .inl ((semi_iff_partial ts rest hs).1 h)

/-- **C20 is violated**: a statement may end before a comma. -/
theorem comma_violated : ¬ (∃ rest, Ends [{ k := .comma }] rest) ∧
    advanceIfSemi true [{ k := .comma }] = some [{ k := .comma }] := by
  refine ⟨?_, rfl⟩
  rintro ⟨_, h⟩
  cases h <;> contradiction

/-- **C20 is violated**: `export default a b` is read as two statements on one line. -/
theorem export_default_violated :
    let expr := fun ts : List Tok => some ts.tail
    ¬ (∃ rest, Ends [{ k := .name }] rest) ∧
    exportDefault expr [{ k := .name }, { k := .name }] = some [{ k := .name }] := by
  refine ⟨?_, rfl⟩
  rintro ⟨_, h⟩
  cases h <;> contradiction

/-- **C20 is violated**: `class A { a = 1 b = 2 }` is read as two fields on one line. -/
theorem field_end_violated :
    let init := fun ts : List Tok => some ts.tail
    ¬ (∃ rest, Ends [{ k := .name }] rest) ∧
    fieldEnd init [{ k := .name }, { k := .name }] = some [{ k := .name }] := by
  refine ⟨?_, rfl⟩
  rintro ⟨_, h⟩
  cases h <;> contradiction

/-- **C20 is violated**: `return;` also consumes the empty statement after it, so that
`if (x) return;; else y` is accepted. -/
theorem return_semis_violated (expr : List Tok → Option (List Tok)) :
    retStmt expr [{ k := .semi }, { k := .semi }, { k := .other }] = some (false, [{ k := .other }]) := rfl

/-- **C20, restricted productions.** After a line terminator `return` takes no operand: the statement ends
there and the next token is not touched. -/
theorem return_line (expr : List Tok → Option (List Tok)) (t : Tok) (ts : List Tok) (h : t.nl = true)
    (hk : t.k ≠ .semi) : retStmt expr (t :: ts) = some (false, t :: ts) := by
  simp [retStmt, peek, h, hk, advanceIfSemi, isExprOpening]

/-- `return` with an operand on the same line: exactly what reading the operand and ending the statement there
gives. -/
theorem return_operand (expr : List Tok → Option (List Tok)) (t : Tok) (ts : List Tok) (h : t.nl = false)
    (hk : t.k = .name ∨ t.k = .other) :
    retStmt expr (t :: ts) = (expr (t :: ts)).bind fun r => (advanceIfSemi true r).map ((true, ·)) := by
  have hns : (peek (t :: ts)).k ≠ .semi := by rcases hk with hk | hk <;> simp [peek, hk]
  have hno : (peek (t :: ts)).k ≠ .illegal ∧ (peek (t :: ts)).k ≠ .braceR ∧ (peek (t :: ts)).k ≠ .parenR ∧
      (peek (t :: ts)).k ≠ .bracketR ∧ (peek (t :: ts)).k ≠ .eof ∧ (peek (t :: ts)).nl = false := by
    rcases hk with hk | hk <;> simp [peek, hk, h]
  simp only [retStmt]
  rw [if_neg hns, if_pos hno]
  cases expr (t :: ts) <;> rfl

/-- **C20, restricted productions.** A line terminator after `throw` is an error. -/
theorem throw_line (expr : List Tok → Option (List Tok)) (t : Tok) (ts : List Tok) (h : t.nl = true) :
    throwStmt expr (t :: ts) = none := by
  simp [throwStmt, peek, h]

/-- `throw` with an operand on the same line: exactly what reading the operand and ending the statement there
gives. -/
theorem throw_operand (expr : List Tok → Option (List Tok)) (t : Tok) (ts : List Tok) (h : t.nl = false)
    (hk : t.k ≠ .illegal ∧ t.k ≠ .eof) :
    throwStmt expr (t :: ts) = (expr (t :: ts)).bind (advanceIfSemi true) := by
  simp only [throwStmt]
  rw [if_pos ⟨hk.1, hk.2, h⟩]
  cases expr (t :: ts) <;> rfl

example : throwStmt (fun ts => some ts.tail) [{ k := .name }, { k := .semi }, { k := .other }] =
    some [{ k := .other }] := rfl

/-- **C20, restricted productions.** `break` and `continue` take a label exactly when a name follows on the
same line; after a line terminator the name begins the next statement. -/
theorem jump_label (t : Tok) (ts rest : List Tok) (l : Bool) (h : jumpStmt (t :: ts) = some (l, rest)) :
    (l = true ↔ t.k = .name ∧ t.nl = false) ∧ (l = false → t.k ≠ .semi → rest = t :: ts) := by
  by_cases hc : (peek (t :: ts)).k = .name ∧ (peek (t :: ts)).nl = false
  · simp only [jumpStmt, if_pos hc] at h
    cases ha : advanceIfSemi true (t :: ts).tail with
    | none => rw [ha] at h; cases h
    | some r =>
      rw [ha] at h
      cases h
      exact ⟨⟨fun _ => hc, fun _ => rfl⟩, nofun⟩
  · simp only [jumpStmt, if_neg hc] at h
    cases ha : advanceIfSemi true (t :: ts) with
    | none => rw [ha] at h; cases h
    | some r =>
      rw [ha] at h
      cases h
      refine ⟨⟨nofun, fun hx => absurd hx hc⟩, fun _ hk => ?_⟩
      unfold advanceIfSemi at ha
      split at ha
      · cases ha
      · rw [if_neg (show ¬ (peek (t :: ts)).k = .semi from hk)] at ha; cases ha; rfl

/-- Non-vacuity: `break` newline `a`, and `break a;`. -/
example : jumpStmt [{ k := .name, nl := true }] = some (false, [{ k := .name, nl := true }]) ∧
    jumpStmt [{ k := .name }, { k := .semi }] = some (true, []) := ⟨rfl, rfl⟩
example : Ends [{ k := .other, nl := true }] [{ k := .other, nl := true }] ∧ ¬ stray K.other ∧
    advanceIfSemi true [{ k := .other }] = none := by
  refine ⟨.line (by simp) rfl, ?_, rfl⟩
  simp [stray]

end Mole.Parser.Semi
