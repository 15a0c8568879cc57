import Verif.Span.Props
/-!
# The character stream the lexer's scanners see

The scanners of `ecma/parser/lexer.go` use the source only through `Peek`, `Read`,
`AdvanceIf`, `Ahead2nd`, `AheadIsCh*` and `AheadIsEOF`.  Their models work on the list of code
points left.  The theorems below connect these list operations with the byte-level model of
`span/source.go` (`Verif.Span.Model`): each commutes with decoding.
-/
namespace Mole.Lexer

/-- span/source.go:143-156 `Read` on code points: CR LF is one LF, CR is LF. -/
def rd : List Nat → Option Nat × List Nat
  | [] => (none, [])
  | c :: t =>
    if c = 0x0d then
      match t with
      | [] => (some 0x0a, [])
      | d :: t' => if d = 0x0a then (some 0x0a, t') else (some 0x0a, d :: t')
    else (some c, t)

/-- span/source.go:116-124 `Ahead2nd` on code points. -/
def ahead2nd (s : List Nat) : Option Nat := s.tail.head?

/-- span/source.go:175-177 `IsLineTerminator`. -/
def isLT (c : Nat) : Bool := c == 0x0a || c == 0x0d || c == 0x2028 || c == 0x2029

/-- lexer.go:1276-1281 `readLineTerm`: `Read` has already joined CR LF and never returns CR,
so the `AdvanceIf` of the code is dead. -/
def readLineTerm (s : List Nat) : List Nat := (rd s).2

theorem rd_cons {c : Nat} (h : c ≠ 0x0d) (t : List Nat) : rd (c :: t) = (some c, t) := by
  simp [rd, h]

theorem rd_length (s : List Nat) : (rd s).2.length ≤ s.length := by
  cases s with
  | nil => simp [rd]
  | cons c t =>
    simp only [rd]
    split
    · cases t with
      | nil => simp
      | cons d t' => simp only; split <;> simp <;> omega
    · simp

theorem rd_length_lt {s : List Nat} (h : s ≠ []) : (rd s).2.length < s.length := by
  cases s with
  | nil => exact absurd rfl h
  | cons c t =>
    simp only [rd]
    split
    · cases t with
      | nil => simp
      | cons d t' => simp only; split <;> simp <;> omega
    · simp

open Mole.Span in
/-- `Peek` on bytes is the first code point. -/
theorem peek_runes (st : State) : st.peek = (decodeAll st.rest).head? := peek_eq st

open Mole.Span in
/-- `Read` on bytes is `rd` on code points. -/
theorem read_runes (st : State) :
    (st.read).1 = (rd (decodeAll st.rest)).1 ∧
    decodeAll (st.read).2.rest = (rd (decodeAll st.rest)).2 := by
  cases h : decodeAll st.rest with
  | nil =>
    have hr : st.rest = [] := decodeAll_eq_nil.1 h
    rw [read_eof st hr]
    simp [rd, h]
  | cons r rs =>
    obtain ⟨h1, h2⟩ := read_decode st r rs h
    rw [h1, h2]
    by_cases hr : r = 0x0d
    · subst hr
      cases rs with
      | nil => simp [rd]
      | cons d t => by_cases hd : d = 0x0a <;> simp [rd, hd]
    · simp [rd, hr]

open Mole.Span in
/-- `Ahead2nd` on bytes is `ahead2nd` on code points. -/
theorem ahead2nd_runes (st : State) : st.ahead2nd = ahead2nd (decodeAll st.rest) := by
  rw [(lookahead_predicts st).2.1, ahead2nd]
  cases decodeAll st.rest with
  | nil => rfl
  | cons a t => cases t <;> rfl

open Mole.Span in
/-- `AheadIsEOF` on a source reached by calls is emptiness of the code points left. -/
theorem aheadIsEOF_runes (code : Bytes) (ops : List Op) (s : Source)
    (h : (newSource code).run ops = some s) :
    s.aheadIsEOF = (decodeAll s.state.rest).isEmpty := by
  rw [Bool.eq_iff_iff, (source_position code ops s h).2.2, List.isEmpty_iff, decodeAll_eq_nil]

end Mole.Lexer
