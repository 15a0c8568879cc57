import Verif.Lexer.SlashLemmas
/-! # C74: a slash is read as a division after an operand and as a regular expression before one

Full statement: for every program and all calls by which the parser may read it, each slash becomes the token the language has there.
This is proved except for the slashes listed by `Misread`, which are read wrongly, and for calls which read on while the token taken
last is not the one read last. -/

namespace Mole.Lexer.Slash

/-- Where no statement begins, the token before decides rightly exactly if the pair is not listed. -/
theorem slash_after {w₀ t w} (h : Step w₀ t w) (hw : w = .operand ∨ w = .operator) :
    ((aheadIsRegexp false false t = true ↔ w = .operand) ↔ ¬ Misread t w) := by
  have := decide_step h hw
  simpa [aheadIsRegexp, not_illegal h, Right] using this

/-- `x = /re/` and `x / 2`. -/
example : Step .operator .assign .operand ∧ ¬ Misread .assign .operand ∧ aheadIsRegexp false false .assign = true :=
  ⟨.between rfl, by decide, by decide⟩
example : Step .stmt .name .operator ∧ ¬ Misread .name .operator ∧ aheadIsRegexp false false .name = false :=
  ⟨.atom (.inr rfl) rfl, by decide, by decide⟩

/-- Where a statement begins it is a regular expression, whatever comes before; in JSX and in type arguments never. -/
theorem slash_at_begin (p : T) (b : Bool) : aheadIsRegexp false true p = true ∧ aheadIsRegexp true b p = false := by
  simp [aheadIsRegexp]

/-- The tokens read are those of the program, as far as they are read. -/
theorem lex_partial {l : List (T × Bool)} {ops : List Op} {bs : List Bool} (hl : Program .illegal .stmt l)
    (hc : Calls 0 false ops bs) (hb : bs <+: l.map Prod.snd) :
    (run (start (l.map fun x => raw x.1)) ops).log = (l.take bs.length).map Prod.fst := by
  have := run_log hc (s := start (l.map fun x => raw x.1)) (p := .illegal) (w := .stmt) (rest := l)
    ⟨rfl, by simp [start], by simp [start], rfl, hl, .inl ⟨rfl, rfl⟩⟩ hb
  simpa [start] using this

/-- `a = b / c; /re/`: the calls read `a` as the beginning of a statement and look two tokens ahead, and so on. -/
def sample : List (T × Bool) :=
  [(.name, true), (.assign, false), (.name, false), (.div, false), (.name, false), (.semi, false), (.regexp, true)]

def sampleOps : List Op :=
  [.peekStmtBegin, .peekGrow, .next, .peek, .next, .peek2nd, .next, .next, .peek, .next, .next, .peekStmtBegin, .next]

example : Program .illegal .stmt sample :=
  .cons (.atom (.inr rfl) rfl) (by simp [slashed]) <| .cons (.between rfl) (by simp [slashed]) <|
  .cons (.atom (.inl rfl) rfl) (by simp [slashed]) <| .cons (.between rfl) (fun _ => by decide) <|
  .cons (.atom (.inl rfl) rfl) (by simp [slashed]) <| .cons (.semi (by simp) (.inl rfl)) (by simp [slashed]) <|
  .cons (.atom (.inr rfl) rfl) (fun _ => by decide) (.nil _ _)

example : Calls 0 false sampleOps (sample.map Prod.snd) :=
  .stmt0 <| .grow <| .next <| .peek <| .next1 <| .two0 <| .next <| .next1 <| .peek0 <| .next1 <| .next0 <| .stmt0 <| .next1 <|
  .nil _ _

example : (run (start (sample.map fun x => raw x.1)) sampleOps).log =
    [.name, .assign, .name, .div, .name, .semi, .regexp] := by decide +kernel

/-- The calls for a statement whose tokens are read one after the other. -/
def plain (n : Nat) : List Op := .peekStmtBegin :: List.replicate n .next

/-- `null / 2`, also `true` and `false`: a regular expression is read. -/
theorem literal_violated : Sentence .stmt [.null, .div, .num] ∧
    (run (start ([.null, .div, .num].map raw)) (plain 3)).log = [.null, .regexp, .num] :=
  ⟨.cons (.atom (.inr rfl) rfl) <| .cons (.between rfl) <| .cons (.atom (.inl rfl) rfl) (.nil _), by decide +kernel⟩

/-- A template divided by a number. -/
theorem template_violated : Sentence .stmt [.tplHead, .div, .num] ∧
    (run (start ([.tplHead, .div, .num].map raw)) (plain 3)).log = [.tplHead, .regexp, .num] :=
  ⟨.cons (.atom (.inr rfl) rfl) <| .cons (.between rfl) <| .cons (.atom (.inl rfl) rfl) (.nil _), by decide +kernel⟩

/-- A regular expression in the second place of a template. -/
theorem span_violated : Sentence .stmt [.tplHead, .name, .tplSpan, .regexp, .tplTail] ∧
    (run (start ([.tplHead, .name, .tplSpan, .regexp, .tplTail].map raw)) (plain 5)).log =
      [.tplHead, .name, .tplSpan, .div, .tplTail] :=
  ⟨.cons (.opening (.inr rfl) (by simp)) <| .cons (.atom (.inl rfl) rfl) <| .cons (.again (by simp)) <|
    .cons (.atom (.inl rfl) rfl) <| .cons .tail (.nil _), by decide +kernel⟩

/-- `typeof /re/`, also `void`, `delete`, `await` and `...`: a division is read. -/
theorem unary_violated : Sentence .stmt [.typeOf, .regexp] ∧
    (run (start ([.typeOf, .regexp].map raw)) (plain 2)).log = [.typeOf, .div] :=
  ⟨.cons (.before (.inr rfl) rfl) <| .cons (.atom (.inl rfl) rfl) (.nil _), by decide +kernel⟩

/-- `a.default / 2`, also other words: a regular expression is read. -/
theorem member_violated : Sentence .stmt [.name, .dot, .default, .div, .num] ∧
    (run (start ([.name, .dot, .default, .div, .num].map raw)) (plain 5)).log = [.name, .dot, .default, .regexp, .num] :=
  ⟨.cons (.atom (.inr rfl) rfl) <| .cons (.dot (.inl rfl)) <| .cons (.member (.inr (.inr rfl))) <| .cons (.between rfl) <|
    .cons (.atom (.inl rfl) rfl) (.nil _), by decide +kernel⟩

/-- `a in /re/`: the word `in` is a name to the lexer, and a division is read. -/
theorem in_violated : Sentence .stmt [.name, .name, .regexp] ∧
    (run (start ([.name, .name, .regexp].map raw)) (plain 3)).log = [.name, .name, .div] :=
  ⟨.cons (.atom (.inr rfl) rfl) <| .cons (.between rfl) <| .cons (.atom (.inl rfl) rfl) (.nil _), by decide +kernel⟩

/-- `if (a) {} /re/`: after the block the parser looks for `else` (parser.go 2178) without saying that a statement may begin, and a
division is read; the same after `catch` (parser.go 1849). -/
theorem after_if_violated : Sentence .stmt [.if_, .parenL, .name, .parenR, .braceL, .braceR, .regexp] ∧
    (run (start ([.if_, .parenL, .name, .parenR, .braceL, .braceR, .regexp].map raw))
      [.peekStmtBegin, .next, .next, .next, .next, .peekStmtBegin, .next, .peekStmtBegin, .next, .peek, .peekStmtBegin]).log =
      [.if_, .parenL, .name, .parenR, .braceL, .braceR, .div] :=
  ⟨.cons (.head (.inl rfl)) <| .cons .headOpen <| .cons (.atom (.inl rfl) rfl) <| .cons .headEnd <| .cons .block <|
    .cons (.blockEnd (.inl rfl)) <| .cons (.atom (.inr rfl) rfl) (.nil _), by decide +kernel⟩

/-- `x ? /re/ : y` as a statement of TypeScript: `aheadIsLabel` (parser.go 1931-1937) reads `?` ahead, then `x` is taken, and
`advanceIfHook` (parser.go 4180-4196) reads the slash as if it came after `x`. -/
theorem stale_violated : Sentence .stmt [.name, .hook, .regexp, .colon, .name] ∧
    (run (start ([.name, .hook, .regexp, .colon, .name].map raw)) [.peekStmtBegin, .peekGrow, .next, .peek, .peek2nd]).log =
      [.name, .hook, .div] :=
  ⟨.cons (.atom (.inr rfl) rfl) <| .cons (.between rfl) <| .cons (.atom (.inl rfl) rfl) <| .cons (.between rfl) <|
    .cons (.atom (.inl rfl) rfl) (.nil _), by decide +kernel⟩

end Mole.Lexer.Slash
