import Verif.Span.Utf8
/-!
# Properties C01–C04: source positions

See `Spec.lean` for the vocabulary (`decodeAll`, `normalize`, `lineOf`, `colOf`, `Balanced`).
-/
namespace Mole.Span

/-- A text with a multi-byte character, an ill-formed byte, CR LF, CR and white space, used
as the non-trivial instance below: `a é <0xFF> CR LF SP CR b`. -/
def sample : Bytes := [0x61, 0xC3, 0xA9, 0xFF, 0x0D, 0x0A, 0x20, 0x0D, 0x62]

/-- **C01.** The code points of a text, as used below, are those of the definition of UTF-8: every
encoded scalar value is delivered as itself, and every byte at which none begins as U+FFFD. -/
theorem decode_text (code : Bytes) (cs : List Nat) : decodeAll code = cs ↔ Decodes code cs :=
  (decodes_iff code cs).symm

example : Scalar 0x1F600 ∧ encode 0x1F600 = [0xF0, 0x9F, 0x98, 0x80] ∧
    decodeAll ([0xF0, 0x9F, 0x98, 0x80] ++ [0xED, 0xA0]) = [0x1F600, 0xFFFD, 0xFFFD] :=
  ⟨by unfold Scalar; omega, by decide, by decide⟩

/-- **C01.** Whatever calls were made: the unread text is the source from byte `Ofst()` on,
`Ofst()` is within the source, `Pos()` is the number of code points before it, the consumed
and the unread part decode to the code points of the whole, the same is true of every saved
state, and `AheadIsEOF()` tells whether anything is left. -/
theorem source_position (code : Bytes) (ops : List Op) (s : Source)
    (h : (newSource code).run ops = some s) :
    s.code = code ∧
    (∀ st, st = s.state ∨ st ∈ s.ss →
      st.rest = code.drop st.ofst ∧ st.ofst ≤ code.length ∧
      st.pos = (decodeAll (code.take st.ofst)).length ∧
      decodeAll code = decodeAll (code.take st.ofst) ++ decodeAll st.rest) ∧
    (s.aheadIsEOF = true ↔ s.state.rest = []) := by
  have h0 : Inv code (newSource code).state := ⟨by simp [newSource], .zero⟩
  obtain ⟨hc, hi, hss⟩ := run_inv ops (s := newSource code) (code := code) rfl h0
    (by simp [newSource]) h
  have key : ∀ st, Inv code st → st.rest = code.drop st.ofst ∧ st.ofst ≤ code.length ∧
      st.pos = (decodeAll (code.take st.ofst)).length ∧
      decodeAll code = decodeAll (code.take st.ofst) ++ decodeAll st.rest := by
    intro st ⟨i1, i2⟩
    obtain ⟨d1, d2⟩ := decodeAll_take_reach i2
    exact ⟨i1, i2.le, d1.symm, by rw [i1]; exact d2⟩
  refine ⟨hc, ?_, ?_⟩
  · rintro st (rfl | hst)
    · exact key _ hi
    · exact key _ (hss st hst)
  · obtain ⟨i1, i2⟩ := hi
    have := i2.le
    simp only [Source.aheadIsEOF, beq_iff_eq, hc, i1, List.drop_eq_nil_iff]
    omega

example : ∃ s, (newSource sample).run [.read, .push, .read, .skipSpace, .read, .read, .pop, .look,
    .read, .advanceIf (some runeError), .skipSpace, .read, .read] = some s ∧
    s.aheadIsEOF = true ∧ s.state.pos = 8 := ⟨_, rfl, by decide, by decide⟩

/-- **C01.** One `Read` delivers the next code point, with CR and CR LF delivered as LF, and
removes exactly those code points; at the end it delivers EOF and changes nothing. -/
theorem read_next (st : State) :
    (∀ r rs, decodeAll st.rest = r :: rs →
      st.read.1 = some (if r = 0x0d then 0x0a else r) ∧
      decodeAll st.read.2.rest = (if r = 0x0d ∧ rs.head? = some 0x0a then rs.tail else rs)) ∧
    (st.rest = [] → st.read = (none, st)) :=
  ⟨fun r rs h => read_decode st r rs h, read_eof st⟩

example : decodeAll sample = [0x61, 0xE9, 0xFFFD, 0x0D, 0x0A, 0x20, 0x0D, 0x62] := by decide

/-- Reading a reader to its end, `n` bounding the number of reads. -/
def readAll : Nat → State → List Nat
  | 0, _ => []
  | n + 1, st =>
    match st.read with
    | (none, _) => []
    | (some r, st') => r :: readAll n st'

/-- **C01.** Reading a source to its end delivers its code points with line breaks normalised,
each exactly once and in order. -/
theorem readAll_eq (code : Bytes) (n : Nat) (h : code.length ≤ n) :
    readAll n (newSource code).state = normalize (decodeAll code) := by
  suffices H : ∀ n st, st.rest.length ≤ n → readAll n st = normalize (decodeAll st.rest) from
    H n _ h
  intro n
  induction n with
  | zero =>
    intro st h
    have : st.rest = [] := List.length_eq_zero_iff.mp (by omega)
    simp [readAll, this, decodeAll_nil, normalize]
  | succ n ih =>
    intro st h
    match hd : decodeAll st.rest with
    | [] =>
      have := decodeAll_eq_nil.mp hd
      simp [readAll, read_eof st this, normalize]
    | r :: rs =>
      have hne : st.rest ≠ [] := by
        intro h; rw [h, decodeAll_nil] at hd; cases hd
      have hlt := read_length_lt st hne
      obtain ⟨r1, r2⟩ := read_decode st r rs hd
      have hih := ih st.read.2 (by omega)
      have hread : readAll (n+1) st = (if r = 0x0d then 0x0a else r) :: readAll n st.read.2 := by
        simp only [readAll]
        generalize st.read = q at *
        obtain ⟨q1, q2⟩ := q
        simp only at r1; subst r1; rfl
      rw [hread, hih, r2]
      by_cases hr : r = 0x0d
      · subst hr
        match rs with
        | [] => simp [normalize]
        | c :: cs =>
          by_cases hc : c = 0x0a
          · subst hc; simp [normalize]
          · simp [normalize, hc]
      · have : normalize (r :: rs) = r :: normalize rs := by
          rw [normalize] <;> simp_all
        simp [hr, this]

/-- **C02.** The look-ahead calls predict the next code points (EOF when there is none;
`AheadIsChs2` is only asked with characters, never with EOF, and at the end of the source the
second character counts as U+FFFD).  They do not return a state, hence cannot move the reader. -/
theorem lookahead_predicts (st : State) :
    st.peek = (decodeAll st.rest)[0]? ∧
    st.ahead2nd = (decodeAll st.rest)[1]? ∧
    (∀ c, st.aheadIsCh c = decide ((decodeAll st.rest)[0]? = c)) ∧
    (∀ c1 c2, st.aheadIsChOr c1 c2 =
      decide ((decodeAll st.rest)[0]? = c1 ∨ (decodeAll st.rest)[0]? = c2)) ∧
    (∀ c1 c2 : Nat, st.aheadIsChs2 (some c1) (some c2) =
      decide ((decodeAll st.rest)[0]? = some c1 ∧ (decodeAll st.rest)[1]? = some c2)) := by
  have hp : st.peek = (decodeAll st.rest)[0]? := by rw [peek_eq, List.head?_eq_getElem?]
  have h2 : ∀ b bs, st.rest = b :: bs →
      (runesAdvance (st.rest.drop (decodeRune st.rest).2)).1 = (decodeAll st.rest)[1]? := by
    intro b bs hb
    have e : decodeAll st.rest =
        (decodeRune st.rest).1 :: decodeAll (st.rest.drop (decodeRune st.rest).2) := by
      rw [hb]; exact decodeAll_cons b bs
    rw [e]
    have := peek_eq { st with rest := st.rest.drop (decodeRune st.rest).2 }
    simp only [State.peek] at this
    rw [this]; simp [List.head?_eq_getElem?]
  have h0 : ∀ b bs, st.rest = b :: bs → (decodeAll st.rest)[0]? = some (decodeRune st.rest).1 := by
    intro b bs hb; rw [hb, decodeAll_cons]; rfl
  refine ⟨hp, ?_, ?_, ?_, ?_⟩
  · unfold State.ahead2nd
    cases hb : st.rest with
    | nil => simp [runesAdvance_nil, decodeAll_nil]
    | cons b bs =>
      have := decodeRune_width_pos b bs
      have h2' := h2 b bs hb
      rw [hb] at h2'
      rw [runesAdvance_cons]
      simp only
      rw [if_neg (by omega)]
      exact h2'
  · intro c; simp only [State.aheadIsCh, hp]
    rw [Bool.eq_iff_iff]; simp
  · intro c1 c2; simp only [State.aheadIsChOr, hp]
    rw [Bool.eq_iff_iff]; simp
  · intro c1 c2
    unfold State.aheadIsChs2
    cases hb : st.rest with
    | nil => simp [runesAdvance_nil, decodeAll_nil]
    | cons b bs =>
      have := decodeRune_width_pos b bs
      have h2' := h2 b bs hb
      have h0' := h0 b bs hb
      rw [hb] at h2' h0'
      rw [runesAdvance_cons]
      simp only
      rw [if_pos (by omega), h2', h0']
      rw [Bool.eq_iff_iff]; simp

example : (newSource sample).state.ahead2nd = some 0xE9 := by decide

/-- **C02.** `PushState`, any balanced calls, `PopState` give back the reader exactly; with
`DiscardState` instead only the current reading state differs. -/
theorem push_pop_restores (s : Source) (os : List Op) (hb : Balanced os) :
    s.run (.push :: os ++ [.pop]) = some s ∧
    ∃ st, s.run (.push :: os ++ [.discard]) = some { s with state := st } ∧
      s.run os = some { s with state := st } := by
  obtain ⟨st, h⟩ := run_balanced hb s.pushState
  have hind : ∀ {os : List Op}, Balanced os → ∀ s s' : Source, s.code = s'.code →
      s.state = s'.state → ∀ t, s.run os = some t → ∃ t', s'.run os = some t' ∧ t'.state = t.state := by
    intro os hb
    induction hb with
    | nil => intro s s' _ h2 t ht; cases ht; exact ⟨s', rfl, h2.symm⟩
    | read _ ih =>
      intro s s' h1 h2 t ht
      exact ih { s with state := s.state.read.2 } { s' with state := s'.state.read.2 } h1 (by simp [h2]) t ht
    | advanceIf c _ ih =>
      intro s s' h1 h2 t ht
      exact ih { s with state := (s.state.advanceIf c).2 } { s' with state := (s'.state.advanceIf c).2 } h1 (by simp [h2]) t ht
    | skipSpace _ ih =>
      intro s s' h1 h2 t ht
      exact ih { s with state := s.state.skipSpace } { s' with state := s'.state.skipSpace } h1 (by simp [h2]) t ht
    | look _ ih => intro s s' h1 h2 t ht; exact ih s s' h1 h2 t ht
    | popped hb1 _ _ ih2 =>
      intro s s' h1 h2 t ht
      obtain ⟨q, hq⟩ := run_balanced hb1 s.pushState
      obtain ⟨q', hq'⟩ := run_balanced hb1 s'.pushState
      rw [run_append] at ht ⊢
      simp only [Source.run, Source.step, Option.bind_some, hq, hq', Source.popState] at ht ⊢
      simp only [Source.pushState] at ht ⊢
      exact ih2 _ _ (by simpa using h1) (by simpa using h2) t ht
    | discarded hb1 _ ih1 ih2 =>
      intro s s' h1 h2 t ht
      obtain ⟨q, hq⟩ := run_balanced hb1 s.pushState
      obtain ⟨t', ht', hst⟩ := ih1 s.pushState s'.pushState h1 h2 _ hq
      obtain ⟨q', hq'⟩ := run_balanced hb1 s'.pushState
      rw [hq'] at ht'; cases ht'
      rw [run_append] at ht ⊢
      simp only [Source.run, Source.step, Option.bind_some, hq, hq', Source.discardState] at ht ⊢
      simp only [Source.pushState, Option.bind_some] at ht ⊢
      exact ih2 _ _ (by simpa using h1) (by simpa using hst.symm) t ht
  constructor
  · rw [run_append]
    simp only [Source.run, Source.step, Option.bind_some, h, Source.popState]
    rfl
  · refine ⟨st, ?_, ?_⟩
    · rw [run_append]
      simp only [Source.run, Source.step, Option.bind_some, h, Source.discardState]
      rfl
    · obtain ⟨t', ht', hst⟩ := hind hb s.pushState s rfl rfl _ h
      obtain ⟨q, hq⟩ := run_balanced hb s
      rw [hq] at ht'; cases ht'
      simp only at hst
      rw [hq, hst]

example : Balanced [.read, .push, .read, .skipSpace, .pop, .look] :=
  .read (.popped (.read (.skipSpace .nil)) (.look .nil))

/-- **C03.** `OfstLineCol` gives the line and column of every offset within the source. -/
theorem ofstLineCol_eq (code : Bytes) (o : Nat) (h : o ≤ code.length) :
    ofstLineCol code o = some ⟨lineOf code o, colOf code o⟩ := by
  have hl := lineLoop_spec code o (code.length + 1) 0 1 (by omega) (.inl rfl) (by omega) h
    (by simp [lineOf, lineEnds_zero])
  have hs := (lineStart_isStart code o).2.1
  simp only [ofstLineCol, hl, slice, colOf]
  rw [if_pos ⟨hs, h⟩]
  simp [runeCount_eq_length]

example : ofstLineCol sample 8 = some ⟨3, 0⟩ ∧ ofstLineCol sample 3 = some ⟨1, 2⟩ := by decide

/-- **C03.** `LineCol` gives the line and column of both ends of every proper range within the
source, hence agrees with `OfstLineCol` on each. -/
theorem lineCol_eq (code : Bytes) (lo hi : Nat) (h1 : lo ≤ hi) (h2 : hi ≤ code.length) :
    lineCol code lo hi = some (⟨lineOf code lo, colOf code lo⟩, ⟨lineOf code hi, colOf code hi⟩) ∧
    ofstLineCol code lo = (lineCol code lo hi).map (·.1) ∧
    ofstLineCol code hi = (lineCol code lo hi).map (·.2) := by
  have hl := lineLoop_spec code lo (code.length + 1) 0 1 (by omega) (.inl rfl) (by omega)
    (by omega) (by simp [lineOf, lineEnds_zero])
  obtain ⟨s1, s2, s3⟩ := lineStart_isStart code lo
  have hh := lineLoop_spec code hi (code.length + 1) (lineStart code lo) (lineOf code lo)
    (by omega) s1 (by omega) h2 s3.symm
  have s4 := (lineStart_isStart code hi).2.1
  have main : lineCol code lo hi =
      some (⟨lineOf code lo, colOf code lo⟩, ⟨lineOf code hi, colOf code hi⟩) := by
    simp only [lineCol, hl, slice]
    rw [if_pos ⟨s2, by omega⟩]
    simp only [Option.bind_some, hh]
    rw [if_pos ⟨s4, h2⟩]
    simp [runeCount_eq_length, colOf]
  refine ⟨main, ?_, ?_⟩
  · rw [main, ofstLineCol_eq code lo (by omega)]; rfl
  · rw [main, ofstLineCol_eq code hi h2]; rfl

example : lineCol sample 3 9 = some (⟨1, 2⟩, ⟨3, 1⟩) := by decide

/-- **C03** (limit of the claim).  For a reversed range over a line feed `LineCol` panics. -/
theorem lineCol_reversed_panics : lineCol sample 7 3 = none := by decide

/-- **C03.** Lines and columns grow with the offset: a later offset is on a later line, or on
the same line. -/
theorem lineOf_mono (code : Bytes) (o o' : Nat) (h : o ≤ o') : lineOf code o ≤ lineOf code o' := by
  obtain ⟨d, rfl⟩ : ∃ d, o' = o + d := ⟨o' - o, by omega⟩
  clear h
  induction d with
  | zero => exact Nat.le_refl _
  | succ d ih =>
    refine Nat.le_trans ih ?_
    simp only [lineOf, ← Nat.add_assoc, lineEnds_succ, List.length_append]
    omega

/-- **C02.** `AdvanceIf` tells whether the next code point is the given one; if so it is consumed as by
`Read`, otherwise nothing is. -/
theorem advanceIf_eq (st : State) (c : Option Nat) :
    ((st.advanceIf c).1 = true ↔ (decodeAll st.rest)[0]? = c) ∧
    ((decodeAll st.rest)[0]? = c → (st.advanceIf c).2 = st.read.2) ∧
    ((decodeAll st.rest)[0]? ≠ c → (st.advanceIf c).2 = st) := by
  rw [← List.head?_eq_getElem?, ← peek_eq]
  unfold State.advanceIf
  by_cases h : st.peek = c <;> simp [h]

example : ((newSource sample).state.advanceIf (some 0x61)).1 = true ∧
    ((newSource sample).state.advanceIf (some 0x62)).1 = false := by decide

theorem skipSpace_fn (st : State) :
    decodeAll st.skipSpace.rest = (decodeAll st.rest).dropWhile isSpace ∧
    st.skipSpace.metLineTerm = ((decodeAll st.rest).takeWhile isSpace).any isLineTerminator := by
  have := skipLoop_spec (st.rest.length + 1) { st with metLineTerm := false } (by simp)
  simpa [State.skipSpace] using this

/-- **C04.** `SkipSpace` removes exactly the longest white-space prefix, and afterwards
`MetLineTerm()` tells whether that prefix contained a line terminator. -/
theorem skipSpace_eq (st : State) :
    decodeAll st.skipSpace.rest = (decodeAll st.rest).dropWhile (fun c => decide (White c)) ∧
    st.skipSpace.metLineTerm =
      ((decodeAll st.rest).takeWhile (fun c => decide (White c))).any (fun c => decide (LineTerm c)) := by
  rw [← isSpace_eq, ← isLineTerminator_eq]
  exact skipSpace_fn st

example : decodeAll (newSource sample).state.read.2.read.2.read.2.skipSpace.rest = [0x62] ∧
    (newSource sample).state.read.2.read.2.read.2.skipSpace.metLineTerm = true := by decide

end Mole.Span
