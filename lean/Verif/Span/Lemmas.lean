import Verif.Span.Spec
/-! Helper lemmas for the source-position theorems. -/
namespace Mole.Span

theorem decodeRune_width_pos (b : UInt8) (bs : Bytes) :
    1 ≤ (decodeRune (b :: bs)).2 ∧ (decodeRune (b :: bs)).2 ≤ (b :: bs).length := by
  simp only [decodeRune]
  repeat' split
  all_goals simp
  all_goals omega

theorem decodeRune_nil : decodeRune [] = (runeError, 0) := rfl

/-- Decoding only looks at the bytes it consumes (or finds the sequence ill-formed). -/
theorem decodeRune_take (bs : Bytes) (n : Nat) (h : (decodeRune bs).2 ≤ n) (hn : 0 < n) :
    decodeRune (bs.take n) = decodeRune bs := by
  match bs, n with
  | [], n => simp
  | b0 :: t, n + 1 =>
    rw [List.take_succ_cons]
    revert h
    simp only [decodeRune]
    by_cases h1 : b0.toNat < 0x80
    · simp only [h1, if_true]; intro _; trivial
    simp only [h1, if_false]
    by_cases h1 : b0.toNat < 0xC2
    · simp only [h1, if_true]; intro _; trivial
    simp only [h1, if_false]
    by_cases h1 : b0.toNat < 0xE0
    · simp only [h1, if_true]
      match t, n with
      | [], n => simp
      | b1 :: t, 0 => simp only [List.take_zero]; split <;> simp
      | b1 :: t, n+1 => simp
    simp only [h1, if_false]
    by_cases h1 : b0.toNat < 0xF0
    · simp only [h1, if_true]
      match t, n with
      | [], n => simp
      | [b1], 0 => simp
      | [b1], n+1 => simp
      | b1 :: b2 :: t, 0 =>
        simp only [List.take_zero]
        generalize (_ && _) = c; cases c <;> simp
      | b1 :: b2 :: t, 1 =>
        simp only [List.take_succ_cons, List.take_zero]
        generalize (_ && _) = c; cases c <;> simp
      | b1 :: b2 :: t, n+2 => simp
    simp only [h1, if_false]
    by_cases h1 : b0.toNat < 0xF5
    · simp only [h1, if_true]
      match t, n with
      | [], n => simp
      | [b1], 0 => simp
      | [b1], n+1 => simp
      | [b1, b2], 0 => simp
      | [b1, b2], 1 => simp
      | [b1, b2], n+2 => simp
      | b1 :: b2 :: b3 :: t, 0 =>
        simp only [List.take_zero]
        generalize (_ && _ && _) = c; cases c <;> simp
      | b1 :: b2 :: b3 :: t, 1 =>
        simp only [List.take_succ_cons, List.take_zero]
        generalize (_ && _ && _) = c; cases c <;> simp
      | b1 :: b2 :: b3 :: t, 2 =>
        simp only [List.take_succ_cons, List.take_zero]
        generalize (_ && _ && _) = c; cases c <;> simp
      | b1 :: b2 :: b3 :: t, n+3 => simp
    simp only [h1, if_false]; intro _; trivial

theorem runeCountAux_fuel (f g : Nat) (s : Bytes) (hf : s.length ≤ f) (hg : s.length ≤ g) :
    runeCountAux f s = runeCountAux g s := by
  induction f generalizing g s with
  | zero =>
    have : s = [] := List.length_eq_zero_iff.mp (by omega)
    subst this; cases g <;> rfl
  | succ f ih =>
    match s, g with
    | [], 0 => rfl
    | [], g+1 => rfl
    | b :: bs, 0 => simp at hg
    | b :: bs, g+1 =>
      have := decodeRune_width_pos b bs
      simp only [runeCountAux]
      rw [ih g _ (by simp at *; omega) (by simp at *; omega)]

theorem runeCount_cons (b : UInt8) (bs : Bytes) :
    runeCount (b :: bs) = runeCount ((b :: bs).drop (decodeRune (b :: bs)).2) + 1 := by
  have := decodeRune_width_pos b bs
  unfold runeCount
  conv => lhs; rw [List.length_cons]; unfold runeCountAux
  rw [runeCountAux_fuel]
  · simp at *; omega
  · simp

theorem decodeAllAux_fuel (f g : Nat) (s : Bytes) (hf : s.length ≤ f) (hg : s.length ≤ g) :
    decodeAllAux f s = decodeAllAux g s := by
  induction f generalizing g s with
  | zero =>
    have : s = [] := List.length_eq_zero_iff.mp (by omega)
    subst this; cases g <;> rfl
  | succ f ih =>
    match s, g with
    | [], 0 => rfl
    | [], g+1 => rfl
    | b :: bs, 0 => simp at hg
    | b :: bs, g+1 =>
      have := decodeRune_width_pos b bs
      simp only [decodeAllAux]
      rw [ih g _ (by simp at *; omega) (by simp at *; omega)]

theorem decodeAll_nil : decodeAll [] = [] := rfl

theorem decodeAll_cons (b : UInt8) (bs : Bytes) :
    decodeAll (b :: bs) =
      (decodeRune (b :: bs)).1 :: decodeAll ((b :: bs).drop (decodeRune (b :: bs)).2) := by
  have := decodeRune_width_pos b bs
  unfold decodeAll
  conv => lhs; rw [List.length_cons]; unfold decodeAllAux
  rw [decodeAllAux_fuel]
  · simp at *; omega
  · simp

theorem decodeAll_eq_nil {bs : Bytes} : decodeAll bs = [] ↔ bs = [] := by
  cases bs with
  | nil => simp [decodeAll_nil]
  | cons b bs => simp [decodeAll_cons]

theorem runeCount_eq_length (s : Bytes) : runeCount s = (decodeAll s).length := by
  induction h : s.length using Nat.strongRecOn generalizing s with
  | _ n ih =>
    cases s with
    | nil => rfl
    | cons b bs =>
      have hw := decodeRune_width_pos b bs
      rw [runeCount_cons, decodeAll_cons, List.length_cons]
      rw [ih _ _ _ rfl]
      subst h; simp at *; omega



inductive Reach (code : Bytes) : Nat → Nat → Prop
  | zero : Reach code 0 0
  | step {o p} : Reach code o p → o < code.length →
      Reach code (o + (decodeRune (code.drop o)).2) (p + 1)

theorem drop_cons_of_lt {code : Bytes} {o : Nat} (h : o < code.length) :
    ∃ b bs, code.drop o = b :: bs :=
  ⟨code[o], code.drop (o+1), List.drop_eq_getElem_cons h⟩

theorem Reach.le {code : Bytes} {o p} (h : Reach code o p) : o ≤ code.length := by
  induction h with
  | zero => omega
  | @step o p _ hlt ih =>
    obtain ⟨b, bs, hb⟩ := drop_cons_of_lt hlt
    have := decodeRune_width_pos b bs
    rw [← hb] at this
    simp at this; omega

theorem Reach.shift {code : Bytes} {o p} (b : UInt8) (bs : Bytes) (hc : code = b :: bs)
    (h : Reach (code.drop (decodeRune code).2) o p) :
    Reach code ((decodeRune code).2 + o) (p + 1) := by
  subst hc
  induction h with
  | zero =>
    have := Reach.step (code := b :: bs) Reach.zero (by simp)
    simpa using this
  | @step o p _ hlt ih =>
    have := Reach.step ih (by simp at hlt ⊢; omega)
    rw [List.drop_drop]
    rw [← Nat.add_assoc]
    exact this

/-- Inversion of `Reach` at the front. -/
theorem Reach.front {code : Bytes} {o p} (h : Reach code o p) :
    (o = 0 ∧ p = 0) ∨ ∃ b bs o' p', code = b :: bs ∧ o = (decodeRune code).2 + o' ∧ p = p' + 1 ∧
      Reach (code.drop (decodeRune code).2) o' p' := by
  induction h with
  | zero => exact .inl ⟨rfl, rfl⟩
  | @step o p hr hlt ih =>
    right
    match code, hlt, hr, ih with
    | [], hlt, _, _ => simp at hlt
    | b :: bs, hlt, hr, ih =>
    rcases ih with ⟨rfl, rfl⟩ | ⟨b', bs', o', p', hc, ho, hp, hr'⟩
    · exact ⟨b, bs, 0, 0, rfl, by simp, rfl, .zero⟩
    · refine ⟨b, bs, o' + (decodeRune ((b::bs).drop o)).2, p' + 1, rfl, by omega, by omega, ?_⟩
      have hw : o' < ((b::bs).drop (decodeRune (b::bs)).2).length := by
        simp at hlt ⊢; omega
      have := Reach.step hr' hw
      rw [List.drop_drop] at this
      rw [ho]; exact this

theorem decodeAll_take_reach {code : Bytes} {o p} (h : Reach code o p) :
    (decodeAll (code.take o)).length = p ∧
      decodeAll code = decodeAll (code.take o) ++ decodeAll (code.drop o) := by
  induction p generalizing code o with
  | zero =>
    rcases h.front with ⟨rfl, _⟩ | ⟨_, _, _, _, _, _, hp, _⟩
    · simp [decodeAll_nil]
    · omega
  | succ p ih =>
    rcases h.front with ⟨_, hp⟩ | ⟨b, bs, o', p', hc, ho, hp, hr⟩
    · omega
    · have hw := decodeRune_width_pos b bs
      rw [← hc] at hw
      obtain ⟨ih1, ih2⟩ := ih (by have : p' = p := by omega
                                  rw [this] at hr; exact hr)
      have hd : decodeRune (code.take o) = decodeRune code :=
        decodeRune_take _ _ (by omega) (by omega)
      have htake : ∃ bs', code.take o = b :: bs' := by
        subst hc
        match o, ho, hw with
        | 0, ho, hw => omega
        | o+1, _, _ => exact ⟨bs.take o, by simp⟩
      obtain ⟨bs', hb'⟩ := htake
      have e1 : decodeAll (code.take o) = (decodeRune code).1 ::
          decodeAll ((code.drop (decodeRune code).2).take o') := by
        rw [hb', decodeAll_cons, ← hb', hd]
        congr 2
        rw [List.drop_take]; congr 1; omega
      have e2 : decodeAll code = (decodeRune code).1 ::
          decodeAll (code.drop (decodeRune code).2) := by
        conv => lhs; rw [hc, decodeAll_cons, ← hc]
      constructor
      · rw [e1, List.length_cons, ih1]
      · rw [e1, e2, ih2, List.drop_drop, List.cons_append, ho]

theorem runesAdvance_nil : runesAdvance [] = (none, 0, []) := by
  simp [runesAdvance, decodeRune]

theorem runesAdvance_cons (b : UInt8) (bs : Bytes) :
    runesAdvance (b :: bs) = (some (decodeRune (b :: bs)).1, (decodeRune (b :: bs)).2,
      (b :: bs).drop (decodeRune (b :: bs)).2) := by
  have := decodeRune_width_pos b bs
  simp only [runesAdvance]
  generalize decodeRune (b :: bs) = d at *
  obtain ⟨r, w⟩ := d
  simp only at this
  split
  · rw [if_neg (by omega)]
  · rfl

/-- `peek` is the first code point left. -/
theorem peek_eq (st : State) : st.peek = (decodeAll st.rest).head? := by
  unfold State.peek
  cases h : st.rest with
  | nil => simp [runesAdvance_nil, decodeAll_nil]
  | cons b bs => simp [runesAdvance_cons, decodeAll_cons]

theorem advance_nil (st : State) (h : st.rest = []) : st.advance = (none, st) := by
  simp only [State.advance, h, runesAdvance_nil]
  cases st; simp_all

theorem advance_cons (st : State) (b : UInt8) (bs : Bytes) (h : st.rest = b :: bs) :
    st.advance = (some (decodeRune st.rest).1,
      { st with rest := st.rest.drop (decodeRune st.rest).2,
                ofst := st.ofst + (decodeRune st.rest).2, pos := st.pos + 1 }) := by
  simp only [State.advance, h, runesAdvance_cons]

/-- `advance` takes one code point off the rest. -/
theorem advance_decode (st : State) (r : Nat) (rs : List Nat) (h : decodeAll st.rest = r :: rs) :
    st.advance.1 = some r ∧ decodeAll st.advance.2.rest = rs := by
  cases hb : st.rest with
  | nil => rw [hb, decodeAll_nil] at h; cases h
  | cons b bs =>
    rw [advance_cons st b bs hb, hb]
    rw [hb, decodeAll_cons] at h
    injection h with h1 h2
    exact ⟨by rw [h1], h2⟩

theorem advance_metLineTerm (st : State) : st.advance.2.metLineTerm = st.metLineTerm := by
  cases hb : st.rest with
  | nil => rw [advance_nil st hb]
  | cons b bs => rw [advance_cons st b bs hb]

/-- The position invariant of one reader state. -/
def Inv (code : Bytes) (st : State) : Prop :=
  st.rest = code.drop st.ofst ∧ Reach code st.ofst st.pos

theorem advance_inv {code : Bytes} {st : State} (h : Inv code st) : Inv code st.advance.2 := by
  obtain ⟨h1, h2⟩ := h
  cases hb : st.rest with
  | nil => rw [advance_nil st hb]; exact ⟨h1, h2⟩
  | cons b bs =>
    rw [advance_cons st b bs hb]
    constructor
    · simp only [h1, List.drop_drop]
    · simp only [h1]
      apply Reach.step h2
      have := congrArg List.length (hb.symm.trans h1)
      simp at this; omega

theorem read_state (st : State) :
    st.read.2 = if st.advance.1 = some 0x0d ∧ st.advance.2.peek = some 0x0a
      then st.advance.2.advance.2 else st.advance.2 := by
  simp only [State.read]
  generalize st.advance = a
  obtain ⟨r, s1⟩ := a
  simp only
  by_cases h1 : r = some 0x0d
  · subst h1; simp [isLineTerminator?, isLineTerminator]
  · simp [h1]

theorem read_inv {code : Bytes} {st : State} (h : Inv code st) : Inv code st.read.2 := by
  rw [read_state]
  split
  · exact advance_inv (advance_inv h)
  · exact advance_inv h

theorem read_metLineTerm (st : State) : st.read.2.metLineTerm = st.metLineTerm := by
  rw [read_state]
  split <;> simp [advance_metLineTerm]

/-- The two results of `Read` in terms of code points. -/
theorem read_decode (st : State) (r : Nat) (rs : List Nat) (h : decodeAll st.rest = r :: rs) :
    st.read.1 = some (if r = 0x0d then 0x0a else r) ∧
    decodeAll st.read.2.rest = if r = 0x0d ∧ rs.head? = some 0x0a then rs.tail else rs := by
  obtain ⟨h1, h2⟩ := advance_decode st r rs h
  constructor
  · simp only [State.read, h1]
    by_cases hr : r = 0x0d
    · simp [hr]
    · by_cases hr' : r = 0x0a <;> simp [hr, hr']
  · rw [read_state, h1, peek_eq, h2]
    by_cases hc : r = 0x0d ∧ rs.head? = some 0x0a
    · rw [if_pos (by simpa using hc), if_pos hc]
      match rs, h2 with
      | [], h2 => simp at hc
      | c :: rs', h2 => exact (advance_decode _ _ _ h2).2
    · rw [if_neg (by simpa using hc), if_neg hc, h2]

theorem read_eof (st : State) (h : st.rest = []) : st.read = (none, st) := by
  simp [State.read, advance_nil st h, isLineTerminator?]

theorem advance_length (st : State) : st.advance.2.rest.length ≤ st.rest.length := by
  cases hb : st.rest with
  | nil => rw [advance_nil st hb]; simp [hb]
  | cons b bs => rw [advance_cons st b bs hb]; simp [hb]

theorem read_length_lt (st : State) (h : st.rest ≠ []) : st.read.2.rest.length < st.rest.length := by
  have ha : st.advance.2.rest.length < st.rest.length := by
    cases hb : st.rest with
    | nil => contradiction
    | cons b bs =>
      have := decodeRune_width_pos b bs
      rw [advance_cons st b bs hb]; simp [hb] at *; omega
  rw [read_state]
  split
  · have := advance_length st.advance.2; omega
  · exact ha

theorem skipLoop_inv {code : Bytes} (f : Nat) (st : State) (h : Inv code st) :
    Inv code (skipLoop f st) := by
  induction f generalizing st with
  | zero => exact h
  | succ f ih =>
    simp only [skipLoop]
    split
    · exact h
    · split
      · exact h
      · apply ih
        apply read_inv
        split <;> exact h

theorem read_rest_congr (st st' : State) (h : st.rest = st'.rest) : st.read.2.rest = st'.read.2.rest := by
  have key : ∀ a b : State, a.rest = b.rest →
      a.advance.2.rest = b.advance.2.rest ∧ a.advance.1 = b.advance.1 := by
    intro a b hab
    cases hb : a.rest with
    | nil => rw [advance_nil a hb, advance_nil b (hab ▸ hb)]; exact ⟨hab, rfl⟩
    | cons x xs =>
      rw [advance_cons a x xs hb, advance_cons b x xs (hab ▸ hb)]
      simp only [hab]; trivial
  obtain ⟨k1, k2⟩ := key st st' h
  obtain ⟨k3, _⟩ := key _ _ k1
  rw [read_state, read_state, peek_eq, peek_eq, k1, k2]
  split <;> assumption

/-- The loop of `SkipSpace` removes the longest white-space prefix and ors the line-break
flag; any fuel larger than the bytes left is enough. -/
theorem skipLoop_spec (f : Nat) (st : State) (hf : st.rest.length < f) :
    decodeAll (skipLoop f st).rest = (decodeAll st.rest).dropWhile isSpace ∧
    (skipLoop f st).metLineTerm =
      (st.metLineTerm || ((decodeAll st.rest).takeWhile isSpace).any isLineTerminator) := by
  induction f generalizing st with
  | zero => omega
  | succ f ih =>
    simp only [skipLoop, peek_eq]
    match hd : decodeAll st.rest with
    | [] => simp [hd]
    | c :: cs =>
      simp only [List.head?_cons]
      by_cases hc : isSpace c
      · have hne : st.rest ≠ [] := by
          intro h; rw [h, decodeAll_nil] at hd; cases hd
        simp only [hc, Bool.not_true, Bool.false_eq_true, if_false]
        have hs' : ∀ s' : State, s'.rest = st.rest →
            s'.metLineTerm = (st.metLineTerm || isLineTerminator c) →
            decodeAll (skipLoop f s'.read.2).rest = (c :: cs).dropWhile isSpace ∧
            (skipLoop f s'.read.2).metLineTerm = (st.metLineTerm ||
              ((c :: cs).takeWhile isSpace).any isLineTerminator) := by
          intro s' hr hm
          have hlen := read_length_lt s' (hr ▸ hne)
          have hsp := read_decode s' c cs (hr ▸ hd)
          obtain ⟨i1, i2⟩ := ih s'.read.2 (by rw [hr] at hlen; omega)
          rw [i1, i2, hsp.2, read_metLineTerm, hm]
          rw [List.dropWhile_cons_of_pos hc, List.takeWhile_cons_of_pos hc, List.any_cons,
            Bool.or_assoc]
          by_cases hcr : c = 0x0d ∧ cs.head? = some 0x0a
          · rw [if_pos hcr]
            match cs, hcr with
            | d :: ds, ⟨hc1, hd1⟩ =>
              simp at hd1; subst hd1 hc1
              have : isSpace 0x0a = true := by decide
              have hl : isLineTerminator 0x0d = true := by decide
              simp [this, hl]
          · rw [if_neg hcr]
            exact ⟨rfl, rfl⟩
        apply hs' (if isLineTerminator c then { st with metLineTerm := true } else st)
          (by split <;> rfl)
        by_cases hl : isLineTerminator c <;> simp [hl]
      · simp [hc, hd]

theorem skipLoop_fuel (f g : Nat) (st : State) (hf : st.rest.length < f) (hg : st.rest.length < g) :
    skipLoop f st = skipLoop g st := by
  induction f generalizing g st with
  | zero => omega
  | succ f ih =>
    match g with
    | 0 => omega
    | g+1 =>
      simp only [skipLoop]
      split
      · rfl
      · rename_i c hc
        split
        · rfl
        · have hne : st.rest ≠ [] := by
            intro h; rw [peek_eq, h, decodeAll_nil] at hc; cases hc
          have hl : ∀ s' : State, s'.rest = st.rest → s'.read.2.rest.length < st.rest.length := by
            intro s' hr
            have := read_length_lt s' (hr ▸ hne)
            rw [hr] at this; exact this
          have := hl (if isLineTerminator c then { st with metLineTerm := true } else st)
            (by split <;> rfl)
          exact ih g _ (by omega) (by omega)

theorem step_inv {code : Bytes} {s s' : Source} (o : Op) (hc : s.code = code)
    (h : Inv code s.state) (hss : ∀ st ∈ s.ss, Inv code st) (hs : s.step o = some s') :
    s'.code = code ∧ Inv code s'.state ∧ ∀ st ∈ s'.ss, Inv code st := by
  cases o with
  | read => simp only [Source.step] at hs; cases hs; exact ⟨hc, read_inv h, hss⟩
  | advanceIf c =>
    simp only [Source.step] at hs; cases hs
    refine ⟨hc, ?_, hss⟩
    simp only [State.advanceIf]; split
    · exact read_inv h
    · exact h
  | skipSpace =>
    simp only [Source.step] at hs; cases hs
    exact ⟨hc, skipLoop_inv _ _ h, hss⟩
  | look => simp only [Source.step] at hs; cases hs; exact ⟨hc, h, hss⟩
  | push =>
    simp only [Source.step, Source.pushState] at hs; cases hs
    refine ⟨hc, h, ?_⟩
    intro st hst
    rcases List.mem_cons.mp hst with rfl | hst
    · exact h
    · exact hss st hst
  | pop =>
    simp only [Source.step, Source.popState] at hs
    split at hs
    · cases hs
    · rename_i st ss heq
      cases hs
      refine ⟨hc, hss st (by rw [heq]; simp), ?_⟩
      intro st' hst'
      exact hss st' (by rw [heq]; simp at hst' ⊢; exact .inr hst')
  | discard =>
    simp only [Source.step, Source.discardState] at hs
    split at hs
    · cases hs
    · rename_i st ss heq
      cases hs
      refine ⟨hc, h, ?_⟩
      intro st' hst'
      exact hss st' (by rw [heq]; simp at hst' ⊢; exact .inr hst')

theorem run_inv {code : Bytes} {s s' : Source} (os : List Op) (hc : s.code = code)
    (h : Inv code s.state) (hss : ∀ st ∈ s.ss, Inv code st) (hs : s.run os = some s') :
    s'.code = code ∧ Inv code s'.state ∧ ∀ st ∈ s'.ss, Inv code st := by
  induction os generalizing s with
  | nil => simp only [Source.run] at hs; cases hs; exact ⟨hc, h, hss⟩
  | cons o os ih =>
    simp only [Source.run] at hs
    cases hst : s.step o with
    | none => rw [hst] at hs; cases hs
    | some s1 =>
      rw [hst] at hs
      obtain ⟨a, b, c⟩ := step_inv o hc h hss hst
      exact ih a b c hs

theorem run_append (s : Source) (os os' : List Op) :
    s.run (os ++ os') = (s.run os).bind fun s' => s'.run os' := by
  induction os generalizing s with
  | nil => rfl
  | cons o os ih =>
    simp only [List.cons_append, Source.run]
    cases s.step o with
    | none => rfl
    | some s1 => simp [ih]

theorem run_balanced {os : List Op} (hb : Balanced os) (s : Source) :
    ∃ st, s.run os = some { s with state := st } := by
  induction hb generalizing s with
  | nil => exact ⟨s.state, rfl⟩
  | read _ ih => obtain ⟨st, h⟩ := ih { s with state := s.state.read.2 }; exact ⟨st, h⟩
  | advanceIf c _ ih =>
    obtain ⟨st, h⟩ := ih { s with state := (s.state.advanceIf c).2 }; exact ⟨st, h⟩
  | skipSpace _ ih => obtain ⟨st, h⟩ := ih { s with state := s.state.skipSpace }; exact ⟨st, h⟩
  | look _ ih => obtain ⟨st, h⟩ := ih s; exact ⟨st, h⟩
  | popped _ _ ih1 ih2 =>
    obtain ⟨st1, h1⟩ := ih1 s.pushState
    obtain ⟨st2, h2⟩ := ih2 s
    refine ⟨st2, ?_⟩
    rw [run_append]
    simp only [Source.run, Source.step, Option.bind_some, h1, Source.popState]
    exact h2
  | discarded _ _ ih1 ih2 =>
    obtain ⟨st1, h1⟩ := ih1 s.pushState
    obtain ⟨st2, h2⟩ := ih2 { s with state := st1 }
    refine ⟨st2, ?_⟩
    rw [run_append]
    simp only [Source.run, Source.step, Option.bind_some, h1, Source.discardState]
    exact h2

/-! ### line feeds -/

theorem findLF_some {l : Bytes} {e : Nat} (h : findLF l = some e) :
    IsLineEnd l e ∧ e ≤ l.length ∧ ∀ e' < e, ¬ IsLineEnd l e' := by
  induction l generalizing e with
  | nil => simp [findLF] at h
  | cons b t ih =>
    simp only [findLF] at h
    split at h
    · rename_i hb
      subst hb
      match t, h with
      | [], h =>
        cases h
        refine ⟨⟨by omega, .inr (by simp)⟩, by simp, ?_⟩
        intro e' he' hl; have := hl.1; omega
      | c :: t, h =>
        simp only at h
        split at h
        · rename_i hc; subst hc; cases h
          refine ⟨⟨by omega, .inl (by simp)⟩, by simp, ?_⟩
          intro e' he' hl
          have := hl.1
          have : e' = 1 := by omega
          subst this
          rcases hl.2 with h | ⟨_, h⟩
          · simp at h
          · simp at h
        · rename_i hc; cases h
          refine ⟨⟨by omega, .inr ?_⟩, by simp, ?_⟩
          · simpa using hc
          · intro e' he' hl; have := hl.1; omega
    · split at h
      · rename_i hb; subst hb; cases h
        refine ⟨⟨by omega, .inl (by simp)⟩, by simp, ?_⟩
        intro e' he' hl; have := hl.1; omega
      · rename_i hb1 hb2
        cases ht : findLF t with
        | none => rw [ht] at h; cases h
        | some e1 =>
          rw [ht] at h
          simp only [Option.map_some, Option.some.injEq] at h
          subst h
          obtain ⟨i1, i2, i3⟩ := ih ht
          have hpos := i1.1
          refine ⟨⟨by omega, ?_⟩, by simp; omega, ?_⟩
          · have hh := i1.2
            rw [show e1 + 1 - 1 = (e1 - 1) + 1 from by omega]
            simpa using hh
          · intro e' he' hl
            match e', hl with
            | 0, hl => have := hl.1; omega
            | 1, hl =>
              rcases hl.2 with h | ⟨h, _⟩
              · simp at h; exact hb2 h
              · simp at h; exact hb1 h
            | e''+2, hl =>
              apply i3 (e''+1) (by omega)
              refine ⟨by omega, ?_⟩
              have := hl.2
              simpa using this

theorem findLF_none {l : Bytes} (h : findLF l = none) : ∀ e, ¬ IsLineEnd l e := by
  induction l with
  | nil => intro e hl; have := hl.2; simp at this
  | cons b t ih =>
    simp only [findLF] at h
    split at h
    · split at h
      · split at h <;> cases h
      · cases h
    · split at h
      · cases h
      · rename_i hb1 hb2
        have ht : findLF t = none := by
          cases hh : findLF t with
          | none => rfl
          | some _ => rw [hh] at h; cases h
        intro e hl
        match e, hl with
        | 0, hl => have := hl.1; omega
        | 1, hl =>
          rcases hl.2 with h | ⟨h, _⟩
          · simp at h; exact hb2 h
          · simp at h; exact hb1 h
        | e''+2, hl =>
          apply ih ht (e''+1)
          refine ⟨by omega, ?_⟩
          have := hl.2
          simpa using this

theorem isLineEnd_drop (code : Bytes) (cur e : Nat) (he : 0 < e) :
    IsLineEnd (code.drop cur) e ↔ IsLineEnd code (cur + e) := by
  unfold IsLineEnd
  rw [List.getElem?_drop, List.getElem?_drop]
  rw [show cur + (e - 1) = cur + e - 1 from by omega]
  constructor
  · rintro ⟨_, h⟩; exact ⟨by omega, h⟩
  · rintro ⟨_, h⟩; exact ⟨he, h⟩

theorem lineEnds_succ (code : Bytes) (o : Nat) :
    lineEnds code (o + 1) = lineEnds code o ++ (if IsLineEnd code (o + 1) then [o + 1] else []) := by
  unfold lineEnds
  rw [List.range_succ (n := o + 1), List.filter_append]
  congr 1
  by_cases h : IsLineEnd code (o + 1) <;> simp [h]

theorem lineEnds_gap (code : Bytes) (o d : Nat)
    (h : ∀ e, o < e → e ≤ o + d → ¬ IsLineEnd code e) : lineEnds code (o + d) = lineEnds code o := by
  induction d with
  | zero => rfl
  | succ d ih =>
    rw [← Nat.add_assoc, lineEnds_succ, ih (fun e h1 h2 => h e h1 (by omega)),
      if_neg (h _ (by omega) (by omega)), List.append_nil]

theorem lineEnds_zero (code : Bytes) : lineEnds code 0 = [] := by
  simp [lineEnds, IsLineEnd]

theorem IsLineEnd.le {code : Bytes} {e : Nat} (h : IsLineEnd code e) : e ≤ code.length := by
  obtain ⟨h1, h2⟩ := h
  rcases h2 with h | ⟨h, _⟩
  · have := (List.getElem?_eq_some_iff.mp h).1; omega
  · have := (List.getElem?_eq_some_iff.mp h).1; omega

/-- `cur` is the start of a line. -/
def IsStart (code : Bytes) (cur : Nat) : Prop := cur = 0 ∨ IsLineEnd code cur

theorem lineStart_of_isStart {code : Bytes} {cur : Nat} (h : IsStart code cur) :
    lineStart code cur = cur := by
  rcases h with rfl | h
  · simp [lineStart, lineEnds_zero]
  · have := h.1
    obtain ⟨c, rfl⟩ : ∃ c, cur = c + 1 := ⟨cur - 1, by omega⟩
    simp [lineStart, lineEnds_succ, h]

theorem lineStart_gap (code : Bytes) (o o' : Nat) (hle : o ≤ o')
    (h : ∀ e, o < e → e ≤ o' → ¬ IsLineEnd code e) :
    lineStart code o' = lineStart code o ∧ lineOf code o' = lineOf code o := by
  obtain ⟨d, rfl⟩ : ∃ d, o' = o + d := ⟨o' - o, by omega⟩
  unfold lineStart lineOf
  rw [lineEnds_gap code o d (fun e h1 h2 => h e h1 h2)]
  exact ⟨rfl, rfl⟩

/-- The loop finds the line of `ofst`, from any earlier line start. -/
theorem lineLoop_spec (code : Bytes) (ofst : Nat) (fuel cur line : Nat)
    (hfuel : code.length < cur + fuel) (hcur : IsStart code cur) (hle : cur ≤ ofst)
    (hlen : ofst ≤ code.length) (hline : line = lineOf code cur) :
    lineLoop code ofst fuel cur line = (lineStart code ofst, lineOf code ofst) := by
  induction fuel generalizing cur line with
  | zero => omega
  | succ fuel ih =>
    simp only [lineLoop]
    cases hf : findLF (code.drop cur) with
    | none =>
      have hno := findLF_none hf
      obtain ⟨g1, g2⟩ := lineStart_gap code cur ofst hle (by
        intro e h1 _ hl
        apply hno (e - cur)
        rw [isLineEnd_drop _ _ _ (by omega)]
        rw [show cur + (e - cur) = e from by omega]; exact hl)
      simp only
      rw [g1, g2, lineStart_of_isStart hcur, hline]
    | some e =>
      obtain ⟨s1, s2, s3⟩ := findLF_some hf
      have hepos := s1.1
      simp only
      have hend : IsLineEnd code (cur + e) := (isLineEnd_drop _ _ _ hepos).mp s1
      have hgap : ∀ e', cur < e' → e' < cur + e → ¬ IsLineEnd code e' := by
        intro e' h1 h2 hl
        apply s3 (e' - cur) (by omega)
        rw [isLineEnd_drop _ _ _ (by omega)]
        rw [show cur + (e' - cur) = e' from by omega]; exact hl
      split
      · rename_i hc
        apply ih
        · omega
        · exact .inr hend
        · exact hc
        · obtain ⟨_, g2⟩ := lineStart_gap code cur (cur + e - 1) (by omega)
            (fun e' h1 h2 => hgap e' h1 (by omega))
          have : lineOf code (cur + e) = lineOf code (cur + e - 1) + 1 := by
            obtain ⟨c, hc'⟩ : ∃ c, cur + e = c + 1 := ⟨cur + e - 1, by omega⟩
            rw [hc'] at hend ⊢
            simp [lineOf, lineEnds_succ, hend]; omega
          rw [this, g2, hline]
      · rename_i hc
        obtain ⟨g1, g2⟩ := lineStart_gap code cur ofst hle
          (fun e' h1 h2 => hgap e' h1 (by omega))
        rw [g1, g2, lineStart_of_isStart hcur, hline]

theorem lineStart_isStart (code : Bytes) (o : Nat) :
    IsStart code (lineStart code o) ∧ lineStart code o ≤ o ∧
      lineOf code (lineStart code o) = lineOf code o := by
  induction o with
  | zero => simp [lineStart, lineEnds_zero, IsStart]
  | succ o ih =>
    by_cases h : IsLineEnd code (o + 1)
    · have : lineStart code (o + 1) = o + 1 := lineStart_of_isStart (.inr h)
      rw [this]; exact ⟨.inr h, by omega, rfl⟩
    · obtain ⟨g1, g2⟩ := lineStart_gap code o (o+1) (by omega)
        (fun e h1 h2 => by have : e = o + 1 := by omega
                           rw [this]; exact h)
      rw [g1, g2]; exact ⟨ih.1, by omega, ih.2.2⟩

theorem lineStart_mono (code : Bytes) (o o' : Nat) (h : o ≤ o') : lineStart code o ≤ o' := by
  have := (lineStart_isStart code o).2.1; omega

end Mole.Span
