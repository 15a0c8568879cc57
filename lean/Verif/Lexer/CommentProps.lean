import Verif.Lexer.Comment
import Verif.Lexer.StrLemmas
/-!
# C15: comments, and line feeds before a token
-/
namespace Mole.Lexer
open Spec

/-- The text of a block comment after its `/*`: up to and including the first `*/`. -/
def BlockBody (s body rest : List Nat) : Prop :=
  s = body ++ '*'.toNat :: '/'.toNat :: rest ∧
  ∀ p q, body ++ ['*'.toNat] ≠ p ++ '*'.toNat :: '/'.toNat :: q

open Mole.Span in
/-- `SkipSpace` on bytes is `skipSpaceR` on code points. -/
theorem skipSpace_runes (st : State) :
    st.skipSpace.metLineTerm = (skipSpaceR (decodeAll st.rest)).1 ∧
    decodeAll st.skipSpace.rest = (skipSpaceR (decodeAll st.rest)).2 := by
  obtain ⟨h1, h2⟩ := skipSpace_fn st
  rw [h1, h2]
  generalize decodeAll st.rest = l
  induction l with
  | nil => simp [skipSpaceR]
  | cons c t ih =>
    by_cases hc : isSpace c = true
    · simp [skipSpaceR, hc, ← ih.1, ← ih.2, isLT, isLineTerminator]
    · simp [skipSpaceR, hc]

/-- One character at a time, `*/` ends. -/
def blockS : Bool → List Nat → Except Err (Bool × List Nat)
  | _, [] => .error .unterminatedComment
  | m, c :: t =>
    if c = 42 ∧ t.head? = some 47 then .ok (m, t.tail) else blockS (m || isLT c) t

theorem blockLoop_eq (fuel : Nat) (m : Bool) (s : List Nat) (hf : s.length < fuel) :
    blockLoop fuel m s = some (blockS m s) := by
  induction fuel generalizing m s with
  | zero => omega
  | succ fuel ih =>
    cases s with
    | nil => rfl
    | cons c t =>
      simp only [List.length_cons] at hf
      by_cases hcr : c = 0x0d
      · subst hcr
        cases t with
        | nil =>
          simp only [blockLoop, rd, if_true]
          simp only [show ¬ ((10 : Nat) = 42) by omega, if_false]
          rw [if_pos (show isLT 10 = true by decide), ih _ _ (by simp at hf ⊢; omega)]
          simp [blockS]
        | cons d t =>
          simp only [List.length_cons] at hf
          by_cases hd : d = 0x0a
          · subst hd
            simp only [blockLoop, rd, if_true]
            simp only [show ¬ ((10 : Nat) = 42) by omega, if_false]
            rw [if_pos (show isLT 10 = true by decide), ih _ _ (by omega)]
            simp [blockS, isLT]
          · simp only [blockLoop, rd, if_true, hd, if_false]
            simp only [show ¬ ((10 : Nat) = 42) by omega, if_false]
            rw [if_pos (show isLT 10 = true by decide), ih _ _ (by simp; omega)]
            simp [blockS, isLT]
      · simp only [blockLoop, rd_cons hcr, blockS]
        by_cases h42 : c = 42
        · subst h42
          simp only [if_true, true_and]
          split
          · rename_i hh
            cases t with
            | nil => cases hh
            | cons d t =>
              simp only [List.head?_cons, Option.some.injEq] at hh
              subst hh
              simp [rd_cons]
          · rw [ih _ _ (by omega)]; simp [isLT]
        · simp only [h42, if_false, false_and]
          split
          · rename_i hh; rw [ih _ _ (by omega), hh]; simp
          · rename_i hh; rw [ih _ _ (by omega)]; simp [hh]

theorem blockS_iff (m : Bool) (s : List Nat) (m' : Bool) (rest : List Nat) :
    blockS m s = .ok (m', rest) ↔
      ∃ body, BlockBody s body rest ∧ m' = (m || body.any isLT) := by
  induction s generalizing m with
  | nil =>
    simp only [blockS]
    constructor
    · intro h; cases h
    · rintro ⟨body, ⟨h1, -⟩, -⟩; cases body <;> cases h1
  | cons c t ih =>
    simp only [blockS]
    by_cases h : c = 42 ∧ t.head? = some 47
    · rw [if_pos h]
      obtain ⟨rfl, hh⟩ := h
      cases t with
      | nil => cases hh
      | cons d t =>
        simp only [List.head?_cons, Option.some.injEq] at hh
        subst hh
        simp only [List.tail_cons, Except.ok.injEq, Prod.mk.injEq]
        constructor
        · rintro ⟨rfl, rfl⟩
          refine ⟨[], ⟨rfl, ?_⟩, by simp⟩
          intro p q e
          cases p with
          | nil => simp at e
          | cons x p => cases p <;> simp at e
        · rintro ⟨body, ⟨h1, h2⟩, rfl⟩
          cases body with
          | nil => simp at h1; simp [h1]
          | cons x body =>
            exfalso
            simp only [List.cons_append, List.cons.injEq] at h1
            obtain ⟨rfl, h1⟩ := h1
            cases body with
            | nil => simp at h1
            | cons y body =>
              simp only [List.cons_append, List.cons.injEq] at h1
              obtain ⟨rfl, h1⟩ := h1
              exact h2 [] (body ++ [42]) rfl
    · rw [if_neg h, ih]
      constructor
      · rintro ⟨body, ⟨h1, h2⟩, rfl⟩
        refine ⟨c :: body, ⟨by rw [h1]; rfl, ?_⟩, by simp [Bool.or_assoc]⟩
        intro p q e
        cases p with
        | nil =>
          simp only [List.cons_append, List.nil_append, List.cons.injEq] at e
          apply h
          refine ⟨e.1, ?_⟩
          rw [h1]
          have := e.2
          cases body with
          | nil => simp at this
          | cons y body => simp at this; simp [this.1]
        | cons x p =>
          simp only [List.cons_append, List.cons.injEq] at e
          exact h2 p q e.2
      · rintro ⟨body, ⟨h1, h2⟩, rfl⟩
        cases body with
        | nil =>
          exfalso
          simp only [List.nil_append, List.cons.injEq] at h1
          exact h ⟨h1.1, by rw [h1.2]; rfl⟩
        | cons x body =>
          simp only [List.cons_append, List.cons.injEq] at h1
          obtain ⟨rfl, h1⟩ := h1
          refine ⟨body, ⟨h1, ?_⟩, by simp [Bool.or_assoc]⟩
          intro p q e
          exact h2 (c :: p) q (by rw [List.cons_append, List.cons_append, e])

/-- **C15.** A block comment (after `/*`) ends with the first `*/`, and the flag tells whether
there is a line terminator in it. -/
theorem blockComment_iff (s : List Nat) (multi : Bool) (rest : List Nat) :
    readMultilineComment ('*'.toNat :: s) = some (.ok (multi, rest)) ↔
      ∃ body, BlockBody s body rest ∧ (multi = true ↔ ∃ c ∈ body, LineTerm c) := by
  have hrd : (rd ('*'.toNat :: s)).2 = s := by simp [rd]
  simp only [readMultilineComment, hrd, blockLoop_eq (s.length + 1) false s (by omega),
    Option.some.injEq, blockS_iff]
  constructor
  · rintro ⟨body, h, rfl⟩
    exact ⟨body, h, by simp [isLT_iff]⟩
  · rintro ⟨body, h, h2⟩
    refine ⟨body, h, ?_⟩
    rw [Bool.eq_iff_iff, h2]
    simp [isLT_iff]

/-- **C15.** A block comment is an error exactly when no `*/` follows. -/
theorem blockComment_error_iff (s : List Nat) :
    readMultilineComment ('*'.toNat :: s) = some (.error .unterminatedComment) ↔
      ∀ p q, s ≠ p ++ '*'.toNat :: '/'.toNat :: q := by
  have hrd : (rd ('*'.toNat :: s)).2 = s := by simp [rd]
  simp only [readMultilineComment, hrd, blockLoop_eq (s.length + 1) false s (by omega),
    Option.some.injEq]
  clear hrd
  generalize false = m
  induction s generalizing m with
  | nil => simp [blockS]
  | cons c t ih =>
    simp only [blockS]
    by_cases h : c = 42 ∧ t.head? = some 47
    · rw [if_pos h]
      obtain ⟨rfl, hh⟩ := h
      cases t with
      | nil => cases hh
      | cons d t =>
        simp only [List.head?_cons, Option.some.injEq] at hh
        subst hh
        simp only [reduceCtorEq, false_iff]
        intro h; exact h [] t rfl
    · rw [if_neg h]
      refine (ih _).trans ?_
      constructor
      · intro hh p q e
        cases p with
        | nil =>
          simp only [List.nil_append, List.cons.injEq] at e
          exact h ⟨e.1, by rw [e.2]; rfl⟩
        | cons x p =>
          simp only [List.cons_append, List.cons.injEq] at e
          exact hh p q e.2
      · intro hh p q e
        exact hh (c :: p) q (by rw [e]; rfl)

/-- **C15.** A `//` comment extends to but excludes the next line terminator or the end. -/
theorem lineComment_eq (s : List Nat) :
    ∃ body, s = body ++ readSinglelineComment ('/'.toNat :: s) ∧ (∀ c ∈ body, ¬ LineTerm c) ∧
      ∀ c t, readSinglelineComment ('/'.toNat :: s) = c :: t → LineTerm c := by
  have hrd : (rd ('/'.toNat :: s)).2 = s := by simp [rd]
  simp only [readSinglelineComment, hrd]
  induction s with
  | nil => exact ⟨[], rfl, by simp, by simp [lineLoopR]⟩
  | cons c t ih =>
    by_cases hc : isLT c = true
    · refine ⟨[], by simp [lineLoopR, hc], by simp, ?_⟩
      simp only [lineLoopR, hc, if_true]
      intro d u e; cases e; exact (isLT_iff _).1 hc
    · obtain ⟨body, h1, h2, h3⟩ := ih (by simp [rd])
      simp only [lineLoopR, hc, Bool.false_eq_true, if_false]
      refine ⟨c :: body, by rw [List.cons_append, ← h1], ?_, h3⟩
      intro d hd
      rcases List.mem_cons.1 hd with rfl | hd
      · exact fun h => hc ((isLT_iff _).2 h)
      · exact h2 d hd

example : readMultilineComment [42, 97, 13, 10, 42, 42, 47, 98] = some (.ok (true, [98])) := by
  rfl

/-- White space (`Span.White`). -/
def IsWs (ws : List Nat) : Prop := ∀ c ∈ ws, Span.White c

/-- A complete comment. -/
inductive IsComment : List Nat → Prop
  | line (body) : (∀ c ∈ body, ¬ LineTerm c) → IsComment ('/'.toNat :: '/'.toNat :: body)
  | block (s body) : BlockBody s body [] → IsComment ('/'.toNat :: '*'.toNat :: s)

/-- White space and comments in any order. -/
inductive IsTrivia : List Nat → Prop
  | nil : IsTrivia []
  | ws {c t} : Span.White c → IsTrivia t → IsTrivia (c :: t)
  | cmt {c t} : IsComment c → IsTrivia t → IsTrivia (c ++ t)

theorem skipSpaceR_spec (s : List Nat) :
    ∃ ws, s = ws ++ (skipSpaceR s).2 ∧ IsWs ws ∧
      ((skipSpaceR s).1 = true ↔ ∃ c ∈ ws, LineTerm c) ∧
      ∀ c t, (skipSpaceR s).2 = c :: t → ¬ Span.White c := by
  induction s with
  | nil => exact ⟨[], by simp [skipSpaceR, IsWs]⟩
  | cons c t ih =>
    by_cases hc : Span.isSpace c = true
    · obtain ⟨ws, h1, h2, h3, h4⟩ := ih
      refine ⟨c :: ws, ?_, ?_, ?_, ?_⟩
      · simp only [skipSpaceR, hc, if_true, List.cons_append]; rw [← h1]
      · intro d hd
        rcases List.mem_cons.1 hd with rfl | hd
        · exact (Span.isSpace_iff _).1 hc
        · exact h2 d hd
      · simp only [skipSpaceR, hc, if_true, Bool.or_eq_true, h3, isLT_iff]; simp
      · simpa only [skipSpaceR, hc, if_true] using h4
    · refine ⟨[], by simp [skipSpaceR, hc], by simp [IsWs], by simp [skipSpaceR, hc], ?_⟩
      simp only [skipSpaceR, hc, Bool.false_eq_true, if_false]
      intro d u e; cases e; rw [← Span.isSpace_iff]; exact hc

theorem isTrivia_ws {ws t : List Nat} (h : IsWs ws) (ht : IsTrivia t) : IsTrivia (ws ++ t) := by
  induction ws with
  | nil => exact ht
  | cons c ws ih => exact .ws (h c (by simp)) (ih fun d hd => h d (by simp [hd]))

theorem lexTrivia_spec (fuel : Nat) (prt : Bool) (s : List Nat) (flag : Bool) (rest : List Nat)
    (h : lexTrivia fuel prt s = some (.ok (flag, rest))) :
    (∃ trivia, s = trivia ++ rest ∧ IsTrivia trivia ∧
      ((∃ ws, trivia = ws ∧ IsWs ws ∧ (flag = true ↔ prt = true ∨ ∃ c ∈ ws, LineTerm c)) ∨
       (∃ pre cmt ws, trivia = pre ++ cmt ++ ws ∧ IsTrivia pre ∧ IsComment cmt ∧ IsWs ws ∧
        (flag = true ↔ ∃ c ∈ cmt ++ ws, LineTerm c)))) ∧
    (∀ c t, rest = c :: t → ¬ Span.White c) ∧
    (∀ t, rest ≠ '/'.toNat :: '/'.toNat :: t ∧ rest ≠ '/'.toNat :: '*'.toNat :: t) := by
  induction fuel generalizing prt s with
  | zero => cases h
  | succ fuel ih =>
    obtain ⟨ws, h1, h2, h3, h4⟩ := skipSpaceR_spec s
    simp only [lexTrivia] at h
    generalize hsk : skipSpaceR s = x at *
    obtain ⟨atm, s1⟩ := x
    simp only at h h1 h3 h4
    have done : ∀ (_ : some (Except.ok (ε := Err) (atm || prt, s1)) = some (.ok (flag, rest)))
        (_ : ∀ t, s1 ≠ '/'.toNat :: '/'.toNat :: t ∧ s1 ≠ '/'.toNat :: '*'.toNat :: t),
        (∃ trivia, s = trivia ++ rest ∧ IsTrivia trivia ∧
          ((∃ ws, trivia = ws ∧ IsWs ws ∧ (flag = true ↔ prt = true ∨ ∃ c ∈ ws, LineTerm c)) ∨
           (∃ pre cmt ws, trivia = pre ++ cmt ++ ws ∧ IsTrivia pre ∧ IsComment cmt ∧ IsWs ws ∧
            (flag = true ↔ ∃ c ∈ cmt ++ ws, LineTerm c)))) ∧
        (∀ c t, rest = c :: t → ¬ Span.White c) ∧
        (∀ t, rest ≠ '/'.toNat :: '/'.toNat :: t ∧ rest ≠ '/'.toNat :: '*'.toNat :: t) := by
      intro e hne
      injection e with e; injection e with e; injection e with e1 e2
      subst e1 e2
      refine ⟨⟨ws, h1, by simpa using isTrivia_ws h2 .nil, .inl ⟨ws, rfl, h2, ?_⟩⟩, h4, hne⟩
      rw [Bool.or_eq_true, h3, Or.comm]
    have comment : ∀ (cmt s2 : List Nat) (p : Bool), s1 = cmt ++ s2 → IsComment cmt →
        (p = true ↔ ∃ c ∈ cmt, LineTerm c) → lexTrivia fuel p s2 = some (.ok (flag, rest)) →
        (∃ trivia, s = trivia ++ rest ∧ IsTrivia trivia ∧
          ((∃ ws, trivia = ws ∧ IsWs ws ∧ (flag = true ↔ prt = true ∨ ∃ c ∈ ws, LineTerm c)) ∨
           (∃ pre cmt ws, trivia = pre ++ cmt ++ ws ∧ IsTrivia pre ∧ IsComment cmt ∧ IsWs ws ∧
            (flag = true ↔ ∃ c ∈ cmt ++ ws, LineTerm c)))) ∧
        (∀ c t, rest = c :: t → ¬ Span.White c) ∧
        (∀ t, rest ≠ '/'.toNat :: '/'.toNat :: t ∧ rest ≠ '/'.toNat :: '*'.toNat :: t) := by
      intro cmt s2 p e1 hc hp hl
      obtain ⟨⟨tr, i1, i2, i3⟩, i4, i5⟩ := ih p s2 hl
      refine ⟨⟨ws ++ (cmt ++ tr), ?_, isTrivia_ws h2 (.cmt hc i2), .inr ?_⟩, i4, i5⟩
      · rw [h1, e1, i1]; simp
      · rcases i3 with ⟨ws', rfl, j1, j2⟩ | ⟨pre, cmt', ws', rfl, j1, j2, j3, j4⟩
        · refine ⟨ws, cmt, tr, by simp, by simpa using isTrivia_ws h2 .nil, hc, j1, ?_⟩
          rw [j2, hp]
          simp only [List.mem_append]
          constructor
          · rintro (⟨c, h, h'⟩ | ⟨c, h, h'⟩)
            · exact ⟨c, .inl h, h'⟩
            · exact ⟨c, .inr h, h'⟩
          · rintro ⟨c, h | h, h'⟩
            · exact .inl ⟨c, h, h'⟩
            · exact .inr ⟨c, h, h'⟩
        · exact ⟨ws ++ (cmt ++ pre), cmt', ws', by simp, isTrivia_ws h2 (.cmt hc j1), j2, j3, j4⟩
    match s1, h, h4, done, comment with
    | [], h, h4, done, _ => exact done h (by simp)
    | [c], h, h4, done, _ => exact done h (by simp)
    | c :: d :: t, h, h4, done, comment =>
      simp only at h
      by_cases hl : c = 47 ∧ d = 47
      · rw [if_pos hl] at h
        obtain ⟨rfl, rfl⟩ := hl
        obtain ⟨body, b1, b2, -⟩ := lineComment_eq t
        refine comment ('/'.toNat :: '/'.toNat :: body) (readSinglelineComment ('/'.toNat :: t))
          false ?_ (.line body b2) ?_ h
        · simp only [List.cons_append]; rw [← b1]; rfl
        · simp only [Bool.false_eq_true, List.mem_cons, false_iff]
          rintro ⟨e, rfl | rfl | he, hL⟩
          · revert hL; simp [LineTerm]
          · revert hL; simp [LineTerm]
          · exact b2 e he hL
      · rw [if_neg hl] at h
        by_cases hb : c = 47 ∧ d = 42
        · rw [if_pos hb] at h
          obtain ⟨rfl, rfl⟩ := hb
          cases hm : readMultilineComment (42 :: t) with
          | none => rw [hm] at h; cases h
          | some r =>
            rw [hm] at h
            cases r with
            | error e => cases h
            | ok r =>
              obtain ⟨multi, s2⟩ := r
              simp only at h
              obtain ⟨body, ⟨b1, b2⟩, b3⟩ := (blockComment_iff t multi s2).1 hm
              refine comment ('/'.toNat :: '*'.toNat :: (body ++ ['*'.toNat, '/'.toNat])) s2 multi
                ?_ (.block _ body ⟨by simp, b2⟩) ?_ h
              · rw [b1]; simp
              · rw [b3]
                constructor
                · rintro ⟨e, he, hL⟩
                  exact ⟨e, by simp [he], hL⟩
                · rintro ⟨e, he, hL⟩
                  simp only [List.mem_cons, List.mem_append, List.not_mem_nil, or_false] at he
                  rcases he with rfl | rfl | he | rfl | rfl
                  · revert hL; simp [LineTerm]
                  · revert hL; simp [LineTerm]
                  · exact ⟨e, he, hL⟩
                  · revert hL; simp [LineTerm]
                  · revert hL; simp [LineTerm]
        · rw [if_neg hb] at h
          refine done h ?_
          intro u
          constructor
          · intro e; cases e; exact hl ⟨rfl, rfl⟩
          · intro e; cases e; exact hb ⟨rfl, rfl⟩

/-- **C15** (partial: the language wants the flag to be true when a line terminator stands
*anywhere* before the token).  Skipping to the next token removes exactly white space and
comments, and the token counts as preceded by a line terminator exactly when there is one in
the white space directly before it or in the last comment. -/
theorem lexTrivia_partial (s : List Nat) (flag : Bool) (rest : List Nat)
    (h : lexTrivia (s.length + 1) false s = some (.ok (flag, rest))) :
    (∃ trivia, s = trivia ++ rest ∧ IsTrivia trivia ∧
      ((IsWs trivia ∧ (flag = true ↔ ∃ c ∈ trivia, LineTerm c)) ∨
       (∃ pre cmt ws, trivia = pre ++ cmt ++ ws ∧ IsTrivia pre ∧ IsComment cmt ∧ IsWs ws ∧
        (flag = true ↔ ∃ c ∈ cmt ++ ws, LineTerm c)))) ∧
    (∀ c t, rest = c :: t → ¬ Span.White c) ∧
    (∀ t, rest ≠ '/'.toNat :: '/'.toNat :: t ∧ rest ≠ '/'.toNat :: '*'.toNat :: t) := by
  obtain ⟨⟨tr, h1, h2, h3⟩, h4, h5⟩ := lexTrivia_spec _ _ _ _ _ h
  refine ⟨⟨tr, h1, h2, ?_⟩, h4, h5⟩
  rcases h3 with ⟨ws, rfl, j1, j2⟩ | h3
  · exact .inl ⟨j1, by simpa using j2⟩
  · exact .inr h3

/-- **C15.** Skipping white space and comments always ends. -/
theorem lexTrivia_terminates (fuel : Nat) (prt : Bool) (s : List Nat) (hf : s.length < fuel) :
    ∃ r, lexTrivia fuel prt s = some r := by
  induction fuel generalizing prt s with
  | zero => omega
  | succ fuel ih =>
    obtain ⟨ws, h1, -⟩ := skipSpaceR_spec s
    simp only [lexTrivia]
    generalize skipSpaceR s = x at h1
    obtain ⟨atm, s1⟩ := x
    simp only at h1
    have hl : s1.length ≤ s.length := by rw [h1]; simp
    match s1, hl with
    | [], _ => exact ⟨_, rfl⟩
    | [_], _ => exact ⟨_, rfl⟩
    | c :: d :: t, hl =>
      simp only [List.length_cons] at hl
      simp only
      split
      · rename_i hcd
        obtain ⟨rfl, rfl⟩ := hcd
        obtain ⟨body, b1, -⟩ := lineComment_eq t
        have := congrArg List.length b1
        simp only [List.length_append] at this
        exact ih _ _ (by
          show (readSinglelineComment ('/'.toNat :: t)).length < fuel
          omega)
      · split
        · rename_i hcd
          obtain ⟨rfl, rfl⟩ := hcd
          have hm : ∃ r, readMultilineComment (42 :: t) = some r := by
            simp only [readMultilineComment]
            exact ⟨_, blockLoop_eq _ _ _ (by simp)⟩
          obtain ⟨r, hm⟩ := hm
          rw [hm]
          cases r with
          | error e => exact ⟨_, rfl⟩
          | ok r =>
            obtain ⟨m, s2⟩ := r
            obtain ⟨body, ⟨b1, -⟩, -⟩ := (blockComment_iff t m s2).1 hm
            have := congrArg List.length b1
            simp only [List.length_append, List.length_cons] at this
            exact ih _ _ (by omega)
        · exact ⟨_, rfl⟩

/-- **C15 is violated**: in `⏎/**/b` the line feed before the comment is forgotten, so `b` does
not count as the first token of its line (and `a⏎/**/b` is rejected). -/
theorem newline_before_comment_violated :
    lexTrivia 10 false [10, 47, 42, 42, 47, 98] = some (.ok (false, [98])) := by rfl

/-- **C15 is violated**: a line feed inside a comment is forgotten when another comment
follows. -/
theorem newline_in_comment_violated :
    lexTrivia 20 false [47, 42, 10, 42, 47, 47, 42, 42, 47, 98] = some (.ok (false, [98])) := by
  rfl

example : lexTrivia 20 false [47, 42, 10, 42, 47, 32, 98] = some (.ok (true, [98])) := by rfl

end Mole.Lexer
