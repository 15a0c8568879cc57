import Verif.Parser.JsxSpec
import Verif.Lexer.ScanProps

/-! # What the lexer reads in the modes of JSX (for C79) -/

namespace Mole.Parser.Jsx
open Mole.Lexer (IdTables NameAt BlockBody TriviaAt Part)
open Mole.Lexer.Spec (LineTerm)

variable {E : Type}

/-! ## Gaps -/

theorem gap_trans {q : Bool} {a b c : List Nat} (h : Gap q a b) (g : Gap q b c) : Gap q a c := by
  induction h with
  | nil => exact g
  | ws h _ ih => exact .ws h (ih g)
  | line h1 h2 _ ih => exact .line h1 h2 (ih g)
  | block h1 h2 _ ih => exact .block h1 h2 (ih g)

theorem gap_suffix {q : Bool} {s r : List Nat} (h : Gap q s r) : r <:+ s := by
  induction h with
  | nil => exact List.suffix_refl _
  | ws _ _ ih => exact ih.trans (List.suffix_cons _ _)
  | @line body t r _ _ _ ih => exact ih.trans ⟨'/'.toNat :: '/'.toNat :: body, by simp⟩
  | @block s body t r _ h _ ih => exact ih.trans ⟨'/'.toNat :: '*'.toNat :: (body ++ ['*'.toNat, '/'.toNat]), by
      rw [h.1]; simp⟩

theorem gap_white {q : Bool} {w r : List Nat} (h : ∀ c ∈ w, Span.White c) : Gap q (w ++ r) r := by
  induction w with
  | nil => exact .nil
  | cons c w ih => exact .ws (h c (by simp)) (ih fun x hx => h x (by simp [hx]))

theorem triviaAt_gap {p : Bool} {s : List Nat} {f : Bool} {r : List Nat} (h : TriviaAt p s f r) : Gap true s r := by
  induction h with
  | nil => exact .nil
  | ws h _ _ ih => exact .ws h ih
  | line h1 h2 _ ih => exact .line h1 h2 ih
  | block h1 _ _ ih => exact .block rfl h1 ih

theorem triv_gap {s r : List Nat} (h : Triv s r) : Gap true s r := by
  obtain ⟨f, h⟩ := h
  exact triviaAt_gap h

theorem triv_suffix {s r : List Nat} (h : Triv s r) : r <:+ s := gap_suffix (triv_gap h)

/-- What can follow a gap in a tag. -/
def Stop (r : List Nat) : Prop := (∀ c t, r = c :: t → ¬Span.White c) ∧ ∀ t, r ≠ 47 :: 47 :: t

theorem tagGap_sound (n : Nat) : ∀ s : List Nat, s.length < n → Gap false s (tagGap n s) ∧ Stop (tagGap n s) := by
  induction n with
  | zero => intro s h; omega
  | succ n ih =>
    intro s hn
    obtain ⟨w, h1, h2, -, h4⟩ := Lexer.skipSpaceR_spec s
    have g : Gap false s (Lexer.skipSpaceR s).2 := by
      conv => lhs; rw [h1]
      exact gap_white h2
    simp only [tagGap]
    split
    · rename_i c d t he
      split
      · rename_i hc
        obtain ⟨rfl, rfl⟩ := hc
        obtain ⟨body, b1, b2, b3⟩ := Lexer.lineComment_eq t
        have hlen : (Lexer.readSinglelineComment (47 :: t)).length < n := by
          have e1 : t.length = body.length + (Lexer.readSinglelineComment (47 :: t)).length := by
            conv => lhs; rw [b1]
            simp
          have e2 : s.length = w.length + (47 :: 47 :: t).length := by rw [h1, he]; simp
          simp at e2
          omega
        obtain ⟨i1, i2⟩ := ih _ hlen
        refine ⟨gap_trans g ?_, i2⟩
        rw [he]
        have := Gap.line (q := false) b2 b3 i1
        rw [← b1] at this
        exact this
      · rename_i hc
        refine ⟨he ▸ g, fun c' t' e => ?_, fun t' e => ?_⟩
        · exact h4 c' t' (he.trans e)
        · cases e; exact hc ⟨rfl, rfl⟩
    · rename_i hne
      refine ⟨g, h4, fun t' e => ?_⟩
      exact hne 47 47 t' e

theorem tagGap_eq {s r : List Nat} (h : Gap false s r) (hr : Stop r) : ∀ n, s.length < n → tagGap n s = r := by
  induction h with
  | nil =>
    intro n hn
    cases n with
    | zero => omega
    | succ n =>
      have e : ∀ s : List Nat, (∀ c t, s = c :: t → ¬Span.White c) → (Lexer.skipSpaceR s).2 = s := by
        intro s hs
        cases s with
        | nil => rfl
        | cons c t =>
          have : Span.isSpace c = false := by
            rw [Bool.eq_false_iff]
            intro hc
            exact hs c t rfl ((Span.isSpace_iff c).mp hc)
          simp [Lexer.skipSpaceR, this]
      simp only [tagGap, e _ hr.1]
      split
      · split
        · rename_i hc
          obtain ⟨rfl, rfl⟩ := hc
          exact absurd rfl (hr.2 _)
        · rfl
      · rfl
  | @ws c s r hc _ ih =>
    intro n hn
    cases n with
    | zero => omega
    | succ n =>
      have : Span.isSpace c = true := (Span.isSpace_iff c).mpr hc
      have hi := ih hr (n + 1) (by simp at hn; omega)
      simp only [tagGap, Lexer.skipSpaceR, this, if_true] at hi ⊢
      exact hi
  | @line body t r h1 h2 _ ih =>
    intro n hn
    cases n with
    | zero => omega
    | succ n =>
      have hsp : (Lexer.skipSpaceR ('/'.toNat :: '/'.toNat :: (body ++ t))).2 = 47 :: 47 :: (body ++ t) := by
        have : Span.isSpace 47 = false := by decide
        simp [Lexer.skipSpaceR, this]
      simp only [tagGap, hsp]
      rw [if_pos ⟨trivial, trivial⟩]
      obtain ⟨body', b1, b2, b3⟩ := Lexer.lineComment_eq (body ++ t)
      have : t = Lexer.readSinglelineComment (47 :: (body ++ t)) := Lexer.split_unique b1 h1 b2 h2 b3
      rw [← this]
      exact ih hr n (by simp at hn; omega)
  | block h => cases h

/-! ## Tokens -/

/-- The text of a token. -/
def TokOk (C : Cfg E) : Tok → List Nat → List Nat → Prop
  | .braceL, s, r => s = 123 :: r
  | .braceR, s, r => s = 125 :: r
  | .lt, s, r => s = 60 :: r
  | .gt, s, r => s = 62 :: r
  | .div, s, r => s = 47 :: r ∧ r.head? ≠ some 47
  | .colon, s, r => s = 58 :: r
  | .dot, s, r => s = 46 :: r
  | .assign, s, r => s = 61 :: r
  | .dots, s, r => s = 46 :: 46 :: 46 :: r
  | .name v, s, r => ∃ src esc, s = src ++ r ∧ NameAt C.scan.tables true src v esc ∧
      Lexer.classify ⟨C.scan.module, C.scan.asyncAwait, C.strict, C.async⟩ v esc = .name
  | .word v true, s, r => ∃ src esc, s = src ++ r ∧ NameAt C.scan.tables true src v esc ∧
      Lexer.classify ⟨C.scan.module, C.scan.asyncAwait, C.strict, C.async⟩ v esc ∉
        [Lexer.NameTok.keyword, Lexer.NameTok.escapeInKeyword]
  | _, _, _ => True

theorem part_jsx {T : IdTables} {s n : List Nat} {e : Bool} (h : Part T false s n e) : Part T true s n e := by
  induction h with
  | nil => exact .nil
  | ch h1 h2 _ ih =>
    refine .ch ?_ h2 ih
    simp only [Lexer.part, Bool.false_and, Bool.or_false] at h1
    simp [Lexer.part, h1]
  | esc h1 h2 _ ih => exact .esc h1 h2 ih

theorem nameAt_jsx {T : IdTables} {s n : List Nat} {e : Bool} (h : NameAt T false s n e) : NameAt T true s n e := by
  cases h with
  | ch h1 h2 h3 h4 => exact .ch h1 h2 h3 (part_jsx h4)
  | esc h1 h2 h3 => exact .esc h1 h2 (part_jsx h3)

theorem nameTok_ok {C : Cfg E} {v : List Nat} {esc : Bool} {s r src : List Nat} (hs : s = src ++ r)
    (hn : NameAt C.scan.tables true src v esc) : TokOk C (nameTok C v esc) s r := by
  unfold nameTok
  split
  · rename_i h; exact ⟨src, esc, hs, hn, h⟩
  · trivial
  · rename_i h; exact ⟨src, esc, hs, hn, by rw [h]; decide⟩
  · rename_i h; exact ⟨src, esc, hs, hn, by rw [h]; decide⟩
  · trivial

theorem tagTok_ok {C : Cfg E} {s : List Nat} {t : Tok} {r : List Nat} (hs : Stop s) (h : tagTok C s = (t, r)) : TokOk C t s r := by
  unfold tagTok at h
  split at h
  · cases h; trivial
  · rename_i c u
    split at h
    · cases h; simp_all [TokOk]
    split at h
    · cases h; simp_all [TokOk]
    split at h
    · cases h; simp_all [TokOk]
    split at h
    · cases h; simp_all [TokOk]
    split at h
    · cases h; simp_all [TokOk]
    split at h
    · cases h
      rename_i hc
      subst hc
      refine ⟨rfl, fun h => ?_⟩
      cases r with
      | nil => simp at h
      | cons d u => simp at h; subst h; exact hs.2 _ rfl
    split at h
    · cases h; simp_all [TokOk]
    split at h
    · cases h; simp_all [TokOk]
    split at h
    · cases h; trivial
    split at h
    · rename_i hst
      split at h
      · rename_i v esc r' hv
        cases h
        obtain ⟨src, h1, h2, -⟩ := (Lexer.scanName_iff_partial _ _ _ c rfl hst _ _ _).mp hv
        exact nameTok_ok h1 h2
      · cases h; trivial
    · cases h; trivial

theorem symSwitch_text {F : Lexer.PunctCfg} {c : Nat} {t : List Nat} {p : Lexer.Punct} {r : List Nat}
    (h : Lexer.symSwitch F c t = .punct p r) : c :: t = p.text ++ r ∧ (p = .div → r.head? ≠ some 47) := by
  let Q : Lexer.PunctRes → Prop := fun x => x = .punct p r → c :: t = p.text ++ r ∧ (p = .div → r.head? ≠ some 47)
  have ite : ∀ {d : Prop} [Decidable d] {x y : Lexer.PunctRes}, (d → Q x) → (¬d → Q y) → Q (if d then x else y) := by
    intro d _ x y hx hy; split
    · exact hx ‹_›
    · exact hy ‹_›
  have : Q (Lexer.symSwitch F c t) := by
    unfold Lexer.symSwitch
    rcases t with _ | ⟨a, _ | ⟨b, _ | ⟨d, t⟩⟩⟩
    all_goals (repeat' (apply ite <;> intro _))
    all_goals intro h'
    all_goals first
      | (cases h'; done)
      | (cases h'; simp_all [Lexer.Punct.text, Lexer.ahead]; done)
  exact this h

theorem gate_punct {F : Lexer.PunctCfg} {x : Lexer.PunctRes} {p : Lexer.Punct} {r : List Nat}
    (h : Lexer.gate F x = .punct p r) : x = .punct p r := by
  cases x with
  | slash => cases h
  | illegal => cases h
  | punct p' r' =>
    unfold Lexer.gate at h
    split at h <;> (try split at h) <;> first | (cases h; done) | (cases h; rename_i e; exact e) | (cases h; rfl)

theorem ofTok_ok {C : Cfg E} {a : Bool} {s : List Nat} {t : Lexer.Tok} {r : List Nat}
    (h : Lexer.readTok C.scan ⟨false, C.strict, C.async, a⟩ s = some (.ok (t, r))) : TokOk C (ofTok t) s r := by
  cases s with
  | nil =>
    simp only [Lexer.readTok, Option.some.injEq, Except.ok.injEq, Prod.mk.injEq] at h
    obtain ⟨rfl, rfl⟩ := h
    trivial
  | cons c u =>
    simp only [Lexer.readTok] at h
    split at h
    · rename_i hst
      split at h
      · cases h
      · cases h
      · rename_i k n e r' hr
        simp only [Option.some.injEq, Except.ok.injEq, Prod.mk.injEq] at h
        obtain ⟨rfl, rfl⟩ := h
        obtain ⟨txt, h1, h2, h3, h4, h5⟩ := Lexer.readName_sound rfl hst hr
        cases k with
        | name => exact ⟨txt, e, h1, nameAt_jsx h2, h4⟩
        | keyword => trivial
        | strictKeyword => exact ⟨txt, e, h1, nameAt_jsx h2, by simp only [] at h4; rw [h4]; decide⟩
        | await => exact ⟨txt, e, h1, nameAt_jsx h2, by simp only [] at h4; rw [h4]; decide⟩
        | escapeInKeyword => exact absurd rfl h5
    · split at h
      · split at h
        · cases h
        · simp only [Option.some.injEq, Except.ok.injEq, Prod.mk.injEq] at h
          obtain ⟨rfl, rfl⟩ := h
          trivial
      · split at h
        · split at h
          · cases h
          · cases h
          · simp only [Option.some.injEq, Except.ok.injEq, Prod.mk.injEq] at h
            obtain ⟨rfl, rfl⟩ := h
            trivial
        · split at h
          · split at h
            · cases h
            · split at h
              · cases h
              · simp only [Option.some.injEq, Except.ok.injEq, Prod.mk.injEq] at h
                obtain ⟨rfl, rfl⟩ := h
                trivial
          · split at h
            · split at h
              · split at h
                · cases h
                · cases h
                · split at h
                  · cases h
                  · simp only [Option.some.injEq, Except.ok.injEq, Prod.mk.injEq] at h
                    obtain ⟨rfl, rfl⟩ := h
                    trivial
                  · simp only [Option.some.injEq, Except.ok.injEq, Prod.mk.injEq] at h
                    obtain ⟨rfl, rfl⟩ := h
                    trivial
              · cases h
            · split at h
              · rename_i p r' hp
                simp only [Option.some.injEq, Except.ok.injEq, Prod.mk.injEq] at h
                obtain ⟨rfl, rfl⟩ := h
                have key : ∃ u', c :: u = c :: u' ∧ Lexer.symSwitch { C.scan.punct with regexpAhead := a } c u = .punct p r' := by
                  refine ⟨u, rfl, ?_⟩
                  unfold Lexer.readSymbol at hp
                  by_cases hc : c = 13
                  · subst hc
                    exfalso
                    have hx : ∃ w, Lexer.rd (13 :: u) = (some 10, w) := by
                      cases u with
                      | nil => exact ⟨_, rfl⟩
                      | cons d u => simp only [Lexer.rd, if_true]; split <;> exact ⟨_, rfl⟩
                    obtain ⟨w, hw⟩ := hx
                    rw [hw] at hp
                    have := gate_punct hp
                    simp [Lexer.symSwitch] at this
                  · rw [Lexer.rd_cons hc] at hp
                    exact gate_punct hp
                obtain ⟨u', -, hs⟩ := key
                have := symSwitch_text hs
                cases p <;> first | exact this.1 | exact ⟨this.1, this.2 rfl⟩ | trivial
              · cases h
              · split at h
                · cases h
                · cases h
                · simp only [Option.some.injEq, Except.ok.injEq, Prod.mk.injEq] at h
                  obtain ⟨rfl, rfl⟩ := h
                  trivial

theorem strLoop_iff {q : Nat} {s v r : List Nat} : strLoop q s = some (v, r) ↔ s = v ++ q :: r ∧ q ∉ v := by
  induction s generalizing v with
  | nil => simp [strLoop]
  | cons c t ih =>
    simp only [strLoop]
    split
    · rename_i hc
      subst hc
      constructor
      · intro h; cases h; simp
      · rintro ⟨h, hn⟩
        cases v with
        | nil => simp at h; simp [h]
        | cons d v => simp at h; simp [h.1] at hn
    · rename_i hc
      constructor
      · intro h
        split at h
        · rename_i v' r' hv
          cases h
          have := ih.mp hv
          refine ⟨by simp [this.1], ?_⟩
          simp only [List.mem_cons, not_or]
          exact ⟨fun e => hc e.symm, this.2⟩
        · cases h
      · rintro ⟨h, hn⟩
        cases v with
        | nil => simp at h; exact absurd h.1 hc
        | cons d v =>
          simp at h hn
          rw [ih.mpr ⟨h.2, hn.2⟩, h.1]

/-- In a mode, the text before and of a token. -/
theorem lex_ok {C : Cfg E} {m : Mode} {s w : List Nat} {t : Tok} {r : List Nat} (hm : m ≠ .child) (h : lex C m s = (w, t, r))
    (ht : t ≠ .bad) : w = [] ∧ ∃ s1, Gap true s s1 ∧ (m ≠ .jsx → Triv s s1) ∧ TokOk C t s1 r ∧
      (m = .attr → ∀ v, t = .str v → ∃ k, (k = 34 ∨ k = 39) ∧ s1 = k :: (v ++ k :: r) ∧ k ∉ v) ∧
      (m = .jsx → ∀ v, t ≠ .str v) := by
  cases m with
  | child => exact absurd rfl hm
  | jsx =>
    simp only [lex, Prod.mk.injEq] at h
    obtain ⟨h0, h1⟩ := h
    obtain ⟨g1, g2⟩ := tagGap_sound (s.length + 1) s (by omega)
    refine ⟨h0.symm, _, ?_, by simp, tagTok_ok g2 h1, by simp, ?_⟩
    · have : ∀ {a b : List Nat}, Gap false a b → Gap true a b := by
        intro a b h
        induction h with
        | nil => exact .nil
        | ws h _ ih => exact .ws h ih
        | line h1 h2 _ ih => exact .line h1 h2 ih
        | block h => cases h
      exact this g1
    · intro _ v e
      subst e
      unfold tagTok at h1
      split at h1
      · cases h1
      · (iterate 9 (split at h1; · cases h1))
        split at h1
        · split at h1
          · unfold nameTok at h1
            split at h1 <;> cases h1
          · cases h1
        · cases h1
  | attr =>
    simp only [lex] at h
    split at h
    · rename_i f r' hl
      simp only [Prod.mk.injEq] at h
      obtain ⟨h0, h1⟩ := h
      have ht := (Lexer.lexTrivia_iff _ _ _ _ _ (Nat.lt_succ_self _)).mp hl
      refine ⟨h0.symm, r', triviaAt_gap ht, fun _ => ⟨f, ht⟩, ?_, ?_, by simp⟩
      · unfold plainTok at h1
        split at h1
        · cases h1; trivial
        · split at h1
          · split at h1
            · cases h1; trivial
            · cases h1; trivial
          · split at h1
            · rename_i hr
              cases h1
              exact ofTok_ok hr
            · cases h1; trivial
      · intro _ v e
        subst e
        unfold plainTok at h1
        split at h1
        · cases h1
        · split at h1
          · rename_i hq
            split at h1
            · rename_i v' r'' hv
              cases h1
              have := strLoop_iff.mp hv
              exact ⟨_, by omega, by rw [this.1], this.2⟩
            · cases h1
          · rename_i c u hq
            split at h1
            · rename_i hr
              exfalso
              simp only [Prod.mk.injEq] at h1
              obtain ⟨e1, e2⟩ := h1
              have hnq : ¬(c = 39 ∨ c = 34) := fun h => hq ⟨by simp, h⟩
              rename_i tk r0
              have hstr : ∃ v o, tk = .str v o := by
                cases tk <;> simp [ofTok] at e1
                · rename_i k _ _; cases k <;> simp [ofTok] at e1
                · exact ⟨_, _, rfl⟩
                · rename_i p; cases p <;> simp [ofTok] at e1
              obtain ⟨v', o, rfl⟩ := hstr
              simp only [Lexer.readTok] at hr
              split at hr
              · split at hr <;> simp at hr
              · split at hr
                · split at hr <;> simp at hr
                · split at hr
                  · split at hr
                    · simp at hr
                    · split at hr <;> simp at hr
                  · split at hr
                    · split at hr
                      · split at hr
                        · simp at hr
                        · simp at hr
                        · split at hr <;> simp at hr
                      · simp at hr
                    · split at hr
                      · simp at hr
                      · simp at hr
                      · split at hr <;> simp at hr
            · cases h1
    · simp only [Prod.mk.injEq] at h
      exact absurd h.2.1.symm ht
  | none =>
    simp only [lex] at h
    split at h
    · rename_i f r' hl
      simp only [Prod.mk.injEq] at h
      obtain ⟨h0, h1⟩ := h
      have ht := (Lexer.lexTrivia_iff _ _ _ _ _ (Nat.lt_succ_self _)).mp hl
      refine ⟨h0.symm, r', triviaAt_gap ht, fun _ => ⟨f, ht⟩, ?_, by simp, by simp⟩
      unfold plainTok at h1
      split at h1
      · cases h1; trivial
      · split at h1
        · split at h1
          · cases h1; trivial
          · cases h1; trivial
        · split at h1
          · rename_i hr
            cases h1
            exact ofTok_ok hr
          · cases h1; trivial
    · simp only [Prod.mk.injEq] at h
      exact absurd h.2.1.symm ht

/-- Between tags. -/
theorem lex_child {C : Cfg E} {s w : List Nat} {t : Tok} {r : List Nat} (h : lex C .child s = (w, t, r)) :
    (∀ c ∈ w, Span.White c) ∧ ∃ s1, s = w ++ s1 ∧ (∀ c u, s1 = c :: u → ¬Span.White c) ∧ childTok C w s1 = (t, r) := by
  simp only [lex, Prod.mk.injEq] at h
  obtain ⟨h0, h1⟩ := h
  obtain ⟨ws, g1, g2, -, g4⟩ := Lexer.skipSpaceR_spec s
  have e : s.take (s.length - (Lexer.skipSpaceR s).2.length) = ws := by
    conv => lhs; rw [g1]
    conv => lhs; arg 1; rw [← g1]
    rw [show s.length = ws.length + (Lexer.skipSpaceR s).2.length by conv => lhs; rw [g1]; simp]
    simp
  rw [e] at h0 h1
  subst h0
  exact ⟨g2, _, g1, g4, h1⟩

end Mole.Parser.Jsx
