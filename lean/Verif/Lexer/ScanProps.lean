import Verif.Lexer.ScanLemmas

/-!
# C69: the tokens tile the source
-/
namespace Mole.Lexer
open Spec

theorem symSwitch_slash {F : PunctCfg} {c : Nat} {t : List Nat} (h : gate F (symSwitch F c t) = .slash) :
    c = 47 ∧ (ahead 47 t = true ∨ ahead 42 t = true ∨ F.regexpAhead = true) := by
  have h' : symSwitch F c t = .slash := by
    cases hs : symSwitch F c t with
    | slash => rfl
    | illegal => rw [hs] at h; cases h
    | punct p r =>
      rw [hs] at h
      unfold gate at h
      split at h <;> (try split at h) <;> first | cases h | simp_all
  unfold symSwitch at h'
  have key : c = 47 := by
    apply Classical.byContradiction
    intro hc
    simp only [if_neg hc] at h'
    let Q : PunctRes → Prop := fun x => x = .slash → False
    have ite : ∀ {d : Prop} [Decidable d] {x y : PunctRes}, Q x → Q y → Q (if d then x else y) := by
      intro d _ x y hx hy; split <;> assumption
    revert h'
    repeat' apply ite
    all_goals exact nofun
  subst key
  refine ⟨rfl, ?_⟩
  simp only [Nat.reduceEqDiff, if_false, if_true] at h'
  split at h'
  · exact .inl ‹_›
  split at h'
  · exact .inr (.inl ‹_›)
  split at h'
  · exact .inr (.inr ‹_›)
  split at h' <;> cases h'

/-- The scanner of one token, outside of comments. -/
theorem readTok_sound {C : ScanCfg} {a : Ask} {s : List Nat}
    (hts : C.punct.maybeLshHere = true → C.punct.lshHere = true ∨ (C.punct.ts = false ∧ C.punct.tsTypArg = false))
    (hs : ∀ c ∈ s, Scalar c) (hcm : ∀ t, s ≠ '/'.toNat :: '/'.toNat :: t ∧ s ≠ '/'.toNat :: '*'.toNat :: t)
    {tok : Tok} {rest : List Nat} (h : readTok C a s = some (.ok (tok, rest))) :
    ∃ txt, s = txt ++ rest ∧ Lexeme C a tok txt rest := by
  cases s with
  | nil =>
    simp only [readTok, Option.some.injEq, Except.ok.injEq, Prod.mk.injEq] at h
    obtain ⟨rfl, rfl⟩ := h
    exact ⟨[], rfl, .eof⟩
  | cons c t =>
    simp only [readTok] at h
    split at h
    · rename_i hst
      split at h
      · cases h
      · cases h
      · rename_i k n e r hr
        simp only [Option.some.injEq, Except.ok.injEq, Prod.mk.injEq] at h
        obtain ⟨rfl, rfl⟩ := h
        obtain ⟨txt, h1, h2, h3, rfl, h5⟩ := readName_sound rfl hst hr
        exact ⟨txt, h1, .name h2 h3 h5⟩
    · split at h
      · rename_i hn
        split at h
        · cases h
        · rename_i r hr
          simp only [Option.some.injEq, Except.ok.injEq, Prod.mk.injEq] at h
          obtain ⟨rfl, rfl⟩ := h
          obtain ⟨k, lit, h1, h2, h3, h4⟩ := (readNum_iff_partial _ _ _ _ hn).mp hr
          exact ⟨lit, h1, .num h2 h3 h4⟩
      · rename_i hnum
        split at h
        · rename_i hq
          have hq' : c = '"'.toNat ∨ c = '\''.toNat := by
            rcases hq with rfl | rfl
            · exact .inr rfl
            · exact .inl rfl
          split at h
          · cases h
          · cases h
          · rename_i buf raw oct r hr
            simp only [Option.some.injEq, Except.ok.injEq, Prod.mk.injEq] at h
            obtain ⟨rfl, rfl⟩ := h
            obtain ⟨vs, body, o', h1, h2, h3, h4, h5⟩ := strLoop_lit _ _ _ _ _ _ _ _ _ _ _ _ (fun d hd => hs d (by simp [hd])) hr
            refine ⟨c :: body ++ [c], by simp [h4], ?_⟩
            rw [h4] at h1
            simp only [Option.getD_none, List.nil_append, Bool.false_or] at h2 h3 h5
            rw [h3]
            refine .str (vs := vs) hq' h1 (fun hv => ?_) (fun hv => ?_)
            · rw [(strText_eq _ _).1 (by rw [h2]; simpa using hv), h2]
            · rw [(strText_eq _ _).2 (by rw [h2, hv]; rfl), h5]
        · rename_i hnq
          split at h
          · rename_i htp
            split at h
            · cases h
            · rename_i r hr
              split at h
              · cases h
              · rename_i hne
                simp only [Option.some.injEq, Except.ok.injEq, Prod.mk.injEq] at h
                obtain ⟨rfl, rfl⟩ := h
                obtain ⟨body, hb⟩ := tplLoop_ends _ _ _ _ _ hr hne
                have hh : (c == 96) = false → a.template = true := by
                  intro h0
                  rcases htp with rfl | ⟨h1, -⟩
                  · cases h0
                  · exact h1
                have hc : c = if (c == 96) = true then '`'.toNat else '}'.toNat := by
                  rcases htp with rfl | ⟨-, rfl⟩ <;> rfl
                refine ⟨c :: (body ++ if r.fin = true then [96] else [36, 123]), by simp [hb], ?_⟩
                obtain ⟨text, fin, err, ee, rs⟩ := r
                simp only at hne hb ⊢
                subst hne
                cases ee with
                | some e =>
                  have := Lexeme.tplBad (C := C) (a := a) (head := c == 96) (fin := fin) (body := body) (rest := rs) (v := text)
                    (e := e) hh
                  rw [← hc] at this
                  exact this
                | none =>
                  obtain ⟨vs, h1, h2, h3⟩ := tplLoop_sound _ _ _ _ _ _ hr
                  rw [hb] at h1
                  have := Lexeme.tpl (C := C) (a := a) (head := c == 96) hh h1 h2
                  rw [← hc] at this
                  simp only [List.nil_append] at h3
                  rw [h3]
                  exact this
          · rename_i hntp
            split at h
            · rename_i h35
              subst h35
              split at h
              · rename_i hst
                split at h
                · cases h
                · cases h
                · rename_i k n e r hr
                  cases t with
                  | nil => cases hst
                  | cons d t =>
                    obtain ⟨txt, h1, h2, h3, h4, h5⟩ := readName_sound rfl hst hr
                    split at h
                    · cases h
                    · rename_i hp
                      simp only [Option.some.injEq, Except.ok.injEq, Prod.mk.injEq] at h
                      obtain ⟨rfl, rfl⟩ := h
                      unfold classifyPvt at hp
                      split at hp
                      · cases hp
                      · split at hp
                        · rename_i hprv
                          exact ⟨_, by rw [h1]; rfl, .pvt h2 h3 h4 hprv⟩
                        · cases hp
                      · cases hp
                    · rename_i k' hp
                      simp only [Option.some.injEq, Except.ok.injEq, Prod.mk.injEq] at h
                      obtain ⟨rfl, rfl⟩ := h
                      unfold classifyPvt at hp
                      split at hp
                      · cases hp
                      · split at hp <;> cases hp
                      · rename_i hn1 hn2
                        simp only [Option.some.injEq, Sum.inl.injEq] at hp
                        subst hp
                        exact ⟨_, by rw [h1]; rfl, .pvtWord h2 h3 h4 hn2 h5⟩
              · cases h
            · split at h
              · rename_i p r hr
                simp only [Option.some.injEq, Except.ok.injEq, Prod.mk.injEq] at h
                obtain ⟨rfl, rfl⟩ := h
                obtain ⟨h1, h2⟩ := (readSymbol_iff { C.punct with regexpAhead := a.regexp } _ _ _ hts).mp hr
                have he := h1.1.1
                rw [he] at h1
                refine ⟨_, he, .punct h1 ?_ ?_ ?_⟩
                · cases p <;> exact h2
                · rintro rfl
                  cases hT : a.template with
                  | false => rfl
                  | true =>
                    exfalso
                    simp only [Punct.text] at he
                    injection he with he
                    exact hntp (.inr ⟨hT, he⟩)
                · rintro rfl d hd ⟨g1, g2⟩
                  cases r with
                  | nil => cases hd
                  | cons d' r =>
                    simp only [List.head?_cons, Option.some.injEq] at hd
                    subst hd
                    simp only [Punct.text] at he
                    rw [he] at hnum
                    simp only [Char.reduceToNat] at g1 g2
                    simp [aheadIsNumStart, onRune, isDecimalDigit, ahead2nd, g1, g2] at hnum
              · cases h
              · rename_i hr
                split at h
                · cases h
                · cases h
                · rename_i p fs r hrx
                  simp only [Option.some.injEq, Except.ok.injEq, Prod.mk.injEq] at h
                  obtain ⟨rfl, rfl⟩ := h
                  by_cases h13 : c = 13
                  · exfalso
                    subst h13
                    rw [readSymbol] at hr
                    split at hr
                    · cases hr
                    · rename_i d u hrd
                      have := (symSwitch_slash hr).1
                      subst this
                      cases t with
                      | nil => simp [rd] at hrd
                      | cons e t =>
                        simp only [rd, if_true] at hrd
                        split at hrd <;> simp at hrd
                  · rw [readSymbol, rd_cons h13] at hr
                    obtain ⟨rfl, h2⟩ := symSwitch_slash hr
                    have ha : a.regexp = true := by
                      rcases h2 with h2 | h2 | h2
                      · obtain ⟨u, rfl⟩ := ahead_true h2
                        exact absurd rfl (hcm u).1
                      · obtain ⟨u, rfl⟩ := ahead_true h2
                        exact absurd rfl (hcm u).2
                      · exact h2
                    obtain ⟨fl, e, g1, g2, g3, g4, g5, g6⟩ := regexp_sound hrx
                    exact ⟨'/'.toNat :: (p ++ '/'.toNat :: fl), by rw [g1]; simp, .regexp ha g2 g3 g4 g5 g6⟩

/-- No illegal escape in a template. -/
def Tok.clean : Tok → Prop
  | .tpl _ _ _ e => e = none
  | _ => True

theorem punct_head (p : Punct) : ∃ c t, p.text = c :: t ∧ isIdStart T c = false ∧ isDecimalDigit c = false ∧ c ≠ 39 ∧ c ≠ 34 ∧
    c ≠ 96 ∧ c ≠ 35 ∧ (c = 46 → p = .dot ∨ p = .dotTri) ∧ (c = 125 → p = .braceR) := by
  cases p <;> exact ⟨_, _, rfl, rfl, rfl, by decide, by decide, by decide, by decide, by decide, by decide⟩

theorem readTok_complete {C : ScanCfg} {a : Ask} {tok : Tok} {txt rest : List Nat}
    (hts : C.punct.maybeLshHere = true → C.punct.lshHere = true ∨ (C.punct.ts = false ∧ C.punct.tsTypArg = false))
    (hs : ∀ c ∈ txt ++ rest, Scalar c) (hcl : tok.clean) (h : Lexeme C a tok txt rest) :
    readTok C a (txt ++ rest) = some (.ok (tok, rest)) := by
  cases h with
  | eof => rfl
  | name h1 h2 h3 =>
    obtain ⟨c, t, rfl, hc⟩ := nameAt_start h1
    have := readName_complete (a := a) h1 h2 h3
    simp only [List.cons_append] at this ⊢
    simp only [readTok, hc, if_true, this]
  | @pvt txt _ n e h1 h2 h3 h4 =>
    obtain ⟨c, t, rfl, hc⟩ := nameAt_start h1
    have := readName_complete (a := a) h1 h2 (by rw [h3]; nofun)
    simp only [List.cons_append] at this ⊢
    have h35 : isIdStart C.tables 35 = false := rfl
    simp [readTok, this, h35, aheadIsNumStart, onRune, isDecimalDigit, hc, h3, h4, classifyPvt]
  | @pvtWord txt _ n e k h1 h2 h3 h4 h5 =>
    obtain ⟨c, t, rfl, hc⟩ := nameAt_start h1
    have := readName_complete (a := a) h1 h2 (by rw [h3]; exact h5)
    simp only [List.cons_append] at this ⊢
    have h35 : isIdStart C.tables 35 = false := rfl
    have hk : classifyPvt C.prv k = some (.inl k) := by
      cases k <;> first | rfl | exact absurd rfl h4 | exact absurd rfl h5
    simp [readTok, this, h35, aheadIsNumStart, onRune, isDecimalDigit, hc, h3, hk]
  | @num k _ _ h1 h2 h3 =>
    have hn : aheadIsNumStart (txt ++ rest) = true ∧ ∃ c t, txt = c :: t ∧ isIdStart C.tables c = false := by
      obtain ⟨d, t, rfl, h⟩ := numLit_start h1
      rcases h with ⟨g1, g2⟩ | ⟨rfl, d', t', rfl, g1, g2⟩
      · simp only [Char.reduceToNat] at g1 g2
        refine ⟨by simp [aheadIsNumStart, onRune, isDecimalDigit, g1, g2], d, t, rfl, ?_⟩
        rw [isIdStart, if_pos (by omega)]; simp; omega
      · simp only [Char.reduceToNat] at g1 g2
        exact ⟨by simp [aheadIsNumStart, onRune, isDecimalDigit, ahead2nd, g1, g2], _, _, rfl, rfl⟩
    obtain ⟨hn, c, t, rfl, hc⟩ := hn
    have := (readNum_iff_partial C.tables ⟨C.sep, C.bigint, a.strict⟩ _ rest hn).mpr ⟨k, c :: t, rfl, h1, h2, h3⟩
    simp only [List.cons_append] at this hn ⊢
    simp only [readTok, hc, hn, this, if_true, Bool.false_eq_true, if_false]
  | @str q body _ vs oct v hq h1 h2 h3 =>
    have hq' : q = 34 ∨ q = 39 := hq
    have hsq : ∀ c ∈ body ++ q :: rest, Scalar c := fun c hc => hs c (by
      simp only [List.mem_append, List.mem_cons] at hc
      simp only [List.cons_append, List.append_assoc, List.mem_cons, List.mem_append]
      grind)
    obtain ⟨b, w, g1, g2⟩ := strLoop_lit_complete _ _ _ hq' _ _ _ _ h1 ((body ++ q :: rest).length + 1) none [] false
      (by omega) hsq
    obtain ⟨-, body', -, -, -, -, g3, g4⟩ := strLoop_lit _ _ _ _ _ _ _ _ _ _ _ _ hsq g1
    have g3 := List.append_cancel_right g3
    simp only [Option.getD_none, List.nil_append, Bool.false_or] at g1 g2 g4
    have hv : strText b w = v := by
      by_cases hvs : vs = []
      · rw [(strText_eq _ _).2 (by rw [g2, hvs]; rfl), g4, ← g3, h3 hvs]
      · rw [(strText_eq _ _).1 (by rw [g2]; simpa using hvs), g2, h2 hvs]
    have hqs : isIdStart C.tables q = false ∧ isDecimalDigit q = false ∧ q ≠ 46 := by
      rcases hq' with rfl | rfl <;> exact ⟨rfl, rfl, by decide⟩
    have hsrc : q :: body ++ [q] ++ rest = q :: (body ++ q :: rest) := by simp
    have hn : aheadIsNumStart (q :: (body ++ q :: rest)) = false := by
      simp [aheadIsNumStart, onRune, hqs.2.1, hqs.2.2]
    have hqq : q = 39 ∨ q = 34 := hq'.symm
    rw [hsrc]
    simp only [readTok, hqs.1, hn, hqq, readStr, g1, hv, if_true, Bool.false_eq_true, if_false]
  | @tpl head fin txt _ vs h1 h2 h3 =>
    have := tplLoop_complete _ _ _ _ h2 ((txt ++ rest).length + 1) [] (by omega) h3
    simp only [List.nil_append] at this
    cases head with
    | true =>
      simp only [if_true, List.cons_append]
      have h0 : isIdStart C.tables 96 = false := rfl
      simp [readTok, h0, aheadIsNumStart, onRune, isDecimalDigit]
      rw [List.length_append] at this
      simp [this]
    | false =>
      simp only [Bool.false_eq_true, if_false, List.cons_append]
      have h0 : isIdStart C.tables 125 = false := rfl
      simp [readTok, h0, aheadIsNumStart, onRune, isDecimalDigit, h1 rfl]
      rw [List.length_append] at this
      simp [this]
  | tplBad => cases hcl
  | @punct p _ h1 h2 h3 h4 =>
    have hr := (readSymbol_iff { C.punct with regexpAhead := a.regexp } (p.text ++ rest) p rest hts).mpr
      ⟨h1, by cases p <;> exact h2⟩
    obtain ⟨c, t, hp, g1, g2, g3, g4, g5, g6, g7, g8⟩ := punct_head (T := C.tables) p
    rw [hp] at hr ⊢
    simp only [List.cons_append] at hr ⊢
    have hn : aheadIsNumStart (c :: (t ++ rest)) = false := by
      by_cases h46 : c = 46
      · subst h46
        rcases g7 rfl with rfl | rfl
        · cases hp
          cases rest with
          | nil => rfl
          | cons d rest =>
            have := h4 rfl d rfl
            simp only [Dec, Char.reduceToNat] at this
            simp [aheadIsNumStart, onRune, ahead2nd, isDecimalDigit]
            omega
        · cases hp; rfl
      · simp [aheadIsNumStart, onRune, g2, h46]
    have h125 : ¬(a.template = true ∧ c = 125) := by
      rintro ⟨h, rfl⟩
      rw [h3 (g8 rfl)] at h
      cases h
    simp only [readTok, g1, hn, g3, g4, g5, g6, h125, or_self, hr, Bool.false_eq_true, if_false]
  | @regexp p fl fs e _ h1 h2 h3 h4 h5 h6 =>
    have := regexp_complete h2 h3 h4 h5 h6
    have h47 : isIdStart C.tables 47 = false := rfl
    have hsrc : '/'.toNat :: (p ++ '/'.toNat :: fl) ++ rest = 47 :: (p ++ '/'.toNat :: (fl ++ rest)) := by simp
    rw [hsrc]
    have hn : aheadIsNumStart (47 :: (p ++ '/'.toNat :: (fl ++ rest))) = false := rfl
    have hsy : readSymbol { C.punct with regexpAhead := a.regexp } (47 :: (p ++ '/'.toNat :: (fl ++ rest))) = .slash := by
      rw [readSymbol, rd_cons (by decide)]
      simp only [symSwitch, h1, if_true, Nat.reduceEqDiff, if_false]
      have : ∀ x : Bool, ∀ y : Bool, (if x = true then PunctRes.slash else if y = true then .slash else .slash) = .slash := by
        intro x y; cases x <;> cases y <;> rfl
      rw [this]
      rfl
    simp only [readTok, h47, hn, hsy, this, Bool.false_eq_true, if_false, Nat.reduceEqDiff, or_self, and_false]

/-- **C69, soundness.** For every source, every list of questions and every configuration: if the lexer answers with tokens, then the
source is, piece by piece, white space and comments, the text of the first token, white space and comments, the text of the
second token, and so on, and then the text left; and each token is the one its text spells. -/
theorem tokens_tile (C : ScanCfg)
    (hts : C.punct.maybeLshHere = true → C.punct.lshHere = true ∨ (C.punct.ts = false ∧ C.punct.tsTypArg = false))
    (asks : List Ask) (s : List Nat) (hs : ∀ c ∈ s, Scalar c) (toks : List (Tok × Bool)) (rest : List Nat)
    (h : lexAll C asks s = some (.ok (toks, rest))) : Tiles C asks toks s rest := by
  induction asks generalizing s toks with
  | nil =>
    simp only [lexAll, Option.some.injEq, Except.ok.injEq, Prod.mk.injEq] at h
    obtain ⟨rfl, rfl⟩ := h
    exact .nil
  | cons a as ih =>
    simp only [lexAll] at h
    split at h
    · cases h
    · cases h
    · rename_i tok nl r hr
      split at h
      · cases h
      · cases h
      · rename_i toks' r' hr'
        simp only [Option.some.injEq, Except.ok.injEq, Prod.mk.injEq] at h
        obtain ⟨rfl, rfl⟩ := h
        rw [lexTok] at hr
        split at hr
        · cases hr
        · cases hr
        · rename_i nl' s1 htr
          split at hr
          · cases hr
          · cases hr
          · rename_i tok' r2 hrt
            simp only [Option.some.injEq, Except.ok.injEq, Prod.mk.injEq] at hr
            obtain ⟨rfl, rfl, rfl⟩ := hr
            obtain ⟨⟨tr, hse, g2, -⟩, -, g4⟩ := lexTrivia_partial _ _ _ htr
            have hs1 : ∀ c ∈ s1, Scalar c := fun c hc => hs c (by rw [hse]; simp [hc])
            obtain ⟨txt, rfl, hl⟩ := readTok_sound hts hs1 g4 hrt
            exact .cons ((lexTrivia_iff _ _ _ _ _ (Nat.lt_succ_self _)).mp htr) hl
              (ih _ (fun c hc => hs1 c (by simp [hc])) _ hr')

theorem triviaAt_suffix {p : Bool} {s : List Nat} {f : Bool} {rest : List Nat} (h : TriviaAt p s f rest) : rest <:+ s := by
  induction h with
  | nil => exact ⟨[], rfl⟩
  | ws _ _ _ ih => exact ih.trans (List.suffix_cons _ _)
  | @line p body t f rest _ _ _ ih => exact ih.trans ⟨'/'.toNat :: '/'.toNat :: body, by simp⟩
  | @block p m s body t f rest h _ _ ih => exact ih.trans ⟨'/'.toNat :: '*'.toNat :: (body ++ ['*'.toNat, '/'.toNat]), by
      rw [h.1]; simp⟩

/-- **C69** (partial: without templates that have an illegal escape, and where `<<` is not doubtful).  The lexer answers with the tokens
`toks` exactly when the source is tiled by them: white space and comments, the longest token, white space and comments, the longest token, and
so on. -/
theorem tokens_iff_partial (C : ScanCfg)
    (hts : C.punct.maybeLshHere = true → C.punct.lshHere = true ∨ (C.punct.ts = false ∧ C.punct.tsTypArg = false))
    (asks : List Ask) (s : List Nat) (hs : ∀ c ∈ s, Scalar c) (toks : List (Tok × Bool)) (hcl : ∀ t ∈ toks, t.1.clean)
    (rest : List Nat) :
    lexAll C asks s = some (.ok (toks, rest)) ↔ Tiles C asks toks s rest := by
  refine ⟨tokens_tile C hts asks s hs toks rest, fun h => ?_⟩
  induction h with
  | nil => rfl
  | @cons a as tok nl toks txt s s' rest h1 h2 _ ih =>
    have hsuf := triviaAt_suffix h1
    have hs1 : ∀ c ∈ txt ++ s', Scalar c := fun c hc => hs c (hsuf.mem hc)
    have e1 := (lexTrivia_iff (s.length + 1) false s nl (txt ++ s') (Nat.lt_succ_self _)).mpr h1
    have e2 := readTok_complete hts hs1 (hcl (tok, nl) (by simp)) h2
    have e3 := ih (fun c hc => hs1 c (by simp [hc])) (fun t ht => hcl t (by simp [ht]))
    simp only [lexAll, lexTok, e1, e2, e3]

/-- **C69.** Every token but the end of the source has a text, so every call makes progress; the end is announced only when nothing is
left. -/
theorem token_nonempty {C : ScanCfg} {a : Ask} {tok : Tok} {txt rest : List Nat} (h : Lexeme C a tok txt rest) :
    (tok = .eof ↔ txt = []) ∧ (tok = .eof → rest = []) := by
  cases h with
  | eof => simp
  | name h => obtain ⟨c, t, rfl, -⟩ := nameAt_start h; simp
  | num h => obtain ⟨c, t, rfl, -⟩ := numLit_start h; simp
  | @punct p => cases p <;> simp [Punct.text]
  | _ => simp

theorem readTok_suffix {C : ScanCfg} {a : Ask} {s : List Nat} {tok : Tok} {rest : List Nat}
    (h : readTok C a s = some (.ok (tok, rest))) : rest <:+ s := by
  cases s with
  | nil =>
    simp only [readTok, Option.some.injEq, Except.ok.injEq, Prod.mk.injEq] at h
    obtain ⟨rfl, rfl⟩ := h
    exact List.suffix_refl _
  | cons c t =>
    simp only [readTok] at h
    split at h
    · rename_i hst
      split at h
      · cases h
      · cases h
      · rename_i k n e r hr
        simp only [Option.some.injEq, Except.ok.injEq, Prod.mk.injEq] at h
        obtain ⟨rfl, rfl⟩ := h
        obtain ⟨txt, h1, -⟩ := readName_sound rfl hst hr
        exact ⟨txt, h1.symm⟩
    · split at h
      · rename_i hn
        split at h
        · cases h
        · rename_i r hr
          simp only [Option.some.injEq, Except.ok.injEq, Prod.mk.injEq] at h
          obtain ⟨rfl, rfl⟩ := h
          obtain ⟨k, lit, h1, -⟩ := (readNum_iff_partial _ _ _ _ hn).mp hr
          exact ⟨lit, h1.symm⟩
      · split at h
        · split at h
          · cases h
          · cases h
          · rename_i buf raw oct r hr
            simp only [Option.some.injEq, Except.ok.injEq, Prod.mk.injEq] at h
            obtain ⟨rfl, rfl⟩ := h
            exact (strLoop_suffix _ _ _ _ _ _ _ _ _ _ _ _ hr).trans (List.suffix_cons _ _)
        · split at h
          · split at h
            · cases h
            · rename_i r hr
              split at h
              · cases h
              · rename_i hne
                simp only [Option.some.injEq, Except.ok.injEq, Prod.mk.injEq] at h
                obtain ⟨rfl, rfl⟩ := h
                obtain ⟨body, hb⟩ := tplLoop_ends _ _ _ _ _ hr hne
                exact List.IsSuffix.trans ⟨_, hb.symm⟩ (List.suffix_cons _ _)
          · split at h
            · split at h
              · rename_i hst
                split at h
                · cases h
                · cases h
                · rename_i k n e r hr
                  cases t with
                  | nil => cases hst
                  | cons d t =>
                    obtain ⟨txt, h1, -⟩ := readName_sound rfl hst hr
                    have hsuf : r <:+ c :: d :: t := List.IsSuffix.trans ⟨txt, h1.symm⟩ (List.suffix_cons _ _)
                    split at h
                    · cases h
                    · simp only [Option.some.injEq, Except.ok.injEq, Prod.mk.injEq] at h
                      obtain ⟨rfl, rfl⟩ := h
                      exact hsuf
                    · simp only [Option.some.injEq, Except.ok.injEq, Prod.mk.injEq] at h
                      obtain ⟨rfl, rfl⟩ := h
                      exact hsuf
              · cases h
            · split at h
              · rename_i p r hr
                simp only [Option.some.injEq, Except.ok.injEq, Prod.mk.injEq] at h
                obtain ⟨rfl, rfl⟩ := h
                rw [readSymbol] at hr
                have hsuf := rd_suffix (c :: t)
                split at hr
                · cases hr
                · rename_i hrd
                  rw [hrd] at hsuf
                  exact (symSwitch_suffix hr).trans hsuf
              · cases h
              · split at h
                · cases h
                · cases h
                · rename_i p fs r hrx
                  simp only [Option.some.injEq, Except.ok.injEq, Prod.mk.injEq] at h
                  obtain ⟨rfl, rfl⟩ := h
                  obtain ⟨fl, e, g1, -⟩ := regexp_sound hrx
                  exact ⟨c :: (p ++ '/'.toNat :: fl), by rw [g1]; simp⟩

/-- **C69** (partial: no U+FFFD in the source).  The lexer answers every sequence of questions. -/
theorem lex_terminates_partial (C : ScanCfg) (asks : List Ask) (s : List Nat) (hs : 0xFFFD ∉ s) :
    ∃ r, lexAll C asks s = some r := by
  have name : ∀ a t, ∃ r, readName C a t = some r := by
    intro a t
    obtain ⟨r, hr⟩ := scanName_terminates C.tables false t
    rw [readName, hr]
    cases r with
    | error => exact ⟨_, rfl⟩
    | ok r =>
      obtain ⟨n, e, r⟩ := r
      simp only
      split <;> exact ⟨_, rfl⟩
  have tok : ∀ a t, 0xFFFD ∉ t → ∃ r, readTok C a t = some r := by
    intro a t ht
    cases t with
    | nil => exact ⟨_, rfl⟩
    | cons c t =>
      simp only [readTok]
      obtain ⟨x, hx⟩ := name a (c :: t)
      obtain ⟨x', hx'⟩ := name a t
      obtain ⟨y, hy⟩ := readStr_terminates C.super a.template c t
      obtain ⟨z, hz⟩ := template_terminates_partial t (fun h => ht (by simp [h])) [] none (t.length + 1) (Nat.lt_succ_self _)
      obtain ⟨u, hu⟩ := (readRegexp_terminates C.tables C.regexp t).1
      rw [hx, hx', hy, hz, hu]
      repeat' split
      all_goals first | exact ⟨_, rfl⟩ | simp_all
  induction asks generalizing s with
  | nil => exact ⟨_, rfl⟩
  | cons a as ih =>
    obtain ⟨x, hx⟩ := lexTrivia_terminates (s.length + 1) false s (Nat.lt_succ_self _)
    simp only [lexAll, lexTok, hx]
    match x, hx with
    | .error e, _ => exact ⟨_, rfl⟩
    | .ok (nl, s1), hx =>
      obtain ⟨⟨tr, hse, -, -⟩, -, hcm⟩ := lexTrivia_partial _ _ _ hx
      have hs1 : 0xFFFD ∉ s1 := fun h => hs (by rw [hse]; simp [h])
      obtain ⟨y, hy⟩ := tok a s1 hs1
      simp only [hy]
      match y, hy with
      | .error e, _ => exact ⟨_, rfl⟩
      | .ok (tk, r), hy =>
        obtain ⟨z, hz⟩ := ih r (fun h => hs1 ((readTok_suffix hy).mem h))
        simp only [hz]
        match z with
        | .error e => exact ⟨_, rfl⟩
        | .ok (tks, r') => exact ⟨_, rfl⟩

/-- A configuration: everything is on, no TypeScript. -/
def exCfg : ScanCfg where
  tables := ⟨fun _ => false, fun _ => false⟩
  sep := true
  bigint := true
  punct := ⟨true, true, true, true, true, true, true, false, false, false, false, false⟩
  regexp := ⟨true, true, true, true, true⟩
  module := false
  asyncAwait := true
  super := true
  prv := true

/-- Outside of templates, no regular expression. -/
def exAsk : Ask := ⟨false, false, false, false⟩

def codes (s : String) : List Nat := s.toList.map Char.toNat

-- names, comments, a line comment, a number, a string, a private name, the end
example : lexAll exCfg (List.replicate 7 exAsk) (codes "a /*\n*/ ++.5// x\n'y'#z ") =
    some (.ok ([(.name .name (codes "a") false, false), (.punct .inc, true), (.num, false), (.str (codes "y") false, true),
      (.pvt (codes "z") false, false), (.eof, false), (.eof, false)], [])) := by rfl

-- a template with a substitution and a regular expression in it
example : lexAll exCfg [exAsk, ⟨true, false, false, true⟩, ⟨true, false, false, false⟩, exAsk] (codes "`a${/[/]/g}b`;c") =
    some (.ok ([(.tpl true false (codes "a") none, false), (.regexp (codes "[/]") (codes "g"), false),
      (.tpl false true (codes "b") none, false), (.punct .semi, false)], codes "c")) := by rfl

-- the hypotheses of `tokens_iff_partial` hold for the first of them
example : (∀ c ∈ codes "a /*\n*/ ++.5// x\n'y'#z ", Scalar c) ∧ (exCfg.punct.maybeLshHere = true →
    exCfg.punct.lshHere = true ∨ (exCfg.punct.ts = false ∧ exCfg.punct.tsTypArg = false)) := by
  refine ⟨?_, nofun⟩
  simp only [Scalar]
  decide +kernel

/-- **C69 is violated**: a template with the character U+FFFD after its backquote is never answered, whatever the fuel. -/
theorem lex_hangs_violated (C : ScanCfg) (a : Ask) : lexAll C [a] ['`'.toNat, 0xFFFD] = none := by
  have h0 : isIdStart C.tables 96 = false := rfl
  have h1 := template_hangs_violated
  simp [lexAll, lexTok, lexTrivia, skipSpaceR, Span.isSpace, readTok, h0, aheadIsNumStart, onRune, isDecimalDigit, ahead2nd, h1]

end Mole.Lexer
