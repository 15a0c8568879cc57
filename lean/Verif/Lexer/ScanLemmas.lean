import Verif.Lexer.ScanSpec

/-!
# Lemmas on reading tokens
-/
namespace Mole.Lexer
open Spec

theorem escape_tpl {tpl : Bool} {s : List Nat} (h : (readEscapeSeq tpl s).err = none) :
    readEscapeSeq tpl s = readEscapeSeq false s ∧ (tpl = true → ∀ c w u, s = c :: u → ¬OctDigit c w) := by
  cases tpl with
  | false => exact ⟨rfl, nofun⟩
  | true =>
    rw [readEscapeSeq_tpl] at h ⊢
    split at h
    · cases h
    · rename_i ho
      refine ⟨if_neg ho, fun _ c w u e hw => ho ?_⟩
      subst e
      exact ((octDigit_iff c w).mp hw).1

theorem escape_tpl' {tpl : Bool} {s : List Nat} (h : tpl = true → ∀ c w u, s = c :: u → ¬OctDigit c w) :
    readEscapeSeq tpl s = readEscapeSeq false s := by
  cases tpl with
  | false => rfl
  | true =>
    rw [readEscapeSeq_tpl]
    split
    · rename_i ho
      cases s with
      | nil => cases ho
      | cons c u => exact absurd ((octDigit_iff c _).mpr ⟨ho, rfl⟩) (h rfl c _ u rfl)
    · rfl

theorem take_suffix {p t : List Nat} : (p ++ t).take ((p ++ t).length - t.length) = p := by simp

theorem strLoop_lit (super tpl : Bool) (q fuel : Nat) (s : List Nat) (buf : Option (List Nat)) (raw : List Nat)
    (oct : Bool) (b : Option (List Nat)) (w : List Nat) (o : Bool) (rest : List Nat) (hs : ∀ c ∈ s, Scalar c)
    (h : strLoop super tpl q fuel buf raw oct s = some (.ok b w o rest)) :
    ∃ vs body o', StrLit super tpl q s vs o' rest ∧ b.getD w = buf.getD raw ++ vs.map appendRune ∧ o = (oct || o') ∧
      s = body ++ q :: rest ∧ w = raw ++ body := by
  induction fuel generalizing s buf raw oct with
  | zero => cases h
  | succ fuel ih =>
    cases s with
    | nil => simp [strLoop, rd] at h
    | cons c s =>
      have hsc : Scalar c := hs c (by simp)
      have hs' : ∀ d ∈ s, Scalar d := fun d hd => hs d (by simp [hd])
      by_cases h92 : c = 92
      · subst h92
        simp only [strLoop, rd_cons (show (92 : Nat) ≠ 0x0d by decide), if_true] at h
        by_cases hlt : onRune isLT s.head? = true
        · rw [if_pos hlt] at h
          have hseq := (lineTermSeq_iff s _).2 ⟨hlt, rfl⟩
          obtain ⟨p, hp, hsp⟩ := lineTermSeq_suffix hseq
          have hsub : ∀ d ∈ readLineTerm s, Scalar d := fun d hd => hs' d (by
            rw [hsp]; simp [hd])
          obtain ⟨vs, body, o', h1, h2, h3, h4, h5⟩ := ih _ _ _ _ hsub h
          refine ⟨vs, 92 :: p ++ body, o', .cont hseq h1, by simpa using h2, h3, ?_, ?_⟩
          · rw [hsp, h4]; simp
          · have : s.take (s.length - (readLineTerm s).length) = p := by
              conv => lhs; rw [show s.take (s.length - (readLineTerm s).length) =
                (p ++ readLineTerm s).take ((p ++ readLineTerm s).length - (readLineTerm s).length) by rw [← hsp]]
              exact take_suffix
            rw [h5, this]; simp
        · rw [if_neg hlt] at h
          have hlt' : onRune isLT s.head? = false := by simpa using hlt
          cases he : (readEscapeSeq tpl s).err with
          | some e => rw [he] at h; cases h
          | none =>
            obtain ⟨hE, hT⟩ := escape_tpl he
            rw [hE] at h he
            cases hr : (readEscapeSeq false s).r with
            | none => rw [he, hr] at h; cases h
            | some r =>
              rw [he, hr] at h
              have hat := readEscapeSeq_ok_at hlt' he hr
              obtain ⟨p, hp, hsp⟩ := escapeAt_suffix hat
              have hsub : ∀ d ∈ (readEscapeSeq false s).rest, Scalar d := fun d hd => hs' d (by
                rw [hsp]; simp [hd])
              obtain ⟨vs, body, o', h1, h2, h3, h4, h5⟩ := ih _ _ _ _ hsub h
              obtain ⟨d, u, hd, hdl⟩ := escapeAt_head hat
              refine ⟨r :: vs, 92 :: p ++ body, (readEscapeSeq false s).octal || o',
                .esc hat hT (readEscapeSeq_legacy s (by rintro c t rfl; cases hd; exact hdl)) h1, by simpa using h2, ?_, ?_, ?_⟩
              · rw [h3, Bool.or_assoc]
              · conv => lhs; rw [hsp, h4]
                simp
              · have : s.take (s.length - (readEscapeSeq false s).rest.length) = p := by
                  conv => lhs; rw [show s.take (s.length - (readEscapeSeq false s).rest.length) =
                    (p ++ (readEscapeSeq false s).rest).take ((p ++ (readEscapeSeq false s).rest).length -
                      (readEscapeSeq false s).rest.length) by rw [← hsp]]
                  exact take_suffix
                rw [h5, this]; simp
      · by_cases hcr : c = 0x0d
        · exfalso
          subst hcr
          have h1 : ∃ t', rd (0x0d :: s) = (some 0x0a, t') := by
            cases s with
            | nil => exact ⟨_, rfl⟩
            | cons d t => by_cases hd : d = 0x0a <;> simp [rd, hd]
          obtain ⟨t', h1⟩ := h1
          simp [strLoop, h1, isStrLT] at h
        · simp only [strLoop, rd_cons hcr, if_neg h92] at h
          by_cases hst : isStrLT super c = true
          · rw [if_pos hst] at h; cases h
          · rw [if_neg hst] at h
            by_cases hq : c = q
            · subst hq
              rw [if_pos rfl] at h
              injection h with h
              injection h with h1 h2 h3 h4
              subst h1 h2 h3 h4
              exact ⟨[], [], false, .close _, by simp, by simp, by simp, by simp⟩
            · rw [if_neg hq] at h
              obtain ⟨vs, body, o', h1, h2, h3, h4, h5⟩ := ih _ _ _ _ hs' h
              refine ⟨c :: vs, c :: body, o', .char hq h92 (fun hh => hst ((isStrLT_iff _ _).2 hh)) h1, ?_, h3, by rw [h4]; simp,
                by rw [h5]; simp⟩
              rw [h2, List.map_cons, appendRune_scalar hsc]
              cases buf <;> simp

theorem strLoop_lit_complete (super tpl : Bool) (q : Nat) (hq : q = 34 ∨ q = 39) (s vs : List Nat) (o' : Bool) (rest : List Nat)
    (h : StrLit super tpl q s vs o' rest) :
    ∀ (fuel : Nat) (buf : Option (List Nat)) (raw : List Nat) (oct : Bool),
      s.length < fuel → (∀ c ∈ s, Scalar c) →
      ∃ b w, strLoop super tpl q fuel buf raw oct s = some (.ok b w (oct || o') rest) ∧
        b.getD w = buf.getD raw ++ vs.map appendRune := by
  induction h with
  | close rest =>
    intro fuel buf raw oct hf hs
    cases fuel with
    | zero => omega
    | succ fuel =>
      have h1 : q ≠ 0x0d := by omega
      have h2 : q ≠ 92 := by omega
      have h3 : isStrLT super q = false := by
        rcases hq with rfl | rfl <;> simp [isStrLT]
      exact ⟨buf, raw, by simp [strLoop, rd_cons h1, h2, h3], by simp⟩
  | @char c s vs oct' rest hcq hc92 hst _ ih =>
    intro fuel buf raw oct hf hs
    cases fuel with
    | zero => omega
    | succ fuel =>
      have hcr : c ≠ 0x0d := fun e => hst (by simp [StrTerm, e])
      have h3 : isStrLT super c = false := by
        cases hh : isStrLT super c with
        | false => rfl
        | true => exact absurd ((isStrLT_iff _ _).1 hh) hst
      have h92 : c ≠ 92 := hc92
      obtain ⟨b, w, i1, i2⟩ := ih fuel (buf.map (· ++ [c])) (raw ++ [c]) oct
        (by simp at hf; omega) (fun d hd => hs d (by simp [hd]))
      refine ⟨b, w, by simp [strLoop, rd_cons hcr, h92, h3, hcq, i1], ?_⟩
      rw [i2, List.map_cons, appendRune_scalar (hs c (by simp))]
      cases buf <;> simp
  | @cont s t vs oct' rest hseq _ ih =>
    intro fuel buf raw oct hf hs
    cases fuel with
    | zero => omega
    | succ fuel =>
      obtain ⟨p, hp, hsp⟩ := lineTermSeq_suffix hseq
      obtain ⟨h1, h2⟩ := (lineTermSeq_iff _ _).1 hseq
      have hl : t.length < fuel := by
        have := congrArg List.length hsp; simp at this hf; omega
      obtain ⟨b, w, i1, i2⟩ := ih fuel (some (buf.getD raw))
        (raw ++ 92 :: s.take (s.length - t.length)) oct hl
        (fun d hd => hs d (by rw [hsp]; simp [hd]))
      refine ⟨b, w, ?_, by simpa using i2⟩
      simp [strLoop, rd_cons, h1, h2, i1]
  | @esc s t v vs o oct' rest hat hT ho _ ih =>
    intro fuel buf raw oct hf hs
    cases fuel with
    | zero => omega
    | succ fuel =>
      obtain ⟨p, hp, hsp⟩ := escapeAt_suffix hat
      obtain ⟨d, s', hds, hn⟩ := escapeAt_head hat
      have hlt : onRune isLT s.head? = false := by
        subst hds
        cases hh : isLT d with
        | false => simpa [onRune] using hh
        | true => exact absurd ((isLT_iff _).1 hh) hn
      have hnl : ∀ c t, s = c :: t → ¬LineTerm c := by
        intro c t' e; rw [hds] at e; cases e; exact hn
      obtain ⟨e1, e2, e3⟩ := (readEscapeSeq_iff s v t hnl).2 hat
      have ho' : o = (readEscapeSeq false s).octal := by
        rw [Bool.eq_iff_iff, ho, readEscapeSeq_legacy s hnl]
      have hE := escape_tpl' hT
      have hl : t.length < fuel := by
        have := congrArg List.length hsp; simp at this hf; omega
      obtain ⟨b, w, i1, i2⟩ := ih fuel (some (buf.getD raw ++ [appendRune v]))
        (raw ++ 92 :: s.take (s.length - t.length)) (oct || (readEscapeSeq false s).octal) hl
        (fun d hd => hs d (by rw [hsp]; simp [hd]))
      refine ⟨b, w, ?_, by simpa using i2⟩
      simp [strLoop, rd_cons, hlt, hE, e1, e2, e3, i1, ho', Bool.or_assoc]

theorem strText_eq (b : Option (List Nat)) (w : List Nat) :
    (b.getD w ≠ [] → strText b w = b.getD w) ∧ (b.getD w = [] → strText b w = w) := by
  refine ⟨strText_partial b w, fun h => ?_⟩
  cases b with
  | none => rfl
  | some b => cases b with
    | nil => rfl
    | cons => cases h

theorem not_white_47 : ¬Span.White 47 := by decide

/-- Skipping white space first. -/
theorem triviaAt_skip (s : List Nat) (p f : Bool) (rest : List Nat) :
    TriviaAt p s f rest ↔ TriviaAt (p || (skipSpaceR s).1) (skipSpaceR s).2 f rest := by
  induction s generalizing p with
  | nil => simp [skipSpaceR]
  | cons c t ih =>
    by_cases hc : Span.isSpace c = true
    · simp only [skipSpaceR, hc, if_true]
      have hw : Span.White c := (Span.isSpace_iff c).mp hc
      rw [← Bool.or_assoc, ← ih]
      constructor
      · intro h
        cases h with
        | nil h1 => exact absurd hw (h1 c t rfl)
        | @ws _ p' _ _ _ _ _ h2 h3 =>
          have : p' = (p || isLT c) := by rw [Bool.eq_iff_iff, h2, Bool.or_eq_true, isLT_iff]
          rw [← this]; exact h3
        | line => exact absurd hw not_white_47
        | block => exact absurd hw not_white_47
      · intro h
        exact .ws hw (by rw [Bool.or_eq_true, isLT_iff]) h
    · simp [skipSpaceR, hc]

theorem split_unique {b1 t1 b2 t2 : List Nat} {P : Nat → Prop} (h : b1 ++ t1 = b2 ++ t2) (h1 : ∀ c ∈ b1, ¬P c)
    (h2 : ∀ c ∈ b2, ¬P c) (g1 : ∀ c u, t1 = c :: u → P c) (g2 : ∀ c u, t2 = c :: u → P c) : t1 = t2 := by
  induction b1 generalizing b2 with
  | nil =>
    cases b2 with
    | nil => exact h
    | cons d b2 => exact absurd (g1 d _ h) (h2 d (by simp))
  | cons c b1 ih =>
    cases b2 with
    | nil => exact absurd (g2 c _ h.symm) (h1 c (by simp))
    | cons d b2 =>
      simp only [List.cons_append, List.cons.injEq] at h
      exact ih h.2 (fun x hx => h1 x (by simp [hx])) (fun x hx => h2 x (by simp [hx]))

theorem lexTrivia_iff (fuel : Nat) (p : Bool) (s : List Nat) (f : Bool) (rest : List Nat) (hf : s.length < fuel) :
    lexTrivia fuel p s = some (.ok (f, rest)) ↔ TriviaAt p s f rest := by
  induction fuel generalizing p s with
  | zero => omega
  | succ fuel ih =>
    rw [triviaAt_skip]
    obtain ⟨ws, h1, -, -, h4⟩ := skipSpaceR_spec s
    simp only [lexTrivia]
    generalize skipSpaceR s = x at *
    obtain ⟨atm, s1⟩ := x
    simp only at h1 h4 ⊢
    have hl : s1.length ≤ s.length := by rw [h1]; simp
    rw [Bool.or_comm p atm]
    have done : (∀ t, s1 ≠ '/'.toNat :: '/'.toNat :: t ∧ s1 ≠ '/'.toNat :: '*'.toNat :: t) →
        (some (Except.ok (ε := Err) (atm || p, s1)) = some (.ok (f, rest)) ↔ TriviaAt (atm || p) s1 f rest) := by
      intro hne
      constructor
      · intro h
        simp only [Option.some.injEq, Except.ok.injEq, Prod.mk.injEq] at h
        obtain ⟨rfl, rfl⟩ := h
        exact .nil h4 hne
      · intro h
        cases h with
        | nil => rfl
        | ws hw => exact absurd hw (h4 _ _ rfl)
        | line => exact absurd rfl (hne _).1
        | block => exact absurd rfl (hne _).2
    match s1, h4, hl, done with
    | [], _, _, done => exact done (by simp)
    | [c], _, _, done => exact done (by simp)
    | c :: d :: t, h4, hl, done =>
      simp only
      simp only [List.length_cons] at hl
      by_cases hcl : c = 47 ∧ d = 47
      · rw [if_pos hcl]
        obtain ⟨rfl, rfl⟩ := hcl
        obtain ⟨body, b1, b2, b3⟩ := lineComment_eq t
        have hlen : (readSinglelineComment ('/'.toNat :: t)).length ≤ t.length := by
          conv => rhs; rw [b1]
          simp
        rw [show (47 :: t : List Nat) = '/'.toNat :: t from rfl, ih _ _ (by omega)]
        constructor
        · intro h
          have := TriviaAt.line (p := atm || p) b2 b3 h
          rw [← b1] at this
          exact this
        · intro h
          change TriviaAt (atm || p) (47 :: 47 :: t) f rest at h
          generalize hu : (47 :: 47 :: t : List Nat) = u at h
          cases h with
          | nil _ hne => exact absurd hu.symm (hne _).1
          | ws hw => cases hu; exact absurd hw not_white_47
          | @line _ body' t' _ _ g1 g2 g3 =>
            have hu : t = body' ++ t' := by cases hu; rfl
            have := split_unique (b1.symm.trans hu) b2 g1 b3 g2
            rw [this]; exact g3
          | block => cases hu
      · rw [if_neg hcl]
        by_cases hb : c = 47 ∧ d = 42
        · rw [if_pos hb]
          obtain ⟨rfl, rfl⟩ := hb
          constructor
          · intro h
            split at h
            · cases h
            · cases h
            · rename_i m s2 hm
              obtain ⟨body, c1, c2⟩ := (blockComment_iff t m s2).mp hm
              have : s2.length ≤ t.length := by rw [c1.1]; simp; omega
              exact .block c1 c2 ((ih _ _ (by omega)).mp h)
          · intro h
            generalize hu : 47 :: 42 :: t = u at h
            cases h with
            | nil _ hne => exact absurd hu.symm (hne _).2
            | ws hw => cases hu; exact absurd hw not_white_47
            | line => cases hu
            | @block _ m _ body s2 _ _ c1 c2 c3 =>
              cases hu
              have : s2.length ≤ t.length := by rw [c1.1]; simp; omega
              have hm := (blockComment_iff t m s2).mpr ⟨body, c1, c2⟩
              rw [show (42 :: t : List Nat) = '*'.toNat :: t from rfl, hm]
              exact (ih _ _ (by omega)).mpr c3
        · rw [if_neg hb]
          refine done fun u => ⟨?_, ?_⟩
          · intro e; cases e; exact hcl ⟨rfl, rfl⟩
          · intro e; cases e; exact hb ⟨rfl, rfl⟩

theorem tplLoop_ends (fuel : Nat) (s text : List Nat) (ee : Option Err) (r : TplRes)
    (h : tplLoop fuel text ee s = some r) (hr : r.err = none) :
    ∃ body, s = body ++ (if r.fin then [96] else [36, 123]) ++ r.rest := by
  induction fuel generalizing s text ee with
  | zero => cases h
  | succ fuel ih =>
    have suf : ∀ t, t <:+ s → (∃ body, t = body ++ (if r.fin then [96] else [36, 123]) ++ r.rest) →
        ∃ body, s = body ++ (if r.fin then [96] else [36, 123]) ++ r.rest := by
      rintro t ⟨p, rfl⟩ ⟨body, hb⟩
      exact ⟨p ++ body, by rw [hb]; simp⟩
    cases s with
    | nil =>
      simp only [tplLoop, List.head?_nil, Option.some.injEq] at h
      subst h
      cases hr
    | cons c s' =>
      have hs1 : (rd (c :: s')).2 <:+ c :: s' := rd_suffix _
      simp only [tplLoop, List.head?_cons] at h
      split at h
      · rename_i h36
        subst h36
        rw [rd_cons (by decide)] at h hs1
        split at h
        · rename_i hh
          cases s' with
          | nil => cases hh
          | cons d s'' =>
            simp only [List.head?_cons, Option.some.injEq] at hh
            subst hh
            rw [rd_cons (by decide)] at h
            simp only [Option.some.injEq] at h
            subst h
            exact ⟨[], by simp⟩
        · exact suf _ hs1 (ih _ _ _ h)
      · split at h
        · split at h
          · exact suf _ ((rd_suffix _).trans hs1) (ih _ _ _ h)
          · split at h
            · exact suf _ ((rd_suffix _).trans hs1) (ih _ _ _ h)
            · split at h
              · simp only [Option.some.injEq] at h
                subst h
                cases hr
              · exact suf _ ((readEscapeSeq_suffix _ _).trans hs1) (ih _ _ _ h)
        · split at h
          · exact ih _ _ _ h
          · split at h
            · rename_i h96
              subst h96
              rw [rd_cons (by decide)] at h
              simp only [Option.some.injEq] at h
              subst h
              exact ⟨[], by simp⟩
            · split at h
              · rename_i heq
                rw [heq] at hs1
                exact suf _ hs1 (ih _ _ _ h)
              · rename_i heq
                rw [heq] at hs1
                exact suf _ hs1 (ih _ _ _ h)

theorem readName_sound {C : ScanCfg} {a : Ask} {s : List Nat} {c : Nat} (hc : s.head? = some c)
    (hst : isIdStart C.tables c = true) {k : NameTok} {n : List Nat} {e : Bool} {rest : List Nat}
    (h : readName C a s = some (.ok (k, n, e, rest))) :
    ∃ txt, s = txt ++ rest ∧ NameAt C.tables false txt n e ∧
      (∀ d, rest.head? = some d → isIdStart C.tables d = false ∧ isIdPart C.tables d = false) ∧
      classify ⟨C.module, C.asyncAwait, a.strict, a.async⟩ n e = k ∧ k ≠ .escapeInKeyword := by
  rw [readName] at h
  split at h
  · cases h
  · cases h
  · rename_i n' e' rest' hs
    have hk : n' = n ∧ e' = e ∧ rest' = rest ∧ classify ⟨C.module, C.asyncAwait, a.strict, a.async⟩ n e = k ∧
        k ≠ .escapeInKeyword := by
      split at h
      · cases h
      · rename_i hne
        simp only [Option.some.injEq, Except.ok.injEq, Prod.mk.injEq] at h
        obtain ⟨rfl, rfl, rfl, rfl⟩ := h
        exact ⟨rfl, rfl, rfl, rfl, hne⟩
    obtain ⟨rfl, rfl, rfl, hk, hk'⟩ := hk
    obtain ⟨src, h1, h2, h3⟩ := (scanName_iff_partial C.tables false s c hc hst _ _ _).mp hs
    refine ⟨src, h1, h2, fun d hd => ?_, hk, hk'⟩
    have := h3 d hd
    simp only [Bool.false_eq_true, false_and, or_false, not_or, Bool.not_eq_true] at this
    exact this

theorem regexp_sound {T : IdTables} {F : RegexpCfg} {s p fs rest : List Nat}
    (h : readRegexp T F s = some (.ok (p, fs, rest))) :
    ∃ fl e, s = p ++ '/'.toNat :: (fl ++ rest) ∧ RegexpBody true 0 p ∧ Part T false fl fs e ∧ fl.head? ≠ some '\\'.toNat ∧
      (∀ d, rest.head? = some d → (fl = [] ∧ d = '\\'.toNat) ∨ (isIdStart T d = false ∧ isIdPart T d = false)) ∧
      (F.check = true → ∀ f ∈ fs, LegalFlag F f) := by
  rw [readRegexp] at h
  split at h
  · cases h
  · cases h
  · rename_i r hr
    split at h
    · cases h
    · cases h
    · rename_i fs' rest' hf
      simp only [Option.some.injEq, Except.ok.injEq, Prod.mk.injEq] at h
      obtain ⟨rfl, rfl, rfl⟩ := h
      obtain ⟨p, t, hp, rfl, hb⟩ := (regexpBody_iff_partial s r).mp hr
      have hlen : s.take (s.length - ('/'.toNat :: t).length) = p := by
        rw [hp]; simp
      rw [hlen]
      simp only [List.tail_cons] at hf
      rw [regexpFlags] at hf
      split at hf
      · rename_i hah
        split at hf
        · cases hf
        · cases hf
        · rename_i g e r' hg
          split at hf
          · cases hf
          · rename_i hchk
            simp only [Option.some.injEq, Except.ok.injEq, Prod.mk.injEq] at hf
            obtain ⟨rfl, rfl⟩ := hf
            obtain ⟨fl, h1, h2, h3⟩ := readIdPart_sound _ _ _ _ _ hg
            refine ⟨fl, e, by rw [hp, h1], hb, h2, ?_, fun d hd => .inr ?_, fun hc f hf => ?_⟩
            · intro h92
              cases fl with
              | nil => cases h92
              | cons c fl =>
                simp only [List.head?_cons, Option.some.injEq] at h92
                subst h92 h1
                simp [aheadIsIdPart, onRune, isIdPart] at hah
            · have := h3 d hd
              simpa [part] using this
            · simp only [hc, Bool.true_and, Bool.not_eq_true, Bool.not_eq_eq_eq_not, Bool.not_false, Bool.not_true,
                Bool.not_eq_false, List.all_eq_true] at hchk
              exact (isLegalFlag_iff F f).mp (hchk f hf)
      · rename_i hah
        simp only [Option.some.injEq, Except.ok.injEq, Prod.mk.injEq] at hf
        obtain ⟨rfl, rfl⟩ := hf
        refine ⟨[], false, by rw [hp]; simp, hb, .nil, by simp, fun d hd => ?_, by simp⟩
        by_cases h92 : d = 92
        · exact .inl ⟨rfl, h92⟩
        · right
          simpa [aheadIsIdPart, hd, onRune, h92] using hah

theorem regexp_complete {T : IdTables} {F : RegexpCfg} {p fl fs rest : List Nat} {e : Bool} (hb : RegexpBody true 0 p)
    (hp : Part T false fl fs e) (h92 : fl.head? ≠ some '\\'.toNat)
    (hr : ∀ d, rest.head? = some d → (fl = [] ∧ d = '\\'.toNat) ∨ (isIdStart T d = false ∧ isIdPart T d = false))
    (hF : F.check = true → ∀ f ∈ fs, LegalFlag F f) :
    readRegexp T F (p ++ '/'.toNat :: (fl ++ rest)) = some (.ok (p, fs, rest)) := by
  have h1 := (regexpBody_iff_partial (p ++ '/'.toNat :: (fl ++ rest)) ('/'.toNat :: (fl ++ rest))).mpr ⟨p, _, rfl, rfl, hb⟩
  have key : regexpFlags T F (fl ++ rest) = some (.ok (fs, rest)) := by
    cases fl with
    | nil =>
      cases hp
      cases rest with
      | nil => rfl
      | cons d rest =>
        rw [regexpFlags]
        split
        · rename_i hah
          rcases hr d rfl with ⟨-, rfl⟩ | ⟨g1, g2⟩
          · simp [aheadIsIdPart, onRune, isIdPart] at hah
          · simp [aheadIsIdPart, onRune, g1, g2] at hah
        · rfl
    | cons c fl =>
      refine (regexpFlags_iff_partial T F _ _ _ ?_).mpr ⟨⟨c :: fl, e, rfl, hp⟩, fun d hd => ?_, hF⟩
      · exact h92
      · rcases hr d hd with ⟨h, -⟩ | h
        · cases h
        · exact h
  rw [readRegexp, h1]
  simp only [List.tail_cons, key]
  simp

theorem numLit_start {a b c : Prop} {k : NumKind} {lit : List Nat} (h : NumLit a b c k lit) :
    ∃ d t, lit = d :: t ∧ (Dec d ∨ (d = '.'.toNat ∧ ∃ d' t', t = d' :: t' ∧ Dec d')) := by
  have app : ∀ {i : List Nat} (x : List Nat), (∃ d t, i = d :: t ∧ (Dec d ∨ (d = '.'.toNat ∧ ∃ d' t', t = d' :: t' ∧ Dec d'))) →
      ∃ d t, i ++ x = d :: t ∧ (Dec d ∨ (d = '.'.toNat ∧ ∃ d' t', t = d' :: t' ∧ Dec d')) := by
    rintro i x ⟨d, t, rfl, h⟩
    refine ⟨d, t ++ x, rfl, ?_⟩
    rcases h with h | ⟨h, d', t', rfl, h'⟩
    · exact .inl h
    · exact .inr ⟨h, d', t' ++ x, rfl, h'⟩
  have z : Dec '0'.toNat := ⟨Nat.le_refl _, by decide⟩
  induction h with
  | zero => exact ⟨_, _, rfl, .inl z⟩
  | int h => exact ⟨_, _, rfl, .inl h⟩
  | dot _ ih => exact app _ ih
  | frac _ _ ih => exact app _ ih
  | nofrac h =>
    obtain ⟨d, t, rfl, h, -⟩ := h
    exact ⟨_, _, rfl, .inr ⟨rfl, d, t, rfl, h⟩⟩
  | exp _ _ _ _ _ ih => exact app _ ih
  | bin => exact ⟨_, _, rfl, .inl z⟩
  | oct => exact ⟨_, _, rfl, .inl z⟩
  | hex => exact ⟨_, _, rfl, .inl z⟩
  | big _ _ _ ih => exact app _ ih
  | legacy => exact ⟨_, _, rfl, .inl z⟩

theorem nameAt_start {T : IdTables} {txt n : List Nat} {e : Bool} (h : NameAt T false txt n e) :
    ∃ c t, txt = c :: t ∧ isIdStart T c = true := by
  cases h with
  | ch h => exact ⟨_, _, rfl, h⟩
  | esc => exact ⟨_, _, rfl, rfl⟩

theorem readName_complete {C : ScanCfg} {a : Ask} {txt rest n : List Nat} {e : Bool} (h : NameAt C.tables false txt n e)
    (hr : ∀ d, rest.head? = some d → isIdStart C.tables d = false ∧ isIdPart C.tables d = false)
    (hk : classify ⟨C.module, C.asyncAwait, a.strict, a.async⟩ n e ≠ .escapeInKeyword) :
    readName C a (txt ++ rest) =
      some (.ok (classify ⟨C.module, C.asyncAwait, a.strict, a.async⟩ n e, n, e, rest)) := by
  obtain ⟨c, t, ht, hc⟩ := nameAt_start h
  have := (scanName_iff_partial C.tables false (txt ++ rest) c (by rw [ht]; rfl) hc n e rest).mpr ⟨txt, rfl, h, fun d hd => by
    simp [hr d hd]⟩
  rw [readName, this]
  simp only

theorem strLoop_suffix (super tpl : Bool) (q fuel : Nat) (s : List Nat) (buf : Option (List Nat)) (raw : List Nat)
    (oct : Bool) (b : Option (List Nat)) (w : List Nat) (o : Bool) (rest : List Nat)
    (h : strLoop super tpl q fuel buf raw oct s = some (.ok b w o rest)) : rest <:+ s := by
  induction fuel generalizing s buf raw oct with
  | zero => cases h
  | succ fuel ih =>
    rw [strLoop] at h
    have ht := rd_suffix s
    cases hr : rd s with
    | mk oc t =>
      rw [hr] at h ht
      cases oc with
      | none => simp at h
      | some d =>
        simp only at h ht
        split at h
        · split at h
          · exact (ih _ _ _ _ h).trans ((rd_suffix t).trans ht)
          · split at h
            · cases h
            · split at h
              · cases h
              · exact (ih _ _ _ _ h).trans ((readEscapeSeq_suffix tpl t).trans ht)
        · split at h
          · cases h
          · split at h
            · simp only [Option.some.injEq, StrRes.ok.injEq] at h
              obtain ⟨_, _, _, rfl⟩ := h
              exact ht
            · exact (ih _ _ _ _ h).trans ht

theorem symSwitch_suffix {F : PunctCfg} {c : Nat} {t : List Nat} {p : Punct} {r : List Nat}
    (h : gate F (symSwitch F c t) = .punct p r) : r <:+ t := by
  have h' : symSwitch F c t = .punct p r := by
    cases hs : symSwitch F c t with
    | slash => rw [hs] at h; cases h
    | illegal => rw [hs] at h; cases h
    | punct p' r' =>
      rw [hs] at h
      unfold gate at h
      split at h <;> (try split at h) <;> first | (cases h; done) | (cases h; rename_i e; exact e) | (cases h; rfl)
  have t1 : t.tail <:+ t := List.tail_suffix t
  have t2 := (List.tail_suffix t.tail).trans t1
  have t3 := (List.tail_suffix t.tail.tail).trans t2
  let Q : PunctRes → Prop := fun x => x = .punct p r → r <:+ t
  have ite : ∀ {d : Prop} [Decidable d] {x y : PunctRes}, Q x → Q y → Q (if d then x else y) := by
    intro d _ x y hx hy; split <;> assumption
  have : Q (symSwitch F c t) := by
    unfold symSwitch
    repeat' apply ite
    all_goals intro h'
    all_goals (first | (cases h'; done) | (cases h'; exact List.suffix_refl _) | (cases h'; exact t1) | (cases h'; exact t2) |
      (cases h'; exact t3))
  exact this h'

end Mole.Lexer
