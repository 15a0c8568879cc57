import Verif.Lexer.NumLemmas
/-!
# C11: numeric literals
-/
namespace Mole.Lexer
open Spec

theorem radix_sound {F T} {isD : Nat → Bool} {D : Nat → Prop} {k0 : NumKind}
    (H : ∀ c, isD c = true ↔ D c) (hu : isD 95 = false) (hk0 : ∀ c, Continues k0 c ↔ D c)
    {s : List Nat} {i : Nat} {last : Option Nat} {r rest : List Nat}
    (hl : digitLoop isD (radixSep F false) 0 none s = .ok (i, last, r))
    (h1 : i ≠ 0) (h2 : last ≠ some 95) (h : numEnd T F true r = .ok rest) :
    ∃ ds, Digits D (F.sep = true) ds ∧ NoId T rest ∧
      ((s = ds ++ rest ∧ NoCont k0 rest) ∨ (F.bigint = true ∧ s = ds ++ 110 :: rest)) := by
  obtain ⟨hs, h3⟩ := loop0_sound (radixOk F H hu) hl h2
  rcases h3 with ⟨h3, -⟩ | ⟨-, ds, rfl, h3⟩
  · exact absurd h3 h1
  · obtain ⟨hn, h4⟩ := numEnd_sound h
    refine ⟨ds, h3, hn, ?_⟩
    rcases h4 with rfl | ⟨-, h4, rfl⟩
    · left
      refine ⟨rfl, ?_⟩
      intro c hc hh
      have := (hs c hc).1
      rw [(H c).2 ((hk0 c).1 hh)] at this; cases this
    · exact .inr ⟨h4, rfl⟩

theorem radix_complete {F T} {isD : Nat → Bool} {D : Nat → Prop}
    (H : ∀ c, isD c = true ↔ D c) (hu : isD 95 = false) (hn110 : isD 110 = false)
    {ds rest sfx : List Nat} (hd : Digits D (F.sep = true) ds) (hn : NoId T rest)
    (hs : (sfx = [] ∧ ∀ c, rest.head? = some c → ¬ D c) ∨ (F.bigint = true ∧ sfx = [110])) :
    ∃ i last, digitLoop isD (radixSep F false) 0 none (ds ++ sfx ++ rest)
        = .ok (i, last, sfx ++ rest) ∧ i ≠ 0 ∧ last ≠ some 95 ∧
      numEnd T F true (sfx ++ rest) = .ok rest ∧
      ¬ (onRune (isIdStart T) (sfx ++ rest).head? = true ∧
        ¬ ((sfx ++ rest).head? = some 110 ∧ F.bigint = true)) := by
  have hstop : Stop isD (sfx ++ rest) := by
    rcases hs with ⟨rfl, h⟩ | ⟨-, rfl⟩
    · exact noCont_stop H hn h
    · intro c hc
      simp only [List.cons_append, List.head?_cons, Option.some.injEq] at hc
      subst hc
      exact ⟨hn110, by omega⟩
  obtain ⟨i, last, h1, h2, h3⟩ := loop0_complete (radixOk F H hu) hd hstop
  refine ⟨i, last, by rw [List.append_assoc]; exact h1, h2, h3, ?_, ?_⟩
  · rcases hs with ⟨rfl, h⟩ | ⟨hb, rfl⟩
    · exact numEnd_plain true hn
    · exact numEnd_big hb hn
  · rcases hs with ⟨rfl, h⟩ | ⟨hb, rfl⟩
    · rw [List.nil_append, noId_iff.2 hn]; simp
    · simp [hb]

theorem bin_iff (c : Nat) : (c == 48 || c == 49) = true ↔ Bin c := by simp [Bin]

/-- The scanner accepts a decimal literal whose second character is no separator. -/
def NoSecondSep (lit : List Nat) : Prop := ∀ d t, lit ≠ d :: '_'.toNat :: t

theorem noSecond_int {F} {i : List Nat} (h : Lit F .int i) (tl : List Nat)
    (hns : NoSecondSep (i ++ tl)) :
    i = [48] ∨ ∃ d, Dec d ∧ d ≠ 48 ∧ (i = [d] ∨ ∃ ds, i = d :: ds ∧ Digits Dec (F.sep = true) ds) := by
  cases h with
  | zero => exact .inl rfl
  | int h1 h2 h3 =>
    right
    refine ⟨_, h1, h2, ?_⟩
    cases h3 with
    | nil => exact .inl rfl
    | digit hd ht => exact .inr ⟨_, rfl, _, _, rfl, hd, ht⟩
    | sep hs hd ht => exact absurd rfl (hns _ _)

/-- Soundness: what is accepted is a literal, and nothing that continues it or starts an
identifier follows. -/
theorem readNum_sound {F T} {s rest : List Nat} (hs : aheadIsNumStart s = true)
    (h : readNum T F s = .ok rest) :
    ∃ k lit, s = lit ++ rest ∧ Lit F k lit ∧ NoId T rest ∧ NoCont k rest := by
  cases s with
  | nil => cases h
  | cons c s =>
    simp only [readNum] at h
    by_cases hc : c = 48
    · subst hc
      simp only [if_true] at h
      split at h
      · -- binary
        rename_i hb
        cases s with
        | nil => simp at hb
        | cons b t =>
          simp only [List.head?_cons, Option.some.injEq] at hb
          simp only [readBinaryNum, List.tail_cons] at h
          split at h
          · cases h
          · rename_i i last r hl
            split at h
            · cases h
            · split at h
              · cases h
              · split at h
                · cases h
                · rename_i h2 h1
                  obtain ⟨ds, hd, hn, hh⟩ := radix_sound (k0 := .bin) bin_iff (by decide)
                    (fun _ => Iff.rfl) hl h1 h2 h
                  rcases hh with ⟨rfl, hk⟩ | ⟨hbig, rfl⟩
                  · exact ⟨.bin, 48 :: b :: ds, rfl, .bin hb hd, hn, hk⟩
                  · refine ⟨.big, 48 :: b :: ds ++ [110], by simp, .big hbig (.inr (.inl rfl))
                      (.bin hb hd), hn, fun c _ hh => hh⟩
      · split at h
        · -- octal
          rename_i hb
          cases s with
          | nil => simp at hb
          | cons b t =>
            simp only [List.head?_cons, Option.some.injEq] at hb
            simp only [readOctalNum, List.tail_cons] at h
            split at h
            · cases h
            · rename_i i last r hl
              split at h
              · cases h
              · split at h
                · cases h
                · rename_i h2 h1
                  obtain ⟨ds, hd, hn, hh⟩ := radix_sound (k0 := .oct) isOctalDigit_iff' (by decide)
                    (fun _ => Iff.rfl) hl h1 h2 h
                  rcases hh with ⟨rfl, hk⟩ | ⟨hbig, rfl⟩
                  · exact ⟨.oct, 48 :: b :: ds, rfl, .oct hb hd, hn, hk⟩
                  · refine ⟨.big, 48 :: b :: ds ++ [110], by simp, .big hbig
                      (.inr (.inr (.inl rfl))) (.oct hb hd), hn, fun c _ hh => hh⟩
        · split at h
          · -- hexadecimal
            rename_i hb
            cases s with
            | nil => simp at hb
            | cons b t =>
              simp only [List.head?_cons, Option.some.injEq] at hb
              simp only [readHexNum, List.tail_cons] at h
              split at h
              · cases h
              · rename_i i last r hl
                split at h
                · cases h
                · split at h
                  · cases h
                  · rename_i h1 h2
                    obtain ⟨ds, hd, hn, hh⟩ := radix_sound (k0 := .hex) isHexDigit_iff' (by decide)
                      (fun _ => Iff.rfl) hl h1 h2 h
                    rcases hh with ⟨rfl, hk⟩ | ⟨hbig, rfl⟩
                    · exact ⟨.hex, 48 :: b :: ds, rfl, .hex hb hd, hn, hk⟩
                    · refine ⟨.big, 48 :: b :: ds ++ [110], by simp, .big hbig
                        (.inr (.inr (.inr rfl))) (.hex hb hd), hn, fun c _ hh => hh⟩
          · split at h
            · split at h
              · rename_i hd ho
                split at h
                · cases h
                · rename_i hst
                  -- legacy octal
                  cases s with
                  | nil => simp [onRune] at ho
                  | cons d t =>
                    simp only [List.head?_cons, onRune] at ho
                    simp only [readOctalNum, List.tail_cons, beq_self_eq_true, Bool.not_true] at h
                    split at h
                    · cases h
                    · rename_i i last r hl
                      split at h
                      · cases h
                      · split at h
                        · cases h
                        · rename_i h2 h1
                          obtain ⟨-, hs1, hs2, -⟩ := loop_sound (legacyOk F) _ _ _ _ _ _
                            (by omega) hl h2
                          obtain ⟨u, rfl, hu⟩ := hs2 (by simp)
                          obtain ⟨hn, hr⟩ := numEnd_sound h
                          have hrr : r = rest := by
                            rcases hr with hr | ⟨hr, -⟩
                            · exact hr
                            · cases hr
                          subst hrr
                          refine ⟨.legacy, 48 :: d :: u, rfl, .legacy (by simpa using hst)
                            ⟨d, u, rfl, (isOctalDigit_iff' d).1 ho, hu⟩, hn, ?_⟩
                          intro c hc hh
                          have := (hs1 c hc).1
                          rw [(isOctalDigit_iff' c).2 hh] at this; cases this
              · cases h
            · rename_i hnd
              simp only [readDecimalNum] at h
              rw [if_neg (by simp)] at h
              by_cases hus : s.head? = some 95
              · -- `0_` is rejected
                exfalso
                cases s with
                | nil => cases hus
                | cons c t =>
                  simp only [List.head?_cons, Option.some.injEq] at hus
                  subst hus
                  simp [numFrac, numExp, numEnd, bigintSuffix, isIdStart, onRune] at h
              · have hstop : Stop isDecimalDigit s := by
                  intro c hc
                  rw [hc] at hnd hus
                  simp only [onRune] at hnd
                  exact ⟨by simpa using hnd, by simpa using hus⟩
                obtain ⟨k, t, rfl, hl, hn, hk⟩ := numFrac_sound (by omega) .zero hstop h
                exact ⟨k, 48 :: t, rfl, hl, hn, hk⟩
    · simp only [hc, if_false] at h
      by_cases hdot : c = 46
      · subst hdot
        simp only [readDecimalNum] at h
        rw [if_neg (by simp)] at h
        have hd : onRune isDecimalDigit s.head? = true := by
          simpa [aheadIsNumStart, ahead2nd, onRune, isDecimalDigit] using hs
        obtain ⟨k, t, rfl, hl, hn, hk⟩ := numFrac_dot_sound hd h
        exact ⟨k, 46 :: t, rfl, hl, hn, hk⟩
      · have hcd : Dec c := by
          simp only [aheadIsNumStart, List.head?_cons, onRune, Option.some_beq_some, Bool.or_eq_true,
            Bool.and_eq_true, beq_iff_eq, hdot, false_and, or_false] at hs
          exact (isDecimalDigit_iff c).1 hs
        simp only [readDecimalNum] at h
        rw [if_pos ⟨hdot, hc⟩] at h
        split at h
        · cases h
        · split at h
          · cases h
          · rename_i r hr
            obtain ⟨hst, hh⟩ := decDigits_sound hr
            rcases hh with ⟨-, rfl⟩ | ⟨ds, rfl, d, t, rfl, hd, ht⟩
            · obtain ⟨k, t, rfl, hl, hn, hk⟩ := numFrac_sound hdot (.int hcd hc .nil) hst h
              exact ⟨k, c :: t, rfl, hl, hn, hk⟩
            · obtain ⟨k, u, rfl, hl, hn, hk⟩ :=
                numFrac_sound hdot (.int hcd hc (.digit hd ht)) hst h
              exact ⟨k, c :: d :: t ++ u, by simp, hl, hn, hk⟩

theorem readNum_second_sep {F T} {d : Nat} {t : List Nat}
    (hs : aheadIsNumStart (d :: 95 :: t) = true) :
    readNum T F (d :: 95 :: t) = .error .identAfterNumber := by
  have hd : isDecimalDigit d = true := by
    simpa [aheadIsNumStart, ahead2nd, onRune, isDecimalDigit] using hs
  by_cases h0 : d = 48
  · subst h0
    simp [readNum, readDecimalNum, numFrac, numExp, numEnd, bigintSuffix, isIdStart, onRune,
      isDecimalDigit]
  · have h46 : d ≠ 46 := by rintro rfl; simp [isDecimalDigit] at hd
    simp [readNum, readDecimalNum, h0, h46, isIdStart, onRune]

/-- A decimal literal read by `readNum`, after its integer part. -/
theorem readNum_dec {F T} {i t rest : List Nat} {k : NumKind} (hi : Lit F .int i)
    (hns : NoSecondSep (i ++ t)) (hn : NoId T rest) (hk : NoCont k rest)
    (h : DecTail F .int true k t ∨
      ∃ f u, t = 46 :: (f ++ u) ∧ (f = [] ∨ Digits Dec (F.sep = true) f) ∧
        DecTail F .frac false k u) :
    readNum T F (i ++ t ++ rest) = .ok rest := by
  -- what follows the integer part
  have hhead : ∀ c, (t ++ rest).head? = some c →
      isDecimalDigit c = false ∧ c ≠ 95 ∧ (c = 46 ∨ c = 101 ∨ c = 69 ∨ c = 110 ∨
        isIdStart T c = false) := by
    rcases h with h | ⟨f, u, rfl, -⟩
    · cases h with
      | nil =>
        intro c hc
        have h1 := noCont_stop (isD := isDecimalDigit) (D := Dec) isDecimalDigit_iff hn
          (fun c hc hh => hk c hc (.inl hh)) c hc
        exact ⟨h1.1, h1.2, .inr (.inr (.inr (.inr (hn c hc))))⟩
      | big => intro c hc; simp at hc; subst hc; simp [isDecimalDigit]
      | exp he =>
        intro c hc; simp at hc; subst hc
        rcases he with rfl | rfl <;> simp [isDecimalDigit]
    · intro c hc
      simp only [List.cons_append, List.head?_cons, Option.some.injEq] at hc
      subst hc; simp [isDecimalDigit]
  have hstop : Stop isDecimalDigit (t ++ rest) := fun c hc => ⟨(hhead c hc).1, (hhead c hc).2.1⟩
  rw [List.append_assoc]
  rcases noSecond_int hi t hns with rfl | ⟨d, hd, hd0, hds⟩
  · have hF := numFrac_complete (F := F) (T := T) (first := 48) (by omega) hn hk h
    have hne : ∀ x, isDecimalDigit x = true ∨ x = 98 ∨ x = 66 ∨ x = 111 ∨ x = 79 ∨ x = 120 ∨ x = 88 →
        (t ++ rest).head? ≠ some x := by
      intro x hx hh
      obtain ⟨h1, h2, h3⟩ := hhead x hh
      rcases hx with hx | rfl | rfl | rfl | rfl | rfl | rfl
      · rw [h1] at hx; cases hx
      all_goals simp [isIdStart] at h3
    have hnd : onRune isDecimalDigit (t ++ rest).head? = false := by
      cases hh : (t ++ rest).head? with
      | none => rfl
      | some c => exact (hhead c hh).1
    simp only [List.cons_append, List.nil_append, readNum, if_true]
    rw [if_neg (by rintro (hh | hh); exact hne 98 (by simp) hh; exact hne 66 (by simp) hh),
      if_neg (by rintro (hh | hh); exact hne 111 (by simp) hh; exact hne 79 (by simp) hh),
      if_neg (by rintro (hh | hh); exact hne 120 (by simp) hh; exact hne 88 (by simp) hh),
      if_neg (by rw [hnd]; simp)]
    simpa [readDecimalNum] using hF
  · have h46 : d ≠ 46 := by rintro rfl; exact absurd hd.1 (by decide)
    have hd0' : d ≠ 48 := hd0
    have hF := numFrac_complete (F := F) (T := T) (first := d) h46 hn hk h
    rcases hds with rfl | ⟨ds, rfl, hds⟩
    · simp only [List.cons_append, List.nil_append, readNum, hd0', if_false, readDecimalNum]
      rw [if_pos ⟨h46, by trivial⟩, if_neg, decDigits_none hstop]
      · exact hF
      · rintro ⟨h1, h2, h3, h4⟩
        cases hh : (t ++ rest).head? with
        | none => rw [hh] at h4; cases h4
        | some c =>
          rw [hh] at h1 h2 h3 h4
          simp only [onRune, ne_eq, Option.some.injEq] at h1 h2 h3 h4
          obtain ⟨-, -, h5⟩ := hhead c hh
          rcases h5 with rfl | h5 | h5 | h5 | h5
          · simp [isIdStart] at h4
          · exact h1 h5
          · exact h2 h5
          · exact h3 h5
          · rw [h5] at h4; cases h4
    · have hdd := decDigits_complete (T := T) true hds hstop
      simp only [List.cons_append, readNum, hd0', if_false, readDecimalNum]
      rw [if_pos ⟨h46, by trivial⟩, if_neg, hdd]
      · exact hF
      · obtain ⟨e, u, rfl, he, -⟩ := hds
        simp only [List.cons_append, List.head?_cons, onRune, not_and]
        intro _ _ _ h4
        have h5 := he.1; have h6 := he.2
        simp only [isIdStart] at h4
        change 48 ≤ e at h5
        change e ≤ 57 at h6
        rw [if_pos (by omega)] at h4
        simp only [Bool.or_eq_true, Bool.and_eq_true, decide_eq_true_eq, beq_iff_eq] at h4
        omega

theorem readNum_complete {F T} {k : NumKind} {lit rest : List Nat} (h : Lit F k lit)
    (hns : NoSecondSep lit) (hn : NoId T rest) (hk : NoCont k rest) :
    readNum T F (lit ++ rest) = .ok rest := by
  have dot0 : ∀ {f u : List Nat}, Digits Dec (F.sep = true) f → DecTail F .frac false k u →
      readNum T F (46 :: (f ++ u) ++ rest) = .ok rest := by
    intro f u hf hu
    have := numFrac_dot_complete (T := T) hn hk hf hu
    simpa [readNum, readDecimalNum] using this
  cases h with
  | zero =>
    have := readNum_dec (F := F) (t := []) .zero (by simpa using hns) hn hk (.inl .nil)
    simpa using this
  | int h1 h2 h3 =>
    have := readNum_dec (F := F) (t := []) (.int h1 h2 h3) (by simpa using hns) hn hk (.inl .nil)
    simpa using this
  | dot hi => exact readNum_dec hi hns hn hk (.inr ⟨[], [], rfl, .inl rfl, .nil⟩)
  | frac hi hf =>
    exact readNum_dec hi hns hn hk (.inr ⟨_, [], by simp, .inr hf, .nil⟩)
  | nofrac hf =>
    have := dot0 hf .nil
    simpa using this
  | exp hk' hm he hs hx =>
    rename_i k' m e sign x
    have htail : ∀ pre plain, DecTail F pre plain .exp (e :: (sign ++ x)) :=
      fun _ _ => .exp he hs hx
    cases hm with
    | zero => exact readNum_dec .zero hns hn hk (.inl (htail _ _))
    | int h1 h2 h3 => exact readNum_dec (.int h1 h2 h3) hns hn hk (.inl (htail _ _))
    | dot hi =>
      have := readNum_dec (t := 46 :: ([] ++ e :: (sign ++ x))) hi (by simpa using hns) hn hk
        (.inr ⟨[], _, rfl, .inl rfl, htail _ _⟩)
      simpa using this
    | frac hi hf =>
      rename_i f
      have := readNum_dec (t := 46 :: (f ++ e :: (sign ++ x))) hi (by simpa using hns) hn hk
        (.inr ⟨_, _, rfl, .inr hf, htail _ _⟩)
      simpa using this
    | nofrac hf =>
      have := dot0 hf (htail _ _)
      simpa using this
    | exp => simp at hk'
    | bin => simp at hk'
    | oct => simp at hk'
    | hex => simp at hk'
    | big => simp at hk'
    | legacy => simp at hk'
  | bin hb hd =>
    obtain ⟨i, l, h1, h2, h3, h4, h5⟩ := radix_complete (T := T) (sfx := []) bin_iff (by decide)
      (by decide) hd hn (.inl ⟨rfl, hk⟩)
    simp only [List.append_nil, List.nil_append] at h1 h4 h5
    simp only [List.cons_append, readNum]
    rw [if_pos (by trivial), if_pos (by simpa using hb)]
    simp only [readBinaryNum, List.tail_cons, h1, if_neg h5, if_neg h2, if_neg h3, h4]
  | oct hb hd =>
    obtain ⟨i, l, h1, h2, h3, h4, h5⟩ := radix_complete (T := T) (sfx := []) isOctalDigit_iff'
      (by decide) (by decide) hd hn (.inl ⟨rfl, hk⟩)
    simp only [List.append_nil, List.nil_append] at h1 h4 h5
    simp only [List.cons_append, readNum]
    rw [if_pos (by trivial), if_neg (by rcases hb with rfl | rfl <;> simp), if_pos (by simpa using hb)]
    simp [readOctalNum, h1, h2, h3, h4]
  | hex hb hd =>
    obtain ⟨i, l, h1, h2, h3, h4, h5⟩ := radix_complete (T := T) (sfx := []) isHexDigit_iff'
      (by decide) (by decide) hd hn (.inl ⟨rfl, hk⟩)
    simp only [List.append_nil, List.nil_append] at h1 h4 h5
    simp only [List.cons_append, readNum]
    rw [if_pos (by trivial), if_neg (by rcases hb with rfl | rfl <;> simp),
      if_neg (by rcases hb with rfl | rfl <;> simp), if_pos (by simpa using hb)]
    simp [readHexNum, h1, h2, h3, h4]
  | big hbig hk' hi =>
    cases hi with
    | zero => exact readNum_dec .zero hns hn hk (.inl (.big rfl hbig))
    | int h1 h2 h3 => exact readNum_dec (.int h1 h2 h3) hns hn hk (.inl (.big rfl hbig))
    | bin hb hd =>
      obtain ⟨i, l, h1, h2, h3, h4, h5⟩ := radix_complete (T := T) (sfx := [110]) bin_iff
        (by decide) (by decide) hd hn (.inr ⟨hbig, rfl⟩)
      simp only [List.cons_append, readNum]
      rw [if_pos (by trivial), if_pos (by simpa using hb)]
      change readBinaryNum T F (_ :: (_ ++ [110] ++ rest)) = _
      simp only [readBinaryNum, List.tail_cons, h1, if_neg h5, if_neg h2, if_neg h3, h4]
    | oct hb hd =>
      obtain ⟨i, l, h1, h2, h3, h4, h5⟩ := radix_complete (T := T) (sfx := [110]) isOctalDigit_iff'
        (by decide) (by decide) hd hn (.inr ⟨hbig, rfl⟩)
      simp only [List.cons_append, readNum]
      rw [if_pos (by trivial), if_neg (by rcases hb with rfl | rfl <;> simp),
        if_pos (by simpa using hb)]
      change readOctalNum T F 0 (_ :: (_ ++ [110] ++ rest)) = _
      simp only [readOctalNum, List.tail_cons]
      rw [show ((0 : Nat) == 1) = false from rfl, h1]
      simp only [if_neg h2, if_neg h3, Bool.not_false, h4]
    | hex hb hd =>
      obtain ⟨i, l, h1, h2, h3, h4, h5⟩ := radix_complete (T := T) (sfx := [110]) isHexDigit_iff'
        (by decide) (by decide) hd hn (.inr ⟨hbig, rfl⟩)
      simp only [List.cons_append, readNum]
      rw [if_pos (by trivial), if_neg (by rcases hb with rfl | rfl <;> simp),
        if_neg (by rcases hb with rfl | rfl <;> simp), if_pos (by simpa using hb)]
      change readHexNum T F (_ :: (_ ++ [110] ++ rest)) = _
      simp only [readHexNum, List.tail_cons, h1, if_neg h2, if_neg h3, h4]
    | _ => simp at hk'
  | legacy hs hd =>
    obtain ⟨d, u, rfl, hd, hu⟩ := hd
    have hst : Stop isOctalDigit rest := noCont_stop isOctalDigit_iff' hn hk
    obtain ⟨i, l, h1, h2, h3⟩ := loop_complete (legacyOk F) hu hst 1 none (by omega) (by simp)
    have h5 : 48 ≤ d := hd.1
    have h6 : d ≤ 55 := hd.2
    have hne : ∀ x, x > 55 → d ≠ x := by intro x hx hh; omega
    simp only [List.cons_append, readNum]
    rw [if_pos (by trivial), if_neg (by simp; omega), if_neg (by simp; omega),
      if_neg (by simp; omega),
      if_pos (by simp [onRune, isDecimalDigit]; omega), if_pos (by simp [onRune, isOctalDigit]; omega),
      if_neg (by simp [hs])]
    simp only [readOctalNum, List.tail_cons]
    rw [show ((1 : Nat) == 1) = true from rfl, h1]
    simp only [if_neg h2, if_neg h3, Bool.not_true, numEnd_plain _ hn]

/-- **C11** (partial: the property wants no decimal digit after the literal either, and no
restriction on the second character; both fail in the code, see the witnesses below).
A numeric literal is accepted, leaving `rest`, exactly when the text before `rest` is a literal
of the grammar whose second character is no separator, and neither an identifier start nor a
character that continues the literal follows. -/
theorem readNum_iff_partial (T : IdTables) (F : NumCfg) (s rest : List Nat)
    (hs : aheadIsNumStart s = true) :
    readNum T F s = .ok rest ↔
      ∃ k lit, s = lit ++ rest ∧
        NumLit (F.sep = true) (F.bigint = true) (F.strict = false) k lit ∧
        (∀ d t, lit ≠ d :: '_'.toNat :: t) ∧
        ∀ c, rest.head? = some c → isIdStart T c = false ∧ ¬ Continues k c := by
  constructor
  · intro h
    obtain ⟨k, lit, rfl, h1, h2, h3⟩ := readNum_sound hs h
    refine ⟨k, lit, rfl, h1, ?_, fun c hc => ⟨h2 c hc, h3 c hc⟩⟩
    rintro d t rfl
    rw [show d :: '_'.toNat :: t ++ rest = d :: 95 :: (t ++ rest) from rfl] at h hs
    rw [readNum_second_sep hs] at h
    cases h
  · rintro ⟨k, lit, rfl, h1, h2, h3⟩
    exact readNum_complete h1 h2 (fun c hc => (h3 c hc).1) (fun c hc => (h3 c hc).2)

/-- **C11 is violated**: `1_0` is rejected although separators are enabled. -/
theorem second_separator_violated (T : IdTables) :
    NumLit True True True .int ['1'.toNat, '_'.toNat, '0'.toNat] ∧
    readNum T ⟨true, true, false⟩ ['1'.toNat, '_'.toNat, '0'.toNat] = .error .identAfterNumber :=
  ⟨.int (by simp [Dec]) (by decide) (.sep trivial (by simp [Dec]) .nil),
    readNum_second_sep (by decide)⟩

/-- **C11 is violated**: `0b12` is read as `0b1`, leaving `2`. -/
theorem digit_after_literal_violated (T : IdTables) :
    readNum T ⟨true, true, false⟩ ['0'.toNat, 'b'.toNat, '1'.toNat, '2'.toNat] =
      .ok ['2'.toNat] := by
  simp [readNum, readBinaryNum, digitLoop, numEnd, bigintSuffix, onRune, isIdStart]

/-- Non-vacuity: `12_3.4e-5` followed by `;`. -/
example (T : IdTables) : readNum T ⟨true, true, true⟩
    ("12_3.4e-5;".toList.map Char.toNat) = .ok [';'.toNat] := by
  simp [readNum, readDecimalNum, readDecimalDigits, digitLoop, isDecimalDigit, decSep, numFrac,
    numExp, readExpPart, numEnd, onRune, isIdStart]

end Mole.Lexer
