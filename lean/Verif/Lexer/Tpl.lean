import Verif.Lexer.StrLemmas
/-!
# C10: templates
-/
namespace Mole.Lexer
open Spec

/-- The decoded source consists of Unicode scalar values: the hypothesis `Scalar` of the
scanner theorems always holds. -/
theorem decodeRune_scalar (s : Span.Bytes) : Scalar (Span.decodeRune s).1 := by
  have hb : ∀ b : UInt8, b.toNat < 256 := fun b => UInt8.toNat_lt b
  unfold Span.decodeRune
  cases s with
  | nil => simp [Span.runeError, Scalar]
  | cons b0 t =>
    simp only
    repeat' split
    all_goals simp only [Span.runeError, Span.inRange, Bool.and_eq_true, decide_eq_true_eq] at *
    all_goals unfold Scalar
    all_goals try omega
    all_goals (repeat' split at *)
    all_goals try omega

theorem decodeAll_scalar (s : Span.Bytes) : ∀ c ∈ Span.decodeAll s, Scalar c := by
  unfold Span.decodeAll
  generalize s.length = n
  induction n generalizing s with
  | zero => simp [Span.decodeAllAux]
  | succ n ih =>
    cases s with
    | nil => simp [Span.decodeAllAux]
    | cons b bs =>
      intro c hc
      simp only [Span.decodeAllAux, List.mem_cons] at hc
      rcases hc with rfl | hc
      · exact decodeRune_scalar _
      · exact ih _ c hc

/-- **C10 is violated**: at U+FFFD in a template (or any ill-formed byte, which decodes to it)
the loop makes no progress, however many rounds it is given. -/
theorem template_hangs_violated (rest : List Nat) :
    ∀ fuel text ee, tplLoop fuel text ee (0xFFFD :: rest) = none := by
  intro fuel
  induction fuel with
  | zero => intro _ _; rfl
  | succ fuel ih => intro text ee; simp [tplLoop, RE, ih]

theorem rd_suffix (s : List Nat) : (rd s).2 <:+ s := by
  cases s with
  | nil => simp [rd]
  | cons c t =>
    simp only [rd]
    split
    · cases t with
      | nil => exact List.nil_suffix
      | cons d t' =>
        simp only; split
        · exact (List.suffix_cons _ _).trans (List.suffix_cons _ _)
        · exact List.suffix_cons _ _
    · exact List.suffix_cons _ _

theorem octalDigits_suffix (n : Nat) (s : List Nat) : (octalDigits n s).2 <:+ s := by
  induction n generalizing s with
  | zero => simp [octalDigits]
  | succ n ih =>
    cases s with
    | nil => simp [octalDigits]
    | cons c t =>
      simp only [octalDigits]
      split
      · exact (ih t).trans (List.suffix_cons _ _)
      · exact List.suffix_refl _

theorem hex4Loop_suffix (n : Nat) (s : List Nat) : (hex4Loop n s).2 <:+ s := by
  induction n generalizing s with
  | zero => simp [hex4Loop]
  | succ n ih =>
    cases s with
    | nil => simp [hex4Loop]
    | cons c t =>
      simp only [hex4Loop]
      split
      · exact List.suffix_refl _
      · have := ih t
        split <;> (rename_i h; rw [h] at this; exact this.trans (List.suffix_cons _ _))

theorem codepointLoop_suffix (hex s : List Nat) : (codepointLoop hex s).2.2 <:+ s := by
  induction s generalizing hex with
  | nil => simp [codepointLoop]
  | cons c t ih =>
    simp only [codepointLoop]
    split
    · split
      · exact List.suffix_cons _ _
      · split <;> exact List.suffix_cons _ _
    · split
      · exact List.suffix_refl _
      · exact (ih (hex ++ [c])).trans (List.suffix_cons _ _)

theorem readUnicode_suffix (f : Nat → Bool) (id : Bool) (s : List Nat) :
    (readUnicodeEscapeSeq f id s).2.2 <:+ s := by
  unfold readUnicodeEscapeSeq
  split
  · unfold readCodepoint
    exact (codepointLoop_suffix [] (rd s).2).trans (rd_suffix s)
  · unfold readHex4Digits
    have := hex4Loop_suffix 4 s
    split
    · rename_i h; rw [h] at this; simpa using this
    · rename_i h; rw [h] at this
      simp only at this ⊢
      repeat' split
      all_goals exact this

/-- Whatever the outcome, what the escape scanner leaves is the end of the text. -/
theorem readEscapeSeq_suffix (tpl : Bool) (s : List Nat) : (readEscapeSeq tpl s).rest <:+ s := by
  have h1 := rd_suffix s
  simp only [readEscapeSeq]
  cases hr : rd s with
  | mk o t =>
    rw [hr] at h1
    cases o with
    | none => exact h1
    | some c =>
      simp only at h1 ⊢
      have ho := fun n => octalDigits_suffix n t
      have hx : (readHexEscapeSeq t).2.2 <:+ t := by
        have e : (readHexEscapeSeq t).2.2 = (rd (rd t).2).2 := by
          simp only [readHexEscapeSeq]
          split
          · split
            · rfl
            · split <;> rfl
          · rfl
        rw [e]
        exact (rd_suffix _).trans (rd_suffix _)
      have hu := readUnicode_suffix (fun _ => true) false t
      have ho' : (readOctalEscapeSeq tpl c t).2.2.2 <:+ t := by
        simp only [readOctalEscapeSeq]
        split
        · exact List.suffix_refl _
        · repeat' split
          all_goals exact ho _
      repeat' split
      all_goals first | exact h1 | exact List.IsSuffix.trans ‹_› h1

/-- **C10** (partial: for sources without U+FFFD and ill-formed bytes).  Reading the characters
of a template ends within as many rounds as there are characters, plus one. -/
theorem template_terminates_partial (s : List Nat) (hs : 0xFFFD ∉ s) (text : List Nat)
    (ee : Option Err) (fuel : Nat) (hf : s.length < fuel) :
    ∃ r, tplLoop fuel text ee s = some r := by
  induction fuel generalizing s text ee with
  | zero => omega
  | succ fuel ih =>
    cases s with
    | nil => exact ⟨_, rfl⟩
    | cons c s =>
      have h0 := rd_length_lt (s := c :: s) (by simp)
      have h1 := rd_suffix (c :: s)
      have sub : ∀ t, t <:+ c :: s → 0xFFFD ∉ t := fun t ht hm => hs (ht.mem hm)
      have hlen : (rd (c :: s)).2.length < fuel := by simp only [List.length_cons] at hf h0; omega
      have go := fun text ee => ih (rd (c :: s)).2 (sub _ h1) text ee hlen
      have hRE : c ≠ RE := fun e => hs (by simp [e, RE])
      simp only [tplLoop, List.head?_cons, hRE, if_false]
      split
      · split
        · exact ⟨_, rfl⟩
        · exact go _ _
      · split
        · split
          · exact ih _ (sub _ ((rd_suffix _).trans h1)) _ _ (
              Nat.lt_of_le_of_lt (rd_length _) hlen)
          · split
            · exact ih _ (sub _ ((rd_suffix _).trans h1)) _ _ (by
                have := rd_length (rd (c :: s)).2; omega)
            · split
              · exact ⟨_, rfl⟩
              · rename_i r hr
                refine ih _ (sub _ ((readEscapeSeq_suffix _ _).trans h1)) _ _ ?_
                by_cases ht : (rd (c :: s)).2 = []
                · rw [ht] at hr; simp [readEscapeSeq, rd] at hr
                · have := readEscapeSeq_length true ht; omega
        · split
          · exact ⟨_, rfl⟩
          · generalize rd (c :: s) = x at go
            obtain ⟨o, t⟩ := x
            cases o with
            | none => exact go _ _
            | some r => exact go _ _

theorem tplChar_iff (s : List Nat) (v : Nat) (u : List Nat) :
    TplChar s v u ↔ rd s = (some v, u) := by
  constructor
  · intro h
    cases h with
    | crlf => rfl
    | cr _ h =>
      cases u with
      | nil => rfl
      | cons d t =>
        have : d ≠ 0x0a := fun e => h t (by rw [e])
        simp [rd, this]
    | char _ h => exact rd_cons h _
  · intro h
    cases s with
    | nil => cases h
    | cons c t =>
      by_cases hc : c = 0x0d
      · subst hc
        cases t with
        | nil => simp only [rd, if_true] at h; cases h; exact .cr _ (by simp)
        | cons d t =>
          by_cases hd : d = 0x0a
          · subst hd; simp only [rd, if_true] at h; cases h; exact .crlf _
          · simp only [rd, if_true, hd, if_false] at h; cases h
            exact .cr _ (by simp [hd])
      · rw [rd_cons hc] at h; cases h; exact .char _ hc

theorem tplLoop_ee (fuel : Nat) (s text : List Nat) (e : Err) (r : TplRes)
    (h : tplLoop fuel text (some e) s = some r) : r.errEscape ≠ none := by
  induction fuel generalizing s text e with
  | zero => cases h
  | succ fuel ih =>
    simp only [tplLoop] at h
    revert h
    repeat' split
    all_goals intro h
    all_goals first
      | (cases h; simp; done)
      | exact ih _ _ _ h

theorem tplLoop_sound (fuel : Nat) (s text : List Nat) (text' : List Nat) (fin : Bool) (rest : List Nat)
    (h : tplLoop fuel text none s = some ⟨text', fin, none, none, rest⟩) :
    ∃ vs, TplAt false s vs fin rest ∧ 0xFFFD ∉ vs ∧ text' = text ++ vs.map appendRune := by
  induction fuel generalizing s text with
  | zero => cases h
  | succ fuel ih =>
    cases s with
    | nil => simp [tplLoop] at h
    | cons c s =>
      have h1 := rd_suffix (c :: s)
      have hRE : c ≠ RE := by
        rintro rfl
        rw [RE, template_hangs_violated] at h
        cases h
      simp only [tplLoop, List.head?_cons, hRE, if_false] at h
      by_cases h36 : c = 36
      · subst h36
        simp only [if_true, rd_cons (show (36 : Nat) ≠ 0x0d by decide)] at h
        split at h
        · rename_i hh
          cases s with
          | nil => cases hh
          | cons d s =>
            simp only [List.head?_cons, Option.some.injEq] at hh
            subst hh
            rw [rd_cons (by decide)] at h
            cases h
            exact ⟨[], .subst _, by simp, by simp⟩
        · rename_i hh
          obtain ⟨vs, i1, i2, i3⟩ := ih s _ h
          refine ⟨36 :: vs, .dollar ?_ i1, by simp [i2], ?_⟩
          · intro t e; subst e; exact hh rfl
          · rw [i3]; simp [appendRune]
      · rw [if_neg h36] at h
        by_cases h92 : c = 92
        · subst h92
          simp only [if_true, rd_cons (show (92 : Nat) ≠ 0x0d by decide)] at h
          have hsuf := List.suffix_cons 92 s
          split at h
          · rename_i hlt
            have hseq := (lineTermSeq_iff s _).2 ⟨hlt, rfl⟩
            have := (rd_suffix s).trans hsuf
            obtain ⟨vs, i1, i2, i3⟩ := ih _ _ h
            exact ⟨vs, .cont hseq i1, i2, i3⟩
          · rename_i hlt
            have hlt' : onRune isLT s.head? = false := by simpa using hlt
            cases hr : (readEscapeSeq true s).r with
            | none => rw [hr] at h; simp at h
            | some r =>
              rw [hr] at h
              simp only at h
              cases he : (readEscapeSeq true s).err with
              | some e =>
                rw [he] at h
                exact absurd rfl (tplLoop_ee _ _ _ _ _ h)
              | none =>
                rw [he] at h
                by_cases hrr : r = RE
                · simp only [hrr, if_true] at h
                  exact absurd rfl (tplLoop_ee _ _ _ _ _ h)
                · simp only [Option.some.injEq, hrr, if_false] at h
                  have hno : onRune isOctalDigit s.head? = false := by
                    cases hh : onRune isOctalDigit s.head? with
                    | false => rfl
                    | true => rw [readEscapeSeq_tpl, hh] at he; cases he
                  have etpl : readEscapeSeq true s = readEscapeSeq false s := by
                    rw [readEscapeSeq_tpl, hno]; rfl
                  rw [etpl] at hr he h
                  have hat := readEscapeSeq_ok_at hlt' he hr
                  have := (readEscapeSeq_suffix false s).trans hsuf
                  obtain ⟨vs, i1, i2, i3⟩ := ih _ _ h
                  refine ⟨r :: vs, .esc hat ?_ i1, ?_, by simpa using i3⟩
                  · intro d w u e ho
                    subst e
                    simp [onRune, ((octDigit_iff _ _).1 ho).1] at hno
                  · simp only [List.mem_cons, not_or]
                    exact ⟨fun e => hrr e.symm, i2⟩
        · rw [if_neg h92] at h
          by_cases h96 : c = 96
          · subst h96
            simp only [if_true, rd_cons (show (96 : Nat) ≠ 0x0d by decide)] at h
            cases h
            exact ⟨[], .close _, by simp, by simp⟩
          · rw [if_neg h96] at h
            cases hr : rd (c :: s) with
            | mk o u =>
              rw [hr] at h h1
              cases o with
              | none =>
                simp only [rd] at hr
                split at hr
                · cases s with
                  | nil => cases hr
                  | cons d s => simp only at hr; split at hr <;> cases hr
                · cases hr
              | some v =>
                simp only at h
                obtain ⟨vs, i1, i2, i3⟩ := ih _ _ h
                have hch := (tplChar_iff _ _ _).2 hr
                refine ⟨v :: vs, .char rfl h96 h36 h92 hch i1, ?_, by simpa using i3⟩
                simp only [List.mem_cons, not_or]
                refine ⟨?_, i2⟩
                cases hch with
                | crlf => decide
                | cr => decide
                | char => exact fun e => hRE e.symm

theorem tplLoop_complete (s vs : List Nat) (fin : Bool) (rest : List Nat)
    (h : TplAt false s vs fin rest) :
    ∀ (fuel : Nat) (text : List Nat), s.length < fuel → 0xFFFD ∉ vs →
      tplLoop fuel text none s = some ⟨text ++ vs.map appendRune, fin, none, none, rest⟩ := by
  induction h with
  | close rest =>
    intro fuel text hf _
    cases fuel with
    | zero => omega
    | succ fuel => simp [tplLoop, rd, RE]
  | subst rest =>
    intro fuel text hf _
    cases fuel with
    | zero => omega
    | succ fuel => simp [tplLoop, rd]
  | @dollar s vs fin rest hn _ ih =>
    intro fuel text hf hv
    cases fuel with
    | zero => omega
    | succ fuel =>
      have hh : s.head? ≠ some 123 := by
        cases s with
        | nil => simp
        | cons d t => simp only [List.head?_cons, ne_eq, Option.some.injEq]
                      intro e; exact hn t (by rw [e]; rfl)
      have := ih fuel (text ++ [36]) (by simp at hf; omega) (fun hc => hv (by simp [hc]))
      simp [tplLoop, rd, hh, this, appendRune]
  | @char c s t v vs fin rest e h96 h36 h92 u hch _ ih =>
    intro fuel text hf hv
    cases fuel with
    | zero => omega
    | succ fuel =>
      have hrd := (tplChar_iff _ _ _).1 hch
      have hsuf := rd_suffix s
      have hl := rd_length_lt (s := s) (by rw [e]; simp)
      rw [hrd] at hsuf hl
      have := ih fuel (text ++ [appendRune v]) (by simp at hl; omega)
        (fun hc => hv (by simp [hc]))
      have hRE : c ≠ RE := by
        rintro rfl
        rw [e] at hch
        cases hch with
        | char => exact hv (by simp [RE])
      simp only [Char.reduceToNat] at h96 h36 h92
      rw [tplLoop]
      have hhd : s.head? = some c := by rw [e]; rfl
      simp only [hhd, h36, h92, h96, hRE, if_false, hrd, this]
      simp
  | @cont s t vs fin rest hseq _ ih =>
    intro fuel text hf hv
    cases fuel with
    | zero => omega
    | succ fuel =>
      obtain ⟨p, hp, hsp⟩ := lineTermSeq_suffix hseq
      obtain ⟨h1, h2⟩ := (lineTermSeq_iff _ _).1 hseq
      have hl : t.length < fuel := by
        have := congrArg List.length hsp; simp at this hf; omega
      have := ih fuel text hl hv
      simp [tplLoop, rd_cons, h1, h2, this]
  | @esc s t v vs fin rest hat hno _ ih =>
    intro fuel text hf hv
    cases fuel with
    | zero => omega
    | succ fuel =>
      obtain ⟨p, hp, hsp⟩ := escapeAt_suffix hat
      obtain ⟨d, s', hds, hn⟩ := escapeAt_head hat
      have hlt : onRune isLT s.head? = false := by
        subst hds
        cases hh : isLT d with
        | false => simpa [onRune] using hh
        | true => exact absurd ((isLT_iff _).1 hh) hn
      have hoct : onRune isOctalDigit s.head? = false := by
        subst hds
        cases hh : isOctalDigit d with
        | false => simpa [onRune] using hh
        | true => exact absurd ((octDigit_iff _ _).2 ⟨hh, rfl⟩) (hno d _ s' rfl)
      have etpl : readEscapeSeq true s = readEscapeSeq false s := by
        rw [readEscapeSeq_tpl, hoct]; rfl
      obtain ⟨e1, e2, e3⟩ := (readEscapeSeq_iff s v t (by
        intro c t' e; rw [hds] at e; cases e; exact hn)).2 hat
      have hl : t.length < fuel := by
        have := congrArg List.length hsp; simp at this hf; omega
      have := ih fuel (text ++ [appendRune v]) hl (fun hc => hv (by simp [hc]))
      have hvre : v ≠ RE := fun e => hv (by simp [e, RE])
      simp [tplLoop, rd_cons, hlt, etpl, e1, e2, e3, hvre, this]
  | nul0 h => cases h

/-- **C08/C10** (partial: the escape `\0` and escapes for U+FFFD are rejected by the code, and U+FFFD itself makes it
hang).  Reading the characters of a template succeeds without escape error
exactly when the text is a template span, and then gives its code points (surrogates written
as escapes become U+FFFD), tells how it ended and leaves what follows. -/
theorem readTplChs_iff_partial (s : List Nat) (text : List Nat) (fin : Bool) (rest : List Nat) :
    tplLoop (s.length + 1) [] none s = some ⟨text, fin, none, none, rest⟩ ↔
      ∃ vs, TplAt false s vs fin rest ∧ 0xFFFD ∉ vs ∧ text = vs.map appendRune := by
  constructor
  · intro h
    simpa using tplLoop_sound _ s [] _ _ _ h
  · rintro ⟨vs, h1, h2, rfl⟩
    simpa using tplLoop_complete s vs fin rest h1 (s.length + 1) [] (by omega) h2

example : tplLoop 20 [] none [36, 97, 13, 10, 92, 10, 92, 110, 36, 123, 98] =
    some ⟨[36, 97, 10, 10], false, none, none, [98]⟩ := by decide

/-- **C08 is violated**: the escape for U+FFFD, written with four hexadecimal digits in a
template, is reported as a bad escape. -/
theorem tpl_escape_fffd_violated :
    TplAt false [92, 117, 70, 70, 70, 68, 96] [0xFFFD] true [] ∧
    tplLoop 20 [] none [92, 117, 70, 70, 70, 68, 96] =
      some ⟨[0xFFFD], true, none, some .badEscapeSeq, []⟩ := by
  refine ⟨.esc ((readEscapeSeq_iff _ _ [96] (by
    intro c t h; cases h; unfold LineTerm; omega)).1 (by decide)) ?_ (.close _), by decide⟩
  intro c w u h ho
  cases h
  have := ((octDigit_iff _ _).1 ho).1
  exact absurd this (by decide)

end Mole.Lexer
