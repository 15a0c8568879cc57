import Verif.Lexer.EscapeProps
import Verif.Lexer.Str
/-! Auxiliary lemmas on string scanning. -/
namespace Mole.Lexer
open Spec

theorem isLT_iff (c : Nat) : isLT c = true ↔ LineTerm c := by
  simp [isLT, LineTerm, or_assoc]

theorem isStrLT_iff (super : Bool) (c : Nat) : isStrLT super c = true ↔ StrTerm super c := by
  simp [isStrLT, StrTerm, or_assoc]

theorem escapeAt_suffix {s : List Nat} {v : Nat} {rest : List Nat} (h : EscapeAt s v rest) :
    ∃ p, p ≠ [] ∧ s = p ++ rest := by
  cases h with
  | hex => exact ⟨[_, _, _], by simp, rfl⟩
  | u4 => exact ⟨_ :: _, by simp, rfl⟩
  | brace =>
    rename_i cs vs _ _ _
    exact ⟨'u'.toNat :: '{'.toNat :: (cs ++ ['}'.toNat]), by simp, by simp⟩
  | oct2 => exact ⟨[_, _], by simp, rfl⟩
  | oct2' => exact ⟨[_, _], by simp, rfl⟩
  | oct3 => exact ⟨[_, _, _], by simp, rfl⟩
  | _ => exact ⟨[_], by simp, rfl⟩

theorem escapeAt_head {s : List Nat} {v : Nat} {rest : List Nat} (h : EscapeAt s v rest) :
    ∃ c t, s = c :: t ∧ ¬ LineTerm c := by
  have oct : ∀ c v, OctDigit c v → ¬ LineTerm c := by
    rintro c v ⟨h1, rfl⟩; simp [LineTerm]; omega
  cases h with
  | oct1 h => exact ⟨_, _, rfl, oct _ _ h⟩
  | oct2 h => exact ⟨_, _, rfl, oct _ _ h⟩
  | oct2' _ h => exact ⟨_, _, rfl, oct _ _ h⟩
  | oct3 _ h => exact ⟨_, _, rfl, oct _ _ h⟩
  | other _ h => exact ⟨_, _, rfl, h⟩
  | _ => exact ⟨_, _, rfl, by simp [LineTerm]⟩

theorem lineTermSeq_iff (s t : List Nat) :
    LineTermSeq s t ↔ onRune isLT s.head? = true ∧ readLineTerm s = t := by
  constructor
  · intro h
    cases h with
    | crlf => simp [onRune, isLT, readLineTerm, rd]
    | cr _ h =>
      refine ⟨by simp [onRune, isLT], ?_⟩
      cases t with
      | nil => simp [readLineTerm, rd]
      | cons d t' =>
        have : d ≠ 0x0a := fun e => h t' (by rw [e])
        simp [readLineTerm, rd, this]
    | one _ h =>
      rename_i c
      have : c ≠ 0x0d := by omega
      refine ⟨by simp [onRune, isLT]; omega, ?_⟩
      simp [readLineTerm, rd, this]
  · rintro ⟨h1, rfl⟩
    cases s with
    | nil => simp [onRune] at h1
    | cons c s =>
      simp only [List.head?_cons, onRune, isLT_iff, LineTerm] at h1
      by_cases hc : c = 0x0d
      · subst hc
        cases s with
        | nil => simp only [readLineTerm, rd, if_true]; exact .cr _ (by simp)
        | cons d s =>
          by_cases hd : d = 0x0a
          · subst hd; simp only [readLineTerm, rd, if_true]; exact .crlf _
          · simp only [readLineTerm, rd, if_true, hd, if_false]
            exact .cr _ (by simp [hd])
      · simp only [readLineTerm, rd_cons hc]
        exact .one _ (by omega)

theorem lineTermSeq_suffix {s t : List Nat} (h : LineTermSeq s t) :
    ∃ p, p ≠ [] ∧ s = p ++ t := by
  cases h with
  | crlf => exact ⟨[_, _], by simp, rfl⟩
  | cr => exact ⟨[_], by simp, rfl⟩
  | one => exact ⟨[_], by simp, rfl⟩

theorem readEscapeSeq_ok_at {t : List Nat} {r : Nat} (hlt : onRune isLT t.head? = false)
    (h1 : (readEscapeSeq false t).err = none) (h2 : (readEscapeSeq false t).r = some r) :
    EscapeAt t r (readEscapeSeq false t).rest := by
  refine (readEscapeSeq_iff t r _ ?_).1 ⟨h2, h1, rfl⟩
  intro c t' e hL
  subst e
  simp [onRune, (isLT_iff c).2 hL] at hlt

theorem appendRune_scalar {c : Nat} (h : Scalar c) : appendRune c = c := by
  unfold Scalar at h
  unfold appendRune
  rw [if_neg (by simp; omega)]

theorem strLoop_sound (super : Bool) (q : Nat) (fuel : Nat) (s : List Nat)
    (buf : Option (List Nat)) (raw : List Nat) (oct : Bool)
    (hs : ∀ c ∈ s, Scalar c) (b : Option (List Nat)) (w : List Nat) (o : Bool) (rest : List Nat)
    (h : strLoop super false q fuel buf raw oct s = some (.ok b w o rest)) :
    ∃ vs, StrAt super q s vs rest ∧ b.getD w = buf.getD raw ++ vs.map appendRune := by
  induction fuel generalizing s buf raw oct with
  | zero => cases h
  | succ fuel ih =>
    cases s with
    | nil => simp [strLoop, rd] at h
    | cons c s =>
      have hsc : Scalar c := hs c (by simp)
      have hs' : ∀ d ∈ s, Scalar d := fun d hd => hs d (by simp [hd])
      by_cases h92 : c = 92
      · subst h92
        simp only [strLoop, rd_cons (show (92 : Nat) ≠ 0x0d by decide), if_true] at h
        by_cases hlt : onRune isLT s.head? = true
        · rw [if_pos hlt] at h
          have hseq := (lineTermSeq_iff s _).2 ⟨hlt, rfl⟩
          obtain ⟨p, hp, hsp⟩ := lineTermSeq_suffix hseq
          have hsub : ∀ d ∈ readLineTerm s, Scalar d := fun d hd => hs' d (by
            rw [hsp]; simp [hd])
          obtain ⟨vs, h1, h2⟩ := ih _ _ _ _ hsub h
          exact ⟨vs, .cont hseq h1, by simpa using h2⟩
        · rw [if_neg hlt] at h
          have hlt' : onRune isLT s.head? = false := by simpa using hlt
          cases he : (readEscapeSeq false s).err with
          | some e => rw [he] at h; cases h
          | none =>
            cases hr : (readEscapeSeq false s).r with
            | none => rw [he, hr] at h; cases h
            | some r =>
              rw [he, hr] at h
              have hat := readEscapeSeq_ok_at hlt' he hr
              obtain ⟨p, hp, hsp⟩ := escapeAt_suffix hat
              have hsub : ∀ d ∈ (readEscapeSeq false s).rest, Scalar d := fun d hd => hs' d (by
                rw [hsp]; simp [hd])
              obtain ⟨vs, h1, h2⟩ := ih _ _ _ _ hsub h
              exact ⟨r :: vs, .esc hat h1, by simpa using h2⟩
      · by_cases hcr : c = 0x0d
        · exfalso
          subst hcr
          have h1 : ∃ t', rd (0x0d :: s) = (some 0x0a, t') := by
            cases s with
            | nil => exact ⟨_, rfl⟩
            | cons d t => by_cases hd : d = 0x0a <;> simp [rd, hd]
          obtain ⟨t', h1⟩ := h1
          simp [strLoop, h1, isStrLT] at h
        · simp only [strLoop, rd_cons hcr, if_neg h92] at h
          by_cases hst : isStrLT super c = true
          · rw [if_pos hst] at h; cases h
          · rw [if_neg hst] at h
            by_cases hq : c = q
            · subst hq
              rw [if_pos rfl] at h
              injection h with h
              injection h with h1 h2 h3 h4
              subst h1 h2 h3 h4
              exact ⟨[], .close _, by simp⟩
            · rw [if_neg hq] at h
              obtain ⟨vs, h1, h2⟩ := ih _ _ _ _ hs' h
              refine ⟨c :: vs, .char hq h92 (fun hh => hst ((isStrLT_iff _ _).2 hh)) h1, ?_⟩
              rw [h2, List.map_cons, appendRune_scalar hsc]
              cases buf <;> simp

theorem strLoop_complete (super : Bool) (q : Nat) (hq : q = 34 ∨ q = 39) (s vs rest : List Nat)
    (h : StrAt super q s vs rest) :
    ∀ (fuel : Nat) (buf : Option (List Nat)) (raw : List Nat) (oct : Bool),
      s.length < fuel → (∀ c ∈ s, Scalar c) →
      ∃ b w o, strLoop super false q fuel buf raw oct s = some (.ok b w o rest) ∧
        b.getD w = buf.getD raw ++ vs.map appendRune := by
  induction h with
  | close rest =>
    intro fuel buf raw oct hf hs
    cases fuel with
    | zero => omega
    | succ fuel =>
      have h1 : q ≠ 0x0d := by omega
      have h2 : q ≠ 92 := by omega
      have h3 : isStrLT super q = false := by
        rcases hq with rfl | rfl <;> simp [isStrLT]
      exact ⟨buf, raw, oct, by simp [strLoop, rd_cons h1, h2, h3], by simp⟩
  | @char c s vs rest hcq hc92 hst _ ih =>
    intro fuel buf raw oct hf hs
    cases fuel with
    | zero => omega
    | succ fuel =>
      have hcr : c ≠ 0x0d := fun e => hst (by simp [StrTerm, e])
      have h3 : isStrLT super c = false := by
        cases hh : isStrLT super c with
        | false => rfl
        | true => exact absurd ((isStrLT_iff _ _).1 hh) hst
      have h92 : c ≠ 92 := hc92
      obtain ⟨b, w, o, i1, i2⟩ := ih fuel (buf.map (· ++ [c])) (raw ++ [c]) oct
        (by simp at hf; omega) (fun d hd => hs d (by simp [hd]))
      refine ⟨b, w, o, by simp [strLoop, rd_cons hcr, h92, h3, hcq, i1], ?_⟩
      rw [i2, List.map_cons, appendRune_scalar (hs c (by simp))]
      cases buf <;> simp
  | @cont s t vs rest hseq _ ih =>
    intro fuel buf raw oct hf hs
    cases fuel with
    | zero => omega
    | succ fuel =>
      obtain ⟨p, hp, hsp⟩ := lineTermSeq_suffix hseq
      obtain ⟨h1, h2⟩ := (lineTermSeq_iff _ _).1 hseq
      have hl : t.length < fuel := by
        have := congrArg List.length hsp; simp at this hf; omega
      obtain ⟨b, w, o, i1, i2⟩ := ih fuel (some (buf.getD raw))
        (raw ++ 92 :: s.take (s.length - t.length)) oct hl
        (fun d hd => hs d (by rw [hsp]; simp [hd]))
      refine ⟨b, w, o, ?_, by simpa using i2⟩
      simp [strLoop, rd_cons, h1, h2, i1]
  | @esc s t v vs rest hat _ ih =>
    intro fuel buf raw oct hf hs
    cases fuel with
    | zero => omega
    | succ fuel =>
      obtain ⟨p, hp, hsp⟩ := escapeAt_suffix hat
      obtain ⟨d, s', hds, hn⟩ := escapeAt_head hat
      have hlt : onRune isLT s.head? = false := by
        subst hds
        cases hh : isLT d with
        | false => simpa [onRune] using hh
        | true => exact absurd ((isLT_iff _).1 hh) hn
      obtain ⟨e1, e2, e3⟩ := (readEscapeSeq_iff s v t (by
        intro c t' e; rw [hds] at e; cases e; exact hn)).2 hat
      have hl : t.length < fuel := by
        have := congrArg List.length hsp; simp at this hf; omega
      obtain ⟨b, w, o, i1, i2⟩ := ih fuel (some (buf.getD raw ++ [appendRune v]))
        (raw ++ 92 :: s.take (s.length - t.length)) (oct || (readEscapeSeq false s).octal) hl
        (fun d hd => hs d (by rw [hsp]; simp [hd]))
      refine ⟨b, w, o, ?_, by simpa using i2⟩
      simp [strLoop, rd_cons, hlt, e1, e2, e3, i1]

theorem octalDigits_length (n : Nat) (s : List Nat) : (octalDigits n s).2.length ≤ s.length := by
  induction n generalizing s with
  | zero => simp [octalDigits]
  | succ n ih =>
    cases s with
    | nil => simp [octalDigits]
    | cons c t =>
      simp only [octalDigits]
      split
      · have := ih t; simp; omega
      · simp

theorem hex4Loop_length (n : Nat) (s : List Nat) : (hex4Loop n s).2.length ≤ s.length := by
  induction n generalizing s with
  | zero => simp [hex4Loop]
  | succ n ih =>
    cases s with
    | nil => simp [hex4Loop]
    | cons c t =>
      simp only [hex4Loop]
      split
      · simp
      · have := ih t
        split <;> (rename_i h; rw [h] at this; simp at *; omega)

theorem codepointLoop_length (hex s : List Nat) : (codepointLoop hex s).2.2.length ≤ s.length := by
  induction s generalizing hex with
  | nil => simp [codepointLoop]
  | cons c t ih =>
    simp only [codepointLoop]
    split
    · split
      · simp
      · split <;> simp
    · split
      · simp
      · have := ih (hex ++ [c]); simp; omega

theorem readUnicode_length (f : Nat → Bool) (id : Bool) (s : List Nat) :
    (readUnicodeEscapeSeq f id s).2.2.length ≤ s.length := by
  unfold readUnicodeEscapeSeq
  split
  · unfold readCodepoint
    have := codepointLoop_length [] (rd s).2
    have := rd_length s
    omega
  · unfold readHex4Digits
    have := hex4Loop_length 4 s
    split
    · rename_i h; rw [h] at this; simpa using this
    · rename_i h; rw [h] at this
      simp only at this ⊢
      repeat' split
      all_goals exact this

/-- Whatever the outcome, the escape scanner consumes a character unless there is none. -/
theorem readEscapeSeq_length (tpl : Bool) {s : List Nat} (h : s ≠ []) :
    (readEscapeSeq tpl s).rest.length < s.length := by
  have h1 := rd_length_lt h
  simp only [readEscapeSeq]
  cases hr : rd s with
  | mk o t =>
    rw [hr] at h1
    cases o with
    | none => exact h1
    | some c =>
      simp only at h1 ⊢
      have ho := fun n => octalDigits_length n t
      have hx : (readHexEscapeSeq t).2.2.length ≤ t.length := by
        have e : (readHexEscapeSeq t).2.2 = (rd (rd t).2).2 := by
          simp only [readHexEscapeSeq]
          split
          · split
            · rfl
            · split <;> rfl
          · rfl
        rw [e]
        have := rd_length t
        have := rd_length (rd t).2
        omega
      have hu := readUnicode_length (fun _ => true) false t
      have ho' : (readOctalEscapeSeq tpl c t).2.2.2.length ≤ t.length := by
        simp only [readOctalEscapeSeq]
        split
        · simp
        · repeat' split
          all_goals exact ho _
      repeat' split
      all_goals first | exact h1 | exact Nat.lt_of_le_of_lt ‹_› h1
end Mole.Lexer
