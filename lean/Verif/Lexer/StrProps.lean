import Verif.Lexer.StrLemmas
/-!
# C09: string literals
-/
namespace Mole.Lexer
open Spec

theorem strLoop_total (super tpl : Bool) (q : Nat) (fuel : Nat) (s : List Nat)
    (buf : Option (List Nat)) (raw : List Nat) (oct : Bool) (hf : s.length < fuel) :
    strLoop super tpl q fuel buf raw oct s ≠ none := by
  induction fuel generalizing s buf raw oct with
  | zero => omega
  | succ fuel ih =>
    cases s with
    | nil => simp [strLoop, rd]
    | cons c s =>
      have h0 := rd_length_lt (s := c :: s) (by simp)
      simp only [strLoop]
      cases hr : rd (c :: s) with
      | mk o t =>
        rw [hr] at h0
        simp only [List.length_cons] at h0 hf
        cases o with
        | none => simp
        | some c' =>
          simp only
          split
          · split
            · rename_i hlt
              apply ih
              have := rd_length t
              simp only [readLineTerm]; omega
            · split
              · simp
              · split
                · simp
                · rename_i r hr'
                  apply ih
                  by_cases ht : t = []
                  · subst ht; simp [readEscapeSeq, rd] at hr'
                  · have := readEscapeSeq_length tpl ht; omega
          · split
            · simp
            · split
              · simp
              · apply ih; omega

/-- **C09.** Reading a string literal always ends. -/
theorem readStr_terminates (super tpl : Bool) (q : Nat) (s : List Nat) :
    ∃ r, readStr super tpl q s = some r := by
  cases h : readStr super tpl q s with
  | none => exact absurd h (strLoop_total super tpl q _ s none [] false (by omega))
  | some r => exact ⟨r, rfl⟩

/-- **C09** (partial: outside template substitutions, and surrogates written as escapes become
U+FFFD).  For every decoded text after an opening quote, reading it succeeds with the decoded
characters `v`, leaving `rest`, exactly when the text starts with a string body, closed by the
first matching quote that belongs to no escape, whose code points are `v`. -/
theorem readStr_iff_partial (super : Bool) (q : Nat) (hq : q = '"'.toNat ∨ q = '\''.toNat)
    (s : List Nat) (hs : ∀ c ∈ s, Scalar c) (v rest : List Nat) :
    (∃ buf raw oct, readStr super false q s = some (.ok buf raw oct rest) ∧
      buf.getD raw = v) ↔
    ∃ vs, StrAt super q s vs rest ∧ v = vs.map appendRune := by
  constructor
  · rintro ⟨buf, raw, oct, h, rfl⟩
    obtain ⟨vs, h1, h2⟩ := strLoop_sound super q _ s none [] false hs _ _ _ _ h
    exact ⟨vs, h1, by simpa using h2⟩
  · rintro ⟨vs, h, rfl⟩
    obtain ⟨b, w, o, h1, h2⟩ := strLoop_complete super q (by simpa using hq) s vs rest h
      (s.length + 1) none [] false (by omega) hs
    exact ⟨b, w, o, h1, by simpa using h2⟩

/-- **C09.** Outside template substitutions an error is reported exactly when no string body
starts here: the line or the source ends first, or an escape is ill-formed. -/
theorem readStr_error_iff (super : Bool) (q : Nat) (hq : q = '"'.toNat ∨ q = '\''.toNat)
    (s : List Nat) (hs : ∀ c ∈ s, Scalar c) :
    (∃ e, readStr super false q s = some (.err e)) ↔ ¬ ∃ vs rest, StrAt super q s vs rest := by
  obtain ⟨r, hr⟩ := readStr_terminates super false q s
  constructor
  · rintro ⟨e, he⟩ ⟨vs, rest, h⟩
    obtain ⟨b, w, o, h1, -⟩ := (readStr_iff_partial super q hq s hs _ rest).2 ⟨vs, h, rfl⟩
    rw [he] at h1; cases h1
  · intro h
    cases r with
    | err e => exact ⟨e, hr⟩
    | ok b w o rest =>
      obtain ⟨vs, h1, -⟩ := (readStr_iff_partial super q hq s hs _ rest).1 ⟨b, w, o, hr, rfl⟩
      exact absurd ⟨vs, rest, h1⟩ h

/-- **C09** (partial: strings with at least one character).  The text of the token is the
decoded text. -/
theorem strText_partial (buf : Option (List Nat)) (raw : List Nat) (h : buf.getD raw ≠ []) :
    strText buf raw = buf.getD raw := by
  cases buf with
  | none => rfl
  | some b => cases b with
    | nil => exact absurd rfl h
    | cons => rfl

/-- **C09 is violated** for a string made of line continuations only: its value is the empty
string, but the text of the token is the backslash and the line feed. -/
theorem empty_continuation_violated :
    StrAt true 39 [92, 10, 39] [] [] ∧
    ∃ buf raw, readStr true false 39 [92, 10, 39] = some (.ok buf raw false []) ∧
      buf.getD raw = [] ∧ strText buf raw = [92, 10] :=
  ⟨.cont (.one _ (.inl rfl)) (.close _), some [], [92, 10], by decide, by decide, by decide⟩

/-- **C08/C09 is violated** for surrogate pairs written as two escapes: the two escapes D83D, DE00 are
U+1F600 in the language, the token text has two U+FFFD. -/
theorem surrogate_violated :
    readStr true false 39 [92,117,68,56,51,68, 92,117,68,69,48,48, 39] =
      some (.ok (some [0xFFFD, 0xFFFD])
        [92,117,68,56,51,68, 92,117,68,69,48,48] false []) := by decide

/-- **C09 is violated** inside template substitutions: in `${'\0'}` the mode is still the
template's, so the string is rejected although it is a well-formed literal. -/
theorem string_in_template_violated :
    StrAt true 39 [92, 48, 39] [0] [] ∧
    readStr true true 39 [92, 48, 39] = some (.err .tplLegacyOctal) :=
  ⟨.esc (.oct1 ⟨by omega, rfl⟩ (by intro c v t h; cases h; unfold OctDigit; simp; omega))
    (.close _), by decide⟩

/-- The standard way to write a text between quotes `q`. -/
def encode (q : Nat) : List Nat → List Nat
  | [] => []
  | c :: cs =>
    (if c = q ∨ c = 92 then [92, c]
     else if c = 0x0a then [92, 110]
     else if c = 0x0d then [92, 114]
     else if c = 0x2028 then [92, 117, 50, 48, 50, 56]
     else if c = 0x2029 then [92, 117, 50, 48, 50, 57]
     else [c]) ++ encode q cs

/-- **C09, round trip.** Any text of Unicode scalar values, written with the standard escapes
between quotes, is read back as that text, and the closing quote is the last character
consumed. -/
theorem readStr_encode (super : Bool) (q : Nat) (hq : q = '"'.toNat ∨ q = '\''.toNat)
    (cs rest : List Nat) (hcs : ∀ c ∈ cs, Scalar c) (hrest : ∀ c ∈ rest, Scalar c) :
    ∃ buf raw oct, readStr super false q (encode q cs ++ q :: rest) =
      some (.ok buf raw oct rest) ∧ buf.getD raw = cs := by
  have hq' : q = 34 ∨ q = 39 := by simpa using hq
  have key : StrAt super q (encode q cs ++ q :: rest) cs rest := by
    clear hcs hrest
    induction cs with
    | nil => exact .close _
    | cons c cs ih =>
      simp only [encode, List.append_assoc]
      split
      · rename_i h
        refine .esc (.other _ ?_ ?_ ?_) ih
        · unfold LineTerm; omega
        · rintro v ⟨h1, h2⟩; simp at h2; omega
        · simp; omega
      · split
        · rename_i h; subst h; exact .esc (.n _) ih
        · split
          · rename_i h; subst h; exact .esc (.r _) ih
          · have hd : ∀ d w, (w < 10 ∧ d = 48 + w) → HexDigit d w := by
              intro d w h; left; simpa using h
            split
            · rename_i h; subst h
              exact .esc (.u4 (cs := [50, 48, 50, 56]) (vs := [2, 0, 2, 8]) _
                (.cons (hd _ _ (by omega)) (.cons (hd _ _ (by omega)) (.cons (hd _ _ (by omega))
                  (.cons (hd _ _ (by omega)) .nil)))) rfl) ih
            · split
              · rename_i h; subst h
                exact .esc (.u4 (cs := [50, 48, 50, 57]) (vs := [2, 0, 2, 9]) _
                  (.cons (hd _ _ (by omega)) (.cons (hd _ _ (by omega)) (.cons (hd _ _ (by omega))
                    (.cons (hd _ _ (by omega)) .nil)))) rfl) ih
              · rename_i h1 h2 h3 h4 h5
                rw [not_or] at h1
                exact .char h1.1 h1.2 (by unfold StrTerm; omega) ih
  have hs : ∀ c ∈ encode q cs ++ q :: rest, Scalar c := by
    intro c hc
    rcases List.mem_append.1 hc with h | h
    · clear key hc
      induction cs with
      | nil => cases h
      | cons d cs ih =>
        simp only [encode, List.mem_append] at h
        rcases h with h | h
        · have hd := hcs d (by simp)
          revert h
          repeat' split
          all_goals simp only [List.mem_cons, List.not_mem_nil, or_false]
          all_goals intro h
          all_goals unfold Scalar at *
          all_goals omega
        · exact ih (fun e he => hcs e (by simp [he])) h
    · rcases List.mem_cons.1 h with rfl | h
      · unfold Scalar; omega
      · exact hrest c h
  obtain ⟨b, w, o, h1, h2⟩ := (readStr_iff_partial super q hq _ hs _ rest).2 ⟨cs, key, rfl⟩
  refine ⟨b, w, o, h1, ?_⟩
  rw [h2]
  clear key h1 h2 hs
  induction cs with
  | nil => rfl
  | cons c cs ih =>
    rw [List.map_cons, appendRune_scalar (hcs c (by simp)), ih fun d hd => hcs d (by simp [hd])]

example : readStr false false 34 (encode 34 [0x61, 34, 0x2028, 92, 0x1F600] ++ [34, 59]) =
    some (.ok (some [0x61, 34, 0x2028, 92, 0x1F600])
      [0x61, 92, 34, 92, 117, 50, 48, 50, 56, 92, 92, 0x1F600] false [59]) := by decide

theorem readJsxStr_go {o : Nat} (ho : o ≠ 10 ∧ o ≠ 13) (fuel : Nat) (raw s : List Nat) (hf : s.length < fuel) :
    (∀ raw' rest, readJsxStr o fuel raw s = some (.ok (raw', rest)) ↔
      ∃ q, raw' = raw ++ q ∧ s = q ++ o :: rest ∧ o ∉ q) ∧
    (readJsxStr o fuel raw s = some (.error .unterminatedStr) ↔ o ∉ s) := by
  induction fuel generalizing raw s with
  | zero => omega
  | succ fuel ih =>
    -- a step over the characters `w`
    have stepOver : ∀ (w t : List Nat) (c : Nat), s = w ++ t → w ≠ [] → o ∉ w → c ≠ o → rd s = (some c, t) →
        (∀ raw' rest, readJsxStr o (fuel + 1) raw s = some (.ok (raw', rest)) ↔
          ∃ q, raw' = raw ++ q ∧ s = q ++ o :: rest ∧ o ∉ q) ∧
        (readJsxStr o (fuel + 1) raw s = some (.error .unterminatedStr) ↔ o ∉ s) := by
      intro w t c hs hw how hc hr
      have hl : 0 < w.length := List.length_pos_iff.2 hw
      have ht : s.take (s.length - t.length) = w := by simp [hs]
      have e : readJsxStr o (fuel + 1) raw s = readJsxStr o fuel (raw ++ w) t := by
        rw [readJsxStr, hr]
        simp only [if_neg hc, ht]
      have k := ih (raw ++ w) t (by rw [hs, List.length_append] at hf; omega)
      rw [e]
      refine ⟨fun raw' rest => (k.1 raw' rest).trans ⟨?_, ?_⟩, k.2.trans ?_⟩
      · rintro ⟨q, rfl, rfl, hq⟩
        exact ⟨w ++ q, by simp, by simp [hs], by simp [how, hq]⟩
      · rintro ⟨q, rfl, h1, h2⟩
        rw [hs] at h1
        rcases List.append_eq_append_iff.1 h1 with ⟨a, rfl, ha⟩ | ⟨a, rfl, ha⟩
        · exact ⟨a, by simp, ha, fun h => h2 (by simp [h])⟩
        · cases a with
          | nil => exact ⟨[], by simp, by simpa using ha.symm, by simp⟩
          | cons x a =>
            simp only [List.cons_append, List.cons.injEq] at ha
            exact absurd (by simp [ha.1]) how
      · rw [hs]; simp [how]
    cases s with
    | nil => simp [readJsxStr, rd]
    | cons c t =>
      by_cases h13 : c = 13
      · subst h13
        cases t with
        | nil => exact stepOver [13] [] 10 rfl (by simp) (by simp [ho.2]) (Ne.symm ho.1) rfl
        | cons d t =>
          by_cases h10 : d = 10
          · subst h10
            exact stepOver [13, 10] t 10 rfl (by simp) (by simp [ho.1, ho.2]) (Ne.symm ho.1) rfl
          · exact stepOver [13] (d :: t) 10 rfl (by simp) (by simp [ho.2]) (Ne.symm ho.1) (by simp [rd, h10])
      · by_cases hc : c = o
        · subst hc
          have e : readJsxStr c (fuel + 1) raw (c :: t) = some (.ok (raw, t)) := by
            simp [readJsxStr, rd_cons h13]
          rw [e]
          refine ⟨fun raw' rest => ⟨?_, ?_⟩, by simp⟩
          · intro h
            simp only [Option.some.injEq, Except.ok.injEq, Prod.mk.injEq] at h
            exact ⟨[], by simp [h.1], by simp [h.2], by simp⟩
          · rintro ⟨q, rfl, h1, h2⟩
            cases q with
            | nil => simp at h1 ⊢; exact h1
            | cons x q =>
              simp only [List.cons_append, List.cons.injEq] at h1
              exact absurd (by simp [h1.1]) h2
        · exact stepOver [c] t c rfl (by simp) (by simp [Ne.symm hc]) hc (rd_cons h13 t)

/-- **C09.** The string of a JSX attribute is the text up to the next quote of the kind that opened it, as
written: no escapes, and line breaks are kept.  Without such a quote it is an unterminated string. -/
theorem readJsxStr_iff (o : Nat) (ho : o = '"'.toNat ∨ o = '\''.toNat) (s raw rest : List Nat) :
    (readJsxStr o (s.length + 1) [] s = some (.ok (raw, rest)) ↔ s = raw ++ o :: rest ∧ o ∉ raw) ∧
    (readJsxStr o (s.length + 1) [] s = some (.error .unterminatedStr) ↔ o ∉ s) := by
  have ho' : o ≠ 10 ∧ o ≠ 13 := by rcases ho with rfl | rfl <;> decide
  have k := readJsxStr_go ho' (s.length + 1) [] s (by omega)
  refine ⟨(k.1 raw rest).trans ⟨?_, ?_⟩, k.2⟩
  · rintro ⟨q, rfl, h1, h2⟩; exact ⟨by simpa using h1, by simpa using h2⟩
  · rintro ⟨h1, h2⟩; exact ⟨raw, rfl, h1, h2⟩

/-- A backslash, the other quote and a line break belong to the text. -/
example : readJsxStr 34 9 [] ("a\\'\r\n\"/>".toList.map Char.toNat) =
    some (.ok ("a\\'\r\n".toList.map Char.toNat, "/>".toList.map Char.toNat)) := by rfl

end Mole.Lexer
