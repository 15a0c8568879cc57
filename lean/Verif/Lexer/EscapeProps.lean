import Verif.Lexer.EscapeLemmas
/-!
# C08: escape sequences
-/
namespace Mole.Lexer
open Spec

theorem lt_cases {s : List Nat} (h : ∀ c t, s = c :: t → ¬ LineTerm c) (c : Nat) (t : List Nat)
    (e : s = c :: t) : c ≠ 0x0a ∧ c ≠ 0x0d ∧ c ≠ 0x2028 ∧ c ≠ 0x2029 := by
  have := h c t e
  simp only [LineTerm, not_or] at this
  exact this

theorem octalDigits_nil (n : Nat) {s : List Nat} (h : ∀ c t, s = c :: t → isOctalDigit c = false) :
    octalDigits n s = ([], s) := by
  cases n with
  | zero => rfl
  | succ n =>
    cases s with
    | nil => rfl
    | cons c t => simp [octalDigits, h c t rfl]

theorem octalDigits_cons (n : Nat) {c : Nat} {t : List Nat} (h : isOctalDigit c = true) :
    octalDigits (n + 1) (c :: t) = (c :: (octalDigits n t).1, (octalDigits n t).2) := by
  simp [octalDigits, h]

theorem digitVal_oct {c : Nat} (h : isOctalDigit c = true) : digitVal c < 8 ∧ c = 48 + digitVal c := by
  have := (octDigit_iff c _).2 ⟨h, rfl⟩
  simpa [OctDigit] using this

theorem parse_oct (c : Nat) (ds : List Nat) (hl : ds.length ≤ 2)
    (h : ∀ d ∈ c :: ds, isOctalDigit d = true) :
    parseInt32 8 (c :: ds) = (value 8 ((c :: ds).map digitVal), false) := by
  apply parseInt32_of_lt _ _ (by simp)
  have := value_lt 8 ((c :: ds).map digitVal) (by
    intro v hv
    obtain ⟨d, hd, rfl⟩ := List.mem_map.1 hv
    exact (digitVal_oct (h d hd)).1)
  have h2 : 8 ^ ((c :: ds).map digitVal).length ≤ 8 ^ 3 :=
    Nat.pow_le_pow_right (by decide) (by simp; omega)
  omega

theorem readOctal_one {c : Nat} {t : List Nat} (hc : isOctalDigit c = true)
    (ht : ∀ c t', t = c :: t' → isOctalDigit c = false) :
    readOctalEscapeSeq false c t = (digitVal c, none, 1, t) := by
  simp only [readOctalEscapeSeq, octalDigits_nil _ ht, Bool.false_eq_true, if_false]
  rw [parse_oct c [] (by simp) (by simpa using hc)]
  simp [value]

theorem readOctal_two {c d : Nat} {t : List Nat} (hc : isOctalDigit c = true)
    (hd : isOctalDigit d = true) (ht : 52 ≤ c ∨ ∀ c t', t = c :: t' → isOctalDigit c = false) :
    readOctalEscapeSeq false c (d :: t) = (digitVal c * 8 + digitVal d, none, 2, t) := by
  simp only [readOctalEscapeSeq, Bool.false_eq_true, if_false]
  have hc' := digitVal_oct hc
  have : octalDigits (if (decide (48 ≤ c) && decide (c ≤ 51)) = true then 2 else 1) (d :: t) =
      ([d], t) := by
    rcases ht with h | ht
    · rw [if_neg (by simp; omega), octalDigits_cons 0 hd]; simp [octalDigits]
    · split
      · rw [octalDigits_cons 1 hd, octalDigits_nil _ ht]
      · rw [octalDigits_cons 0 hd]; simp [octalDigits]
  rw [this]
  simp only
  rw [parse_oct c [d] (by simp) (by simp [hc, hd])]
  simp [value]

theorem readOctal_three {c d e : Nat} {t : List Nat} (hc : isOctalDigit c = true)
    (hd : isOctalDigit d = true) (he : isOctalDigit e = true) (h3 : c ≤ 51) :
    readOctalEscapeSeq false c (d :: e :: t) =
      ((digitVal c * 8 + digitVal d) * 8 + digitVal e, none, 3, t) := by
  simp only [readOctalEscapeSeq, Bool.false_eq_true, if_false]
  have hc' := digitVal_oct hc
  have hz : (decide (48 ≤ c) && decide (c ≤ 51)) = true := by simp; omega
  have : octalDigits 2 (d :: e :: t) = ([d, e], t) := by
    rw [octalDigits_cons 1 hd, octalDigits_cons 0 he]; simp [octalDigits]
  rw [if_pos hz, this]
  simp only
  rw [parse_oct c [d, e] (by simp) (by simp [hc, hd, he])]
  simp only [List.map_cons, List.map_nil, value, List.length_cons, List.length_nil]
  simp; omega

/-- The scanner on an octal digit. -/
theorem readEscapeSeq_oct (tpl : Bool) {c : Nat} (t : List Nat) (h : isOctalDigit c = true) :
    readEscapeSeq tpl (c :: t) =
      ⟨some (readOctalEscapeSeq tpl c t).1, (readOctalEscapeSeq tpl c t).2.1,
        (readOctalEscapeSeq tpl c t).1 != 0 || (readOctalEscapeSeq tpl c t).2.2.1 != 1,
        (readOctalEscapeSeq tpl c t).2.2.2⟩ := by
  have hc : 48 ≤ c ∧ c ≤ 55 := by simpa [isOctalDigit] using h
  have h1 : c ≠ 0x0d := by omega
  have h2 : c ≠ 98 := by omega
  have h3 : c ≠ 102 := by omega
  have h4 : c ≠ 110 := by omega
  have h5 : c ≠ 114 := by omega
  have h6 : c ≠ 116 := by omega
  have h7 : c ≠ 118 := by omega
  simp [readEscapeSeq, rd, h1, h2, h3, h4, h5, h6, h7, h]

theorem readHexEscape_ok {a b : Nat} (t : List Nat) (ha : isHexDigit a = true)
    (hb : isHexDigit b = true) :
    readHexEscapeSeq (a :: b :: t) = (digitVal a * 16 + digitVal b, none, t) := by
  simp only [readHexEscapeSeq, rd_cons (hex_ne_cr ha), rd_cons (hex_ne_cr hb), ha, hb]
  have h1 := digitVal_lt_of_hex ha
  have h2 := digitVal_lt_of_hex hb
  rw [parseInt32_of_lt 16 [a, b] (by simp) (by simp [value]; omega)]
  simp [value]

theorem readHexEscape_inv {s : List Nat} {v : Nat} {rest : List Nat}
    (h : readHexEscapeSeq s = (v, none, rest)) :
    ∃ a b, s = a :: b :: rest ∧ isHexDigit a = true ∧ isHexDigit b = true ∧
      v = digitVal a * 16 + digitVal b := by
  have bad : ∀ c, (rd (c :: s)).1 = some 0x0a → isHexDigit 0x0a = false := fun _ _ => by decide
  cases s with
  | nil => simp [readHexEscapeSeq, rd] at h
  | cons a t =>
    by_cases hacr : a = 0x0d
    · subst hacr
      exfalso
      have h1 : ∃ t', rd (0x0d :: t) = (some 0x0a, t') := by
        cases t with
        | nil => exact ⟨_, rfl⟩
        | cons d t => by_cases hd : d = 0x0a <;> simp [rd, hd]
      obtain ⟨t', h1⟩ := h1
      simp only [readHexEscapeSeq, h1] at h
      cases h2 : rd t' with
      | mk o t'' =>
        rw [h2] at h
        cases o with
        | none => simp at h
        | some b => simp [show isHexDigit 10 = false by decide] at h
    · cases t with
      | nil => simp [readHexEscapeSeq, rd, hacr] at h
      | cons b t =>
        by_cases hbcr : b = 0x0d
        · subst hbcr
          exfalso
          have h1 : ∃ t', rd (0x0d :: t) = (some 0x0a, t') := by
            cases t with
            | nil => exact ⟨_, rfl⟩
            | cons d t => by_cases hd : d = 0x0a <;> simp [rd, hd]
          obtain ⟨t', h1⟩ := h1
          simp only [readHexEscapeSeq, rd_cons hacr, h1] at h
          simp [show isHexDigit 10 = false by decide] at h
        · by_cases hh : isHexDigit a = true ∧ isHexDigit b = true
          · rw [readHexEscape_ok t hh.1 hh.2] at h
            simp only [Prod.mk.injEq, true_and] at h
            obtain ⟨rfl, rfl⟩ := h
            exact ⟨a, b, rfl, hh.1, hh.2, rfl⟩
          · exfalso
            simp only [readHexEscapeSeq, rd_cons hacr, rd_cons hbcr] at h
            rw [if_pos (by
              cases ha : isHexDigit a <;> cases hb : isHexDigit b <;> simp_all)] at h
            cases h

theorem readUnicode_inv {s : List Nat} {v : Nat} {rest : List Nat}
    (h : readUnicodeEscapeSeq (fun _ => true) false s = (v, none, rest)) :
    (∃ cs, s = cs ++ rest ∧ cs.length = 4 ∧ (∀ c ∈ cs, isHexDigit c = true) ∧
      v = value 16 (cs.map digitVal)) ∨
    (∃ cs, s = 123 :: (cs ++ 125 :: rest) ∧ cs ≠ [] ∧ (∀ c ∈ cs, isHexDigit c = true) ∧
      v = value 16 (cs.map digitVal) ∧ v ≤ 0x10FFFF) := by
  unfold readUnicodeEscapeSeq at h
  split at h
  · rename_i hh
    right
    cases s with
    | nil => cases hh
    | cons c t =>
      simp only [List.head?_cons, Option.some.injEq] at hh
      subst hh
      rw [readCodepoint, rd_cons (by decide), codepointLoop_ok _ _ _ _ (by simp)] at h
      obtain ⟨ds, rfl, h2, h3, h4, h5⟩ := h
      exact ⟨ds, rfl, by simpa using h3, h2, by simpa using h4, h5⟩
  · left
    unfold readHex4Digits at h
    cases hl : hex4Loop 4 s with
    | mk o r =>
      rw [hl] at h
      cases o with
      | none => simp at h
      | some ds =>
        obtain ⟨h1, h2, h3⟩ := (hex4Loop_some _ _ _ _).1 hl
        have hv := value_lt 16 (ds.map digitVal) (by
          intro v hv
          obtain ⟨d, hd, rfl⟩ := List.mem_map.1 hv
          exact digitVal_lt_of_hex (h3 d hd))
        rw [List.length_map, h2] at hv
        simp only at h
        rw [parseInt32_of_lt 16 ds (by intro e; subst e; cases h2) (by omega)] at h
        simp only [Bool.false_eq_true, if_false, Bool.false_and, Prod.mk.injEq, true_and] at h
        obtain ⟨rfl, rfl⟩ := h
        exact ⟨ds, h1, h2, h3, rfl⟩

theorem readUnicode_u4 {cs rest : List Nat} (h1 : cs.length = 4)
    (h2 : ∀ c ∈ cs, isHexDigit c = true) :
    readUnicodeEscapeSeq (fun _ => true) false (cs ++ rest) =
      (value 16 (cs.map digitVal), none, rest) := by
  unfold readUnicodeEscapeSeq
  rw [if_neg (by
    cases cs with
    | nil => cases h1
    | cons c cs =>
      simp only [List.cons_append, List.head?_cons, Option.some.injEq]
      exact (hex_ne_brace (h2 c (by simp))).1)]
  unfold readHex4Digits
  rw [(hex4Loop_some 4 _ cs rest).2 ⟨rfl, h1, h2⟩]
  have hv := value_lt 16 (cs.map digitVal) (by
    intro v hv
    obtain ⟨d, hd, rfl⟩ := List.mem_map.1 hv
    exact digitVal_lt_of_hex (h2 d hd))
  rw [List.length_map, h1] at hv
  simp only
  rw [parseInt32_of_lt 16 cs (by intro e; subst e; cases h1) (by omega)]
  simp

theorem readUnicode_brace {cs rest : List Nat} (h1 : cs ≠ [])
    (h2 : ∀ c ∈ cs, isHexDigit c = true) (h3 : value 16 (cs.map digitVal) ≤ 0x10FFFF) :
    readUnicodeEscapeSeq (fun _ => true) false (123 :: (cs ++ 125 :: rest)) =
      (value 16 (cs.map digitVal), none, rest) := by
  unfold readUnicodeEscapeSeq
  rw [if_pos (by simp), readCodepoint, rd_cons (by decide), codepointLoop_ok _ _ _ _ (by simp)]
  exact ⟨cs, rfl, h2, by simpa using h1, rfl, h3⟩

/-- **C08.** Outside templates, for every text after a backslash that does not start with a
line terminator: the scanner succeeds with code point `v`, leaving `rest`, exactly when the
text starts with an escape sequence for `v` followed by `rest`. -/
theorem readEscapeSeq_iff (s : List Nat) (v : Nat) (rest : List Nat)
    (hlt : ∀ c t, s = c :: t → ¬ LineTerm c) :
    ((readEscapeSeq false s).r = some v ∧ (readEscapeSeq false s).err = none ∧
      (readEscapeSeq false s).rest = rest) ↔ EscapeAt s v rest := by
  constructor
  · rintro ⟨h1, h2, h3⟩
    cases s with
    | nil => simp [readEscapeSeq, rd] at h1
    | cons c t =>
      obtain ⟨l1, l2, l3, l4⟩ := lt_cases hlt c t rfl
      by_cases ho : isOctalDigit c = true
      · rw [readEscapeSeq_oct _ _ ho] at h1 h2 h3
        simp only [Option.some.injEq] at h1 h2 h3
        have hoc := digitVal_oct ho
        have hod : OctDigit c (digitVal c) := (octDigit_iff _ _).2 ⟨ho, rfl⟩
        by_cases ht : ∀ c t', t = c :: t' → isOctalDigit c = false
        · rw [readOctal_one ho ht] at h1 h2 h3
          simp only at h1 h2 h3
          subst h1 h3
          exact .oct1 hod ((noOctal_iff _).2 ht)
        · match t, ht with
          | [], ht => simp at ht
          | d :: t', ht =>
            have hd : isOctalDigit d = true := by simpa using ht
            have hdd : OctDigit d (digitVal d) := (octDigit_iff _ _).2 ⟨hd, rfl⟩
            by_cases h52 : 52 ≤ c ∨ ∀ c t, t' = c :: t → isOctalDigit c = false
            · rw [readOctal_two ho hd h52] at h1 h2 h3
              simp only at h1 h2 h3
              subst h1 h3
              rcases Nat.lt_or_ge c 52 with h | h
              · rcases h52 with h' | h'
                · omega
                · exact .oct2 hod (by omega) hdd ((noOctal_iff _).2 h')
              · exact .oct2' _ hod (by omega) hdd
            · rw [not_or] at h52
              obtain ⟨h52, ht'⟩ := h52
              match t', ht' with
              | [], ht' => simp at ht'
              | e :: t'', ht' =>
                have he : isOctalDigit e = true := by simpa using ht'
                rw [readOctal_three ho hd he (by omega)] at h1 h2 h3
                simp only at h1 h2 h3
                subst h1 h3
                exact .oct3 _ hod (by omega) hdd ((octDigit_iff _ _).2 ⟨he, rfl⟩)
      · simp only [readEscapeSeq, rd_cons l2] at h1 h2 h3
        by_cases c1 : c = 98
        · subst c1; simp at h1 h3; subst h1 h3; exact .b _
        by_cases c2 : c = 102
        · subst c2; simp at h1 h3; subst h1 h3; exact .f _
        by_cases c3 : c = 110
        · subst c3; simp at h1 h3; subst h1 h3; exact .n _
        by_cases c4 : c = 114
        · subst c4; simp at h1 h3; subst h1 h3; exact .r _
        by_cases c5 : c = 116
        · subst c5; simp at h1 h3; subst h1 h3; exact .t _
        by_cases c6 : c = 118
        · subst c6; simp at h1 h3; subst h1 h3; exact .v _
        simp only [c1, c2, c3, c4, c5, c6, if_false, ho, Bool.false_eq_true] at h1 h2 h3
        by_cases c7 : c = 120
        · subst c7
          simp only [if_true] at h1 h2 h3
          have : readHexEscapeSeq t = (v, none, rest) := by
            generalize readHexEscapeSeq t = x at h1 h2 h3
            obtain ⟨a, b, d⟩ := x
            simp only [Option.some.injEq] at h1 h2 h3
            rw [h1, h2, h3]
          obtain ⟨a, b, rfl, ha, hb, rfl⟩ := readHexEscape_inv this
          exact .hex _ ((hexDigit_iff _ _).2 ⟨ha, rfl⟩) ((hexDigit_iff _ _).2 ⟨hb, rfl⟩)
        by_cases c8 : c = 117
        · subst c8
          simp only [if_true, c7, if_false] at h1 h2 h3
          have : readUnicodeEscapeSeq (fun _ => true) false t = (v, none, rest) := by
            generalize readUnicodeEscapeSeq (fun _ => true) false t = x at h1 h2 h3
            obtain ⟨a, b, d⟩ := x
            simp only [Option.some.injEq] at h1 h2 h3
            rw [h1, h2, h3]
          rcases readUnicode_inv this with ⟨cs, rfl, i1, i2, rfl⟩ | ⟨cs, rfl, i1, i2, rfl, i4⟩
          · exact .u4 _ ((hexDigits_iff _ _).2 ⟨i2, rfl⟩) i1
          · exact .brace _ ((hexDigits_iff _ _).2 ⟨i2, rfl⟩) i1 i4
        simp only [c7, c8, if_false, Option.some.injEq] at h1 h2 h3
        subst h1 h3
        refine .other _ (hlt _ _ rfl) ?_ ?_
        · intro v hv; exact ho ((octDigit_iff _ _).1 hv).1
        · simp [c1, c2, c3, c4, c5, c6, c7, c8]
  · intro h
    cases h with
    | b => simp [readEscapeSeq, rd]
    | f => simp [readEscapeSeq, rd]
    | n => simp [readEscapeSeq, rd]
    | r => simp [readEscapeSeq, rd]
    | t => simp [readEscapeSeq, rd]
    | v => simp [readEscapeSeq, rd]
    | hex _ ha hb =>
      obtain ⟨ha', rfl⟩ := (hexDigit_iff _ _).1 ha
      obtain ⟨hb', rfl⟩ := (hexDigit_iff _ _).1 hb
      simp [readEscapeSeq, rd, isOctalDigit, readHexEscape_ok rest ha' hb']
    | u4 _ hd hl =>
      obtain ⟨h2, rfl⟩ := (hexDigits_iff _ _).1 hd
      simp [readEscapeSeq, rd, isOctalDigit, readUnicode_u4 hl h2]
    | brace _ hd hl hv =>
      obtain ⟨h2, rfl⟩ := (hexDigits_iff _ _).1 hd
      have := readUnicode_brace (rest := rest) hl h2 hv
      simp [readEscapeSeq, rd, isOctalDigit, this]
    | oct1 ho hn =>
      obtain ⟨ho', rfl⟩ := (octDigit_iff _ _).1 ho
      rw [readEscapeSeq_oct _ _ ho', readOctal_one ho' ((noOctal_iff _).1 hn)]
      simp
    | oct2 ho h3 hd hn =>
      obtain ⟨ho', rfl⟩ := (octDigit_iff _ _).1 ho
      obtain ⟨hd', rfl⟩ := (octDigit_iff _ _).1 hd
      rw [readEscapeSeq_oct _ _ ho', readOctal_two ho' hd' (.inr ((noOctal_iff _).1 hn))]
      simp
    | oct2' _ ho h4 hd =>
      have := ho.2
      obtain ⟨ho', rfl⟩ := (octDigit_iff _ _).1 ho
      obtain ⟨hd', rfl⟩ := (octDigit_iff _ _).1 hd
      rw [readEscapeSeq_oct _ _ ho', readOctal_two ho' hd' (.inl (by simp at this; omega))]
      simp
    | oct3 _ ho h4 hd he =>
      have := ho.2
      obtain ⟨ho', rfl⟩ := (octDigit_iff _ _).1 ho
      obtain ⟨hd', rfl⟩ := (octDigit_iff _ _).1 hd
      obtain ⟨he', rfl⟩ := (octDigit_iff _ _).1 he
      rw [readEscapeSeq_oct _ _ ho', readOctal_three ho' hd' he' (by simp at this; omega)]
      simp
    | other _ hl ho hn =>
      obtain ⟨l1, l2, l3, l4⟩ := lt_cases hlt v rest rfl
      have ho' : isOctalDigit v = false := by
        cases hc : isOctalDigit v with
        | false => rfl
        | true => exact absurd ((octDigit_iff v _).2 ⟨hc, rfl⟩) (ho _)
      simp at hn
      simp [readEscapeSeq, rd, l2, ho', hn]

example : EscapeAt [117, 123, 49, 70, 54, 48, 48, 125, 65] 0x1F600 [65] :=
  (readEscapeSeq_iff _ _ _ (by intro c t h; cases h; unfold LineTerm; omega)).1 (by decide)

/-- **C08.** The legacy flag of a successful escape is set exactly for octal escapes other than
a lone `\0`. -/
theorem readEscapeSeq_legacy (s : List Nat) (hlt : ∀ c t, s = c :: t → ¬ LineTerm c) :
    (readEscapeSeq false s).octal = true ↔ LegacyOctal s := by
  cases s with
  | nil => simp [readEscapeSeq, rd, LegacyOctal]
  | cons c t =>
    by_cases ho : isOctalDigit c = true
    · have hod : OctDigit c (digitVal c) := (octDigit_iff _ _).2 ⟨ho, rfl⟩
      have hL : LegacyOctal (c :: t) ↔ (digitVal c ≠ 0 ∨ ¬ NoOctal t) := by
        constructor
        · rintro ⟨c', v, t', e, h1, h2⟩
          cases e
          obtain ⟨-, rfl⟩ := (octDigit_iff _ _).1 h1
          exact h2
        · intro h; exact ⟨c, _, t, rfl, hod, h⟩
      rw [hL, readEscapeSeq_oct _ _ ho]
      by_cases ht : ∀ c t', t = c :: t' → isOctalDigit c = false
      · rw [readOctal_one ho ht]
        simp [(noOctal_iff _).2 ht]
      · have hn : ¬ NoOctal t := fun h => ht ((noOctal_iff _).1 h)
        simp only [hn, not_false_eq_true, or_true, iff_true]
        match t, ht with
        | [], ht => simp at ht
        | d :: t', ht =>
          have hd : isOctalDigit d = true := by simpa using ht
          by_cases h52 : 52 ≤ c ∨ ∀ c t, t' = c :: t → isOctalDigit c = false
          · rw [readOctal_two ho hd h52]; simp
          · rw [not_or] at h52
            obtain ⟨h52, ht'⟩ := h52
            match t', ht' with
            | [], ht' => simp at ht'
            | e :: t'', ht' =>
              have he : isOctalDigit e = true := by simpa using ht'
              rw [readOctal_three ho hd he (by omega)]; simp
    · constructor
      · intro h
        exfalso
        obtain ⟨-, l2, -, -⟩ := lt_cases hlt c t rfl
        simp only [readEscapeSeq, rd_cons l2, ho] at h
        revert h
        simp only [Bool.false_eq_true, if_false]
        repeat' split
        all_goals simp
      · rintro ⟨c', v, t', e, h1, -⟩
        cases e
        exact absurd ((octDigit_iff _ _).1 h1).1 ho

/-- **C08.** Inside a template every other escape is read as in a string, and an octal digit
is an error. -/
theorem readEscapeSeq_tpl (s : List Nat) :
    readEscapeSeq true s =
      if onRune isOctalDigit s.head? then ⟨some RE, some .tplLegacyOctal, true, s.tail⟩
      else readEscapeSeq false s := by
  cases s with
  | nil => simp [readEscapeSeq, rd, onRune]
  | cons c t =>
    by_cases ho : isOctalDigit c = true
    · simp [readEscapeSeq_oct _ _ ho, onRune, ho, readOctalEscapeSeq]
    · have : ∀ tpl, readEscapeSeq tpl (c :: t) = readEscapeSeq false (c :: t) := by
        intro tpl
        by_cases hcr : c = 0x0d
        · subst hcr
          have h1 : ∃ t', rd (0x0d :: t) = (some 0x0a, t') := by
            cases t with
            | nil => exact ⟨_, rfl⟩
            | cons d t => by_cases hd : d = 0x0a <;> simp [rd, hd]
          obtain ⟨t', h1⟩ := h1
          simp [readEscapeSeq, h1, isOctalDigit]
        · simp [readEscapeSeq, rd_cons hcr, ho]
      simp [onRune, ho, this true]

/-- **C08 is violated in templates**: `\0` not followed by a digit is the NUL character in the
language, but the scanner reports a legacy octal escape. -/
theorem tpl_nul_violated :
    EscapeAt [48, 96] 0 [96] ∧ (readEscapeSeq true [48, 96]).err = some .tplLegacyOctal :=
  ⟨(readEscapeSeq_iff _ _ _ (by intro c t h; cases h; unfold LineTerm; omega)).1 (by decide),
   by decide⟩

end Mole.Lexer
