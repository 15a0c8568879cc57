import Verif.Lexer.NumSpec
namespace Mole.Lexer
open Spec

/-- Neither a digit nor a separator follows. -/
def Stop (isD : Nat → Bool) (rest : List Nat) : Prop :=
  ∀ c, rest.head? = some c → isD c = false ∧ c ≠ 95

variable {isD : Nat → Bool} {D : Nat → Prop} {onSep : Nat → Option Nat → Option Err} {sep : Prop}

/-- What the loop lemmas need of the digit test and the reaction to `_`. -/
structure LoopOk (isD : Nat → Bool) (D : Nat → Prop) (onSep : Nat → Option Nat → Option Err)
    (sep : Prop) : Prop where
  digit : ∀ c, isD c = true ↔ D c
  us : isD 95 = false
  zero : ∀ l, onSep 0 l ≠ none
  accept : ∀ i l, i ≠ 0 → (onSep i l = none ↔ sep ∧ l ≠ some 95)

theorem loop_sound (H : LoopOk isD D onSep sep) (s : List Nat) :
    ∀ (i : Nat) (last : Option Nat) (i' : Nat) (last' : Option Nat) (rest : List Nat),
      i ≠ 0 → digitLoop isD onSep i last s = .ok (i', last', rest) → last' ≠ some 95 →
      i' ≠ 0 ∧ Stop isD rest ∧
      (last ≠ some 95 → ∃ t, s = t ++ rest ∧ DigitsTail D sep t) ∧
      (last = some 95 → ∃ d t, s = d :: t ++ rest ∧ D d ∧ DigitsTail D sep t) := by
  induction s with
  | nil =>
    intro i last i' last' rest hi h hl
    simp only [digitLoop, Except.ok.injEq, Prod.mk.injEq] at h
    obtain ⟨rfl, rfl, rfl⟩ := h
    exact ⟨hi, by simp [Stop], fun _ => ⟨[], rfl, .nil⟩, fun h => absurd h hl⟩
  | cons c t ih =>
    intro i last i' last' rest hi h hl
    simp only [digitLoop] at h
    by_cases hc : c = 95
    · subst hc
      simp only [beq_self_eq_true, Bool.or_true, if_true] at h
      cases ho : onSep i last with
      | some e => rw [ho] at h; cases h
      | none =>
        rw [ho] at h
        obtain ⟨hsep, hlast⟩ := (H.accept i last hi).1 ho
        obtain ⟨h1, h2, -, h4⟩ := ih _ _ _ _ _ (by omega) h hl
        obtain ⟨d, u, rfl, hd, hu⟩ := h4 rfl
        exact ⟨h1, h2, fun _ => ⟨95 :: d :: u, rfl, .sep hsep hd hu⟩, fun hh => absurd hh hlast⟩
    · by_cases hd : isD c = true
      · simp only [hd, Bool.true_or, if_true, hc, if_false] at h
        obtain ⟨h1, h2, h3, -⟩ := ih _ _ _ _ _ (by omega) h hl
        obtain ⟨u, rfl, hu⟩ := h3 (by simpa using hc)
        exact ⟨h1, h2, fun _ => ⟨c :: u, rfl, .digit ((H.digit c).1 hd) hu⟩,
          fun _ => ⟨c, u, rfl, (H.digit c).1 hd, hu⟩⟩
      · have hb : (isD c || c == 95) = false := by simp [hd, hc]
        rw [hb] at h
        simp only [Bool.false_eq_true, if_false, Except.ok.injEq, Prod.mk.injEq] at h
        obtain ⟨rfl, rfl, rfl⟩ := h
        refine ⟨hi, ?_, fun _ => ⟨[], rfl, .nil⟩, fun h => absurd h hl⟩
        intro d hd'
        simp only [List.head?_cons, Option.some.injEq] at hd'
        subst hd'
        exact ⟨by simpa using hd, hc⟩

theorem loop_complete (H : LoopOk isD D onSep sep) {t rest : List Nat} (ht : DigitsTail D sep t)
    (hs : Stop isD rest) :
    ∀ (i : Nat) (last : Option Nat), i ≠ 0 → last ≠ some 95 →
      ∃ i' last', digitLoop isD onSep i last (t ++ rest) = .ok (i', last', rest) ∧ i' ≠ 0 ∧
        last' ≠ some 95 := by
  induction ht with
  | nil =>
    intro i last hi hl
    cases rest with
    | nil => exact ⟨i, last, rfl, hi, hl⟩
    | cons c r =>
      obtain ⟨h1, h2⟩ := hs c rfl
      exact ⟨i, last, by simp [digitLoop, h1, h2], hi, hl⟩
  | digit hd _ ih =>
    rename_i d t _
    intro i last hi hl
    have hd' := (H.digit d).2 hd
    have hne : d ≠ 95 := by rintro rfl; rw [H.us] at hd'; cases hd'
    obtain ⟨i', l', h1, h2⟩ := ih (i + 1) (some d) (by omega) (by simpa using hne)
    exact ⟨i', l', by simp only [List.cons_append, digitLoop, hd', Bool.true_or, if_true, hne,
      if_false, h1], h2⟩
  | sep hsep hd _ ih =>
    rename_i d t _
    intro i last hi hl
    have hd' := (H.digit d).2 hd
    have hne : d ≠ 95 := by rintro rfl; rw [H.us] at hd'; cases hd'
    obtain ⟨i', l', h1, h2⟩ := ih (i + 1 + 1) (some d) (by omega) (by simpa using hne)
    refine ⟨i', l', ?_, h2⟩
    have ho : onSep i last = none := (H.accept i last hi).2 ⟨hsep, hl⟩
    show digitLoop isD onSep i last (95 :: d :: (t ++ rest)) = _
    simp only [digitLoop, beq_self_eq_true, Bool.or_true, if_true, ho, hd', Bool.true_or, hne,
      if_false, h1]

/-- The loop from its start. -/
theorem loop0_sound (H : LoopOk isD D onSep sep) {s : List Nat} {i' : Nat} {last' : Option Nat}
    {rest : List Nat} (h : digitLoop isD onSep 0 none s = .ok (i', last', rest))
    (hl : last' ≠ some 95) :
    Stop isD rest ∧ ((i' = 0 ∧ s = rest) ∨ (i' ≠ 0 ∧ ∃ ds, s = ds ++ rest ∧ Digits D sep ds)) := by
  cases s with
  | nil =>
    simp only [digitLoop, Except.ok.injEq, Prod.mk.injEq] at h
    obtain ⟨rfl, rfl, rfl⟩ := h
    exact ⟨by simp [Stop], .inl ⟨rfl, rfl⟩⟩
  | cons c t =>
    simp only [digitLoop] at h
    by_cases hc : c = 95
    · subst hc
      simp only [beq_self_eq_true, Bool.or_true, if_true] at h
      cases ho : onSep 0 none with
      | some e => rw [ho] at h; cases h
      | none => exact absurd ho (H.zero none)
    · by_cases hd : isD c = true
      · simp only [hd, Bool.true_or, if_true, hc, if_false] at h
        obtain ⟨h1, h2, h3, -⟩ := loop_sound H _ _ _ _ _ _ (by omega) h hl
        obtain ⟨u, rfl, hu⟩ := h3 (by simpa using hc)
        exact ⟨h2, .inr ⟨h1, c :: u, rfl, c, u, rfl, (H.digit c).1 hd, hu⟩⟩
      · have hb : (isD c || c == 95) = false := by simp [hd, hc]
        rw [hb] at h
        simp only [Bool.false_eq_true, if_false, Except.ok.injEq, Prod.mk.injEq] at h
        obtain ⟨rfl, rfl, rfl⟩ := h
        refine ⟨?_, .inl ⟨rfl, rfl⟩⟩
        intro d hd'
        simp only [List.head?_cons, Option.some.injEq] at hd'
        subst hd'
        exact ⟨by simpa using hd, hc⟩

theorem loop0_complete (H : LoopOk isD D onSep sep) {ds rest : List Nat} (h : Digits D sep ds)
    (hs : Stop isD rest) :
    ∃ i' last', digitLoop isD onSep 0 none (ds ++ rest) = .ok (i', last', rest) ∧ i' ≠ 0 ∧
      last' ≠ some 95 := by
  obtain ⟨d, t, rfl, hd, ht⟩ := h
  have hd' := (H.digit d).2 hd
  have hne : d ≠ 95 := by rintro rfl; rw [H.us] at hd'; cases hd'
  obtain ⟨i', l', h1, h2⟩ := loop_complete H ht hs 1 (some d) (by omega) (by simpa using hne)
  exact ⟨i', l', by simp only [List.cons_append, digitLoop, hd', Bool.true_or, if_true, hne,
    if_false, h1], h2⟩

theorem loop0_none {s : List Nat} (hs : Stop isD s) :
    digitLoop isD onSep 0 none s = .ok (0, none, s) := by
  cases s with
  | nil => rfl
  | cons c r =>
    obtain ⟨h1, h2⟩ := hs c rfl
    simp [digitLoop, h1, h2]

theorem isDecimalDigit_iff (c : Nat) : isDecimalDigit c = true ↔ Dec c := by
  simp [isDecimalDigit, Dec]

theorem isOctalDigit_iff' (c : Nat) : isOctalDigit c = true ↔ Oct c := by
  simp [isOctalDigit, Oct]

theorem isHexDigit_iff' (c : Nat) : isHexDigit c = true ↔ Hex c := by
  simp only [isHexDigit, Hex, Dec, Bool.or_eq_true, Bool.and_eq_true, decide_eq_true_eq]
  show _ ↔ (48 ≤ c ∧ c ≤ 57) ∨ (97 ≤ c ∧ c ≤ 102) ∨ (65 ≤ c ∧ c ≤ 70)
  omega

variable (F : NumCfg)

theorem decOk : LoopOk isDecimalDigit Dec (decSep F) (F.sep = true) where
  digit := isDecimalDigit_iff
  us := by decide
  zero := by intro l; simp only [decSep]; split <;> simp
  accept := by
    intro i l hi
    cases hs : F.sep <;> simp [decSep, hs, hi]

theorem radixOk (h : ∀ c, isD c = true ↔ D c) (hu : isD 95 = false) :
    LoopOk isD D (radixSep F false) (F.sep = true) where
  digit := h
  us := hu
  zero := by intro l; simp only [radixSep]; split <;> simp
  accept := by
    intro i l hi
    cases hs : F.sep <;> simp [radixSep, hs, hi]

theorem legacyOk : LoopOk isOctalDigit Oct (radixSep F true) False where
  digit := isOctalDigit_iff'
  us := by decide
  zero := by intro l; simp only [radixSep]; split <;> simp
  accept := by
    intro i l hi
    cases hs : F.sep <;> simp [radixSep, hs, hi]

variable (T : IdTables)

theorem decDigits_sound {F T} {opt : Bool} {s rest : List Nat}
    (h : readDecimalDigits T F opt s = .ok rest) :
    Stop isDecimalDigit rest ∧
      ((opt = true ∧ s = rest) ∨ ∃ ds, s = ds ++ rest ∧ Digits Dec (F.sep = true) ds) := by
  simp only [readDecimalDigits] at h
  split at h
  · cases h
  · rename_i i last r hh
    split at h
    · cases h
    · rename_i hl
      obtain ⟨h1, h2⟩ := loop0_sound (decOk F) hh hl
      split at h
      · split at h <;> cases h
      · rename_i ho
        injection h with h
        subst h
        refine ⟨h1, ?_⟩
        rcases h2 with ⟨h2, h3⟩ | ⟨-, h2⟩
        · left
          refine ⟨?_, h3⟩
          by_cases hopt : opt = true
          · exact hopt
          · exact absurd ⟨h2, by simpa using hopt⟩ ho
        · exact .inr h2

theorem decDigits_complete {F T} {ds rest : List Nat} (opt : Bool)
    (h : Digits Dec (F.sep = true) ds) (hs : Stop isDecimalDigit rest) :
    readDecimalDigits T F opt (ds ++ rest) = .ok rest := by
  obtain ⟨i, l, h1, h2, h3⟩ := loop0_complete (decOk F) h hs
  simp [readDecimalDigits, h1, h2, h3]

theorem decDigits_none {F T} {rest : List Nat} (hs : Stop isDecimalDigit rest) :
    readDecimalDigits T F true rest = .ok rest := by
  simp [readDecimalDigits, loop0_none hs]

/-- No character that starts an identifier follows. -/
def NoId (T : IdTables) (rest : List Nat) : Prop :=
  ∀ c, rest.head? = some c → isIdStart T c = false

theorem noId_iff {T} {s : List Nat} : onRune (isIdStart T) s.head? = false ↔ NoId T s := by
  cases s <;> simp [onRune, NoId]

theorem numEnd_sound {F T} {plain : Bool} {s rest : List Nat}
    (h : numEnd T F plain s = .ok rest) :
    NoId T rest ∧ (s = rest ∨ (plain = true ∧ F.bigint = true ∧ s = 110 :: rest)) := by
  simp only [numEnd] at h
  have key : ∀ r, (if onRune (isIdStart T) r.head? = true then
      (Except.error Err.identAfterNumber : NumRes) else .ok r) = .ok rest →
      NoId T rest ∧ r = rest := by
    intro r hr
    split at hr
    · cases hr
    · rename_i hh
      injection hr with hr
      subst hr
      exact ⟨noId_iff.1 (by simpa using hh), rfl⟩
  cases plain with
  | false =>
    simp only [Bool.false_eq_true, if_false] at h
    obtain ⟨h1, h2⟩ := key _ h
    exact ⟨h1, .inl h2⟩
  | true =>
    simp only [if_true, bigintSuffix] at h
    by_cases hn : s.head? = some 110
    · cases s with
      | nil => cases hn
      | cons c t =>
        simp only [List.head?_cons, Option.some.injEq] at hn
        subst hn
        cases hb : F.bigint with
        | false => simp [hb] at h
        | true =>
          simp only [List.head?_cons, if_true, hb, List.tail_cons] at h
          obtain ⟨h1, h2⟩ := key _ h
          exact ⟨h1, .inr ⟨rfl, rfl, by rw [h2]⟩⟩
    · simp only [hn, if_false] at h
      obtain ⟨h1, h2⟩ := key _ h
      exact ⟨h1, .inl h2⟩

theorem not110 {T} {rest : List Nat} (h : NoId T rest) : rest.head? ≠ some 110 := by
  intro hh
  have := h 110 hh
  simp [isIdStart] at this

theorem numEnd_plain {F T} (plain : Bool) {rest : List Nat} (h : NoId T rest) :
    numEnd T F plain rest = .ok rest := by
  have h1 := noId_iff.2 h
  cases plain with
  | false => simp [numEnd, h1]
  | true => simp [numEnd, bigintSuffix, not110 h, h1]

theorem numEnd_big {F T} {rest : List Nat} (hb : F.bigint = true) (h : NoId T rest) :
    numEnd T F true (110 :: rest) = .ok rest := by
  have h1 := noId_iff.2 h
  simp [numEnd, bigintSuffix, h1, hb]

/-- What may follow a decimal integer (`i`) or a fraction. -/
inductive DecTail (F : NumCfg) (pre : NumKind) (plain : Bool) : NumKind → List Nat → Prop
  | nil : DecTail F pre plain pre []
  | big : plain = true → F.bigint = true → DecTail F pre plain .big [110]
  | exp {e sign x} : e = 101 ∨ e = 69 → sign = [] ∨ sign = [43] ∨ sign = [45] →
      Digits Dec (F.sep = true) x → DecTail F pre plain .exp (e :: (sign ++ x))

theorem numExp_sound {F T} {pre : NumKind} {plain : Bool} {s rest : List Nat}
    (h : numExp T F plain s = .ok rest) (hpre : pre ≠ .exp) :
    NoId T rest ∧ ∃ k t, s = t ++ rest ∧ DecTail F pre plain k t ∧
      (k = .exp → Stop isDecimalDigit rest) := by
  simp only [numExp] at h
  split at h
  · rename_i he
    cases s with
    | nil => simp at he
    | cons e t =>
      simp only [List.head?_cons, Option.some.injEq, List.tail_cons] at he h
      split at h
      · cases h
      · rename_i r hr
        obtain ⟨h1, h2⟩ := numEnd_sound h
        have hrr : r = rest := by
          rcases h2 with h2 | ⟨h2, -⟩
          · exact h2
          · cases h2
        subst hrr
        refine ⟨h1, .exp, ?_⟩
        simp only [readExpPart] at hr
        split at hr
        · rename_i hsgn
          cases t with
          | nil => simp at hsgn
          | cons g t =>
            simp only [List.head?_cons, Option.some.injEq, List.tail_cons] at hsgn hr
            obtain ⟨h3, h4⟩ := decDigits_sound hr
            rcases h4 with ⟨h4, -⟩ | ⟨ds, rfl, h4⟩
            · cases h4
            · refine ⟨e :: ([g] ++ ds), by simp, .exp he ?_ h4, fun _ => h3⟩
              rcases hsgn with rfl | rfl <;> simp
        · obtain ⟨h3, h4⟩ := decDigits_sound hr
          rcases h4 with ⟨h4, -⟩ | ⟨ds, rfl, h4⟩
          · cases h4
          · exact ⟨e :: ([] ++ ds), by simp, .exp he (.inl rfl) h4, fun _ => h3⟩
  · obtain ⟨h1, h2⟩ := numEnd_sound h
    refine ⟨h1, ?_⟩
    rcases h2 with rfl | ⟨h2, h3, rfl⟩
    · exact ⟨pre, [], rfl, .nil, fun hp => absurd hp hpre⟩
    · exact ⟨.big, [110], rfl, .big h2 h3, by simp⟩

theorem not_e {T} {rest : List Nat} (h : NoId T rest) :
    ¬ (rest.head? = some 101 ∨ rest.head? = some 69) := by
  rintro (hh | hh)
  · have := h _ hh; simp [isIdStart] at this
  · have := h _ hh; simp [isIdStart] at this

theorem numExp_complete {F T} {pre k : NumKind} {plain : Bool} {t rest : List Nat}
    (h : DecTail F pre plain k t) (hn : NoId T rest) (hk : k = .exp → Stop isDecimalDigit rest)
    (_hpre : pre ≠ .exp) :
    numExp T F plain (t ++ rest) = .ok rest := by
  cases h with
  | nil => simp only [List.nil_append, numExp, not_e hn, if_false, numEnd_plain plain hn]
  | big hp hb =>
    subst hp
    simp only [List.cons_append, List.nil_append, numExp, List.head?_cons, Option.some.injEq]
    rw [if_neg (by omega), numEnd_big hb hn]
  | exp he hs hx =>
    rename_i e sign x
    have hstop := hk rfl
    have hd := fun opt => decDigits_complete (T := T) (F := F) opt hx hstop
    have hnd : ∀ c, (x ++ rest).head? = some c → Dec c := by
      obtain ⟨d, u, rfl, hd, -⟩ := hx
      intro c hc
      simp only [List.cons_append, List.head?_cons, Option.some.injEq] at hc
      exact hc ▸ hd
    have hE : readExpPart T F (sign ++ x ++ rest) = .ok rest := by
      rcases hs with rfl | rfl | rfl
      · simp only [List.nil_append, readExpPart]
        rw [if_neg, hd]
        rintro (hh | hh)
        · have := (hnd _ hh).1; exact absurd this (by decide)
        · have := (hnd _ hh).1; exact absurd this (by decide)
      · simp [readExpPart, hd]
      · simp [readExpPart, hd]
    have hE' : readExpPart T F (sign ++ (x ++ rest)) = .ok rest := by
      rw [← List.append_assoc]; exact hE
    simp only [List.cons_append, List.append_assoc, numExp, List.head?_cons, Option.some.injEq,
      List.tail_cons]
    rw [if_pos he, hE']
    exact numEnd_plain false hn

/-- No character that continues the literal follows. -/
def NoCont (k : NumKind) (rest : List Nat) : Prop := ∀ c, rest.head? = some c → ¬ Continues k c

theorem stop_noCont {rest : List Nat} (h : Stop isDecimalDigit rest) :
    NoCont .frac rest ∧ NoCont .exp rest := by
  constructor <;>
  · intro c hc hh
    have h1 := (h c hc).1
    have h2 : isDecimalDigit c = true := (isDecimalDigit_iff c).2 hh
    rw [h1] at h2; cases h2

theorem noCont_stop {isD : Nat → Bool} {D : Nat → Prop} {T} (H : ∀ c, isD c = true ↔ D c)
    {rest : List Nat} (hn : NoId T rest) (h : ∀ c, rest.head? = some c → ¬ D c) :
    Stop isD rest := by
  intro c hc
  refine ⟨?_, ?_⟩
  · have := h c hc
    rw [← H] at this
    simpa using this
  · rintro rfl
    have := hn _ hc
    simp [isIdStart] at this

abbrev Lit (F : NumCfg) := NumLit (F.sep = true) (F.bigint = true) (F.strict = false)

theorem decTail_lit {F} {pre k : NumKind} {plain : Bool} {m t : List Nat}
    (hm : Lit F pre m) (hp : pre = .int ∨ pre = .frac) (hpl : plain = true → pre = .int)
    (h : DecTail F pre plain k t) : Lit F k (m ++ t) := by
  cases h with
  | nil => simpa using hm
  | big h1 h2 => exact .big h2 (.inl (hpl h1)) hm
  | exp he hs hx => exact .exp hp hm he hs hx

theorem numFrac_sound {F T} {first : Nat} {i s rest : List Nat} (hf : first ≠ 46)
    (hi : Lit F .int i) (hs : Stop isDecimalDigit s) (h : numFrac T F first s = .ok rest) :
    ∃ k t, s = t ++ rest ∧ Lit F k (i ++ t) ∧ NoId T rest ∧ NoCont k rest := by
  simp only [numFrac] at h
  split at h
  · rename_i hd
    have hd : s.head? = some 46 := by
      rcases hd with hd | hd
      · exact hd.2
      · exact absurd hd hf
    cases s with
    | nil => cases hd
    | cons c t =>
      simp only [List.head?_cons, Option.some.injEq] at hd
      subst hd
      simp only [List.head?_cons, beq_self_eq_true, if_true, List.tail_cons, Bool.not_true,
        Bool.and_false] at h
      split at h
      · cases h
      · rename_i r hr
        obtain ⟨h1, h2⟩ := decDigits_sound hr
        obtain ⟨h3, k, u, rfl, h4, h5⟩ := numExp_sound (pre := .frac) h (by simp)
        have hk : NoCont k rest := by
          cases h4 with
          | nil => exact (stop_noCont h1).1
          | big hb _ => cases hb
          | exp => exact (stop_noCont (h5 rfl)).2
        rcases h2 with ⟨-, rfl⟩ | ⟨ds, rfl, h2⟩
        · refine ⟨k, 46 :: u, by simp, ?_, h3, hk⟩
          have := decTail_lit (.dot hi) (.inr rfl) (by simp) h4
          simpa using this
        · refine ⟨k, 46 :: (ds ++ u), by simp, ?_, h3, hk⟩
          have := decTail_lit (.frac hi h2) (.inr rfl) (by simp) h4
          simpa using this
  · rename_i hd
    have hd : s.head? ≠ some 46 := by
      intro hh; exact hd (.inl ⟨hf, hh⟩)
    have hb : (first != 46) = true := by simpa using hf
    rw [hb] at h
    obtain ⟨h3, k, u, rfl, h4, h5⟩ := numExp_sound (pre := .int) h (by simp)
    refine ⟨k, u, rfl, decTail_lit hi (.inl rfl) (by simp) h4, h3, ?_⟩
    cases h4 with
    | nil =>
      intro c hc hh
      rcases hh with hh | rfl
      · have := (hs c hc).1
        rw [(isDecimalDigit_iff c).2 hh] at this; cases this
      · exact hd hc
    | big => intro c _ hh; exact hh
    | exp => exact (stop_noCont (h5 rfl)).2

theorem numFrac_dot_sound {F T} {s rest : List Nat}
    (hs : onRune isDecimalDigit s.head? = true) (h : numFrac T F 46 s = .ok rest) :
    ∃ k t, s = t ++ rest ∧ Lit F k (46 :: t) ∧ NoId T rest ∧ NoCont k rest := by
  simp only [numFrac] at h
  rw [if_pos (.inr trivial)] at h
  have hd : (s.head? == some 46) = false := by
    cases s with
    | nil => simp
    | cons c t =>
      simp only [List.head?_cons, onRune, isDecimalDigit, Bool.and_eq_true, decide_eq_true_eq] at hs
      simp; omega
  simp only [hd, Bool.false_eq_true, if_false, bne_self_eq_false, Bool.false_and] at h
  split at h
  · cases h
  · rename_i r hr
    obtain ⟨h1, h2⟩ := decDigits_sound hr
    obtain ⟨h3, k, u, rfl, h4, h5⟩ := numExp_sound (pre := .frac) h (by simp)
    have hk : NoCont k rest := by
      cases h4 with
      | nil => exact (stop_noCont h1).1
      | big hb _ => cases hb
      | exp => exact (stop_noCont (h5 rfl)).2
    rcases h2 with ⟨-, rfl⟩ | ⟨ds, rfl, h2⟩
    · exfalso
      cases hh : (u ++ rest).head? with
      | none => rw [hh] at hs; cases hs
      | some c => rw [hh] at hs; simp only [onRune] at hs; rw [(h1 c hh).1] at hs; cases hs
    · refine ⟨k, ds ++ u, by simp, ?_, h3, hk⟩
      have := decTail_lit (.nofrac h2) (.inr rfl) (by simp) h4
      simpa using this

theorem stop_dec_of_head {s : List Nat}
    (h : ∀ c, s.head? = some c → c = 46 ∨ c = 101 ∨ c = 69 ∨ c = 110) :
    Stop isDecimalDigit s := by
  intro c hc
  rcases h c hc with rfl | rfl | rfl | rfl <;> decide

/-- `int` forms followed by their possible continuations, read by `numFrac`. -/
theorem numFrac_complete {F T} {first : Nat} {k : NumKind} {t rest : List Nat} (hf : first ≠ 46)
    (hn : NoId T rest) (hk : NoCont k rest)
    (h : DecTail F .int true k t ∨
      ∃ f u, t = 46 :: (f ++ u) ∧ (f = [] ∨ Digits Dec (F.sep = true) f) ∧
        DecTail F .frac false k u) :
    numFrac T F first (t ++ rest) = .ok rest := by
  have hexp : k = .exp → Stop isDecimalDigit rest := by
    rintro rfl; exact noCont_stop isDecimalDigit_iff hn hk
  rcases h with h | ⟨f, u, rfl, hf', h⟩
  · have hnd : (t ++ rest).head? ≠ some 46 := by
      cases h with
      | nil => intro hh; exact hk 46 hh (.inr rfl)
      | big => simp
      | exp he => simp; omega
    simp only [numFrac]
    rw [if_neg (by rintro (hh | hh); exact hnd hh.2; exact hf hh)]
    have hb : (first != 46) = true := by simpa using hf
    rw [hb]
    exact numExp_complete h hn hexp (by simp)
  · have hstop : Stop isDecimalDigit (u ++ rest) := by
      cases h with
      | nil => exact noCont_stop isDecimalDigit_iff hn hk
      | big hb => cases hb
      | exp he => exact stop_dec_of_head (by simp; omega)
    have hd : readDecimalDigits T F true (f ++ (u ++ rest)) = .ok (u ++ rest) := by
      rcases hf' with rfl | hf'
      · exact decDigits_none hstop
      · exact decDigits_complete true hf' hstop
    simp only [numFrac, List.cons_append, List.head?_cons, beq_self_eq_true, if_true,
      List.tail_cons, List.append_assoc, hd, Bool.not_true, Bool.and_false]
    rw [if_pos (.inl ⟨hf, trivial⟩)]
    exact numExp_complete h hn hexp (by simp)

theorem numFrac_dot_complete {F T} {k : NumKind} {f u rest : List Nat}
    (hn : NoId T rest) (hk : NoCont k rest) (hf : Digits Dec (F.sep = true) f)
    (h : DecTail F .frac false k u) :
    numFrac T F 46 (f ++ u ++ rest) = .ok rest := by
  have hexp : k = .exp → Stop isDecimalDigit rest := by
    rintro rfl; exact noCont_stop isDecimalDigit_iff hn hk
  have hstop : Stop isDecimalDigit (u ++ rest) := by
    cases h with
    | nil => exact noCont_stop isDecimalDigit_iff hn hk
    | big hb => cases hb
    | exp he => exact stop_dec_of_head (by simp; omega)
  have hd := decDigits_complete (T := T) true hf hstop
  have hne : (f ++ (u ++ rest)).head? ≠ some 46 := by
    obtain ⟨d, v, rfl, hd, -⟩ := hf
    simp only [List.cons_append, List.head?_cons, ne_eq, Option.some.injEq]
    rintro rfl
    exact absurd hd.1 (by decide)
  have hne' : ((f ++ (u ++ rest)).head? == some 46) = false := by simpa using hne
  simp only [numFrac, List.append_assoc, hne', Bool.false_eq_true, if_false, hd]
  rw [if_pos (.inr trivial)]
  exact numExp_complete h hn hexp (by simp)

end Mole.Lexer
