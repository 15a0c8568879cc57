import Verif.Lexer.Name
import Verif.Lexer.StrLemmas
/-!
# C13: identifiers and keywords
-/
namespace Mole.Lexer
open Spec

/-- An identifier escape after the backslash: `uHHHH` for an identifier character, or `u{H…}`
for any code point other than the backslash (the code omits the identifier test here). -/
inductive IdEscape (idc : Nat → Bool) : List Nat → Nat → Prop
  | u4 {cs vs} : HexDigits cs vs → cs.length = 4 → idc (value 16 vs) = true → value 16 vs ≠ '\\'.toNat →
      IdEscape idc ('u'.toNat :: cs) (value 16 vs)
  | brace {cs vs} : HexDigits cs vs → cs ≠ [] → value 16 vs ≤ 0x10FFFF →
      IdEscape idc ('u'.toNat :: '{'.toNat :: cs ++ ['}'.toNat]) (value 16 vs)

theorem idEscape_sound {idc : Nat → Bool} {s : List Nat} {v : Nat} {rest : List Nat}
    (h : readUnicodeEscapeSeq idc true s = (v, none, rest)) :
    ∃ q, 117 :: s = q ++ rest ∧ IdEscape idc q v := by
  unfold readUnicodeEscapeSeq at h
  split at h
  · rename_i hh
    cases s with
    | nil => cases hh
    | cons c t =>
      simp only [List.head?_cons, Option.some.injEq] at hh
      subst hh
      rw [readCodepoint, rd_cons (by decide), codepointLoop_ok _ _ _ _ (by simp)] at h
      obtain ⟨ds, rfl, h2, h3, rfl, h5⟩ := h
      refine ⟨117 :: 123 :: ds ++ [125], by simp, ?_⟩
      simp only [List.nil_append] at h3 h5 ⊢
      exact .brace ((hexDigits_iff _ _).2 ⟨h2, rfl⟩) h3 h5
  · unfold readHex4Digits at h
    split at h
    · cases h
    · rename_i ds r hds
      obtain ⟨rfl, h2, h3⟩ := (hex4Loop_some 4 _ _ _).1 hds
      have hne : ds ≠ [] := by rintro rfl; cases h2
      have hlt : value 16 (ds.map digitVal) < 2 ^ 31 := by
        have := value_lt 16 (ds.map digitVal) (by
          intro v hv
          obtain ⟨d, hd, rfl⟩ := List.mem_map.1 hv
          exact digitVal_lt_of_hex (h3 d hd))
        rw [List.length_map, h2] at this
        omega
      rw [parseInt32_of_lt 16 ds hne hlt] at h
      simp only [Bool.false_eq_true, if_false] at h
      split at h
      · cases h
      · rename_i hid
        simp only [Bool.true_and, Bool.or_eq_true, Bool.not_eq_true', beq_iff_eq, not_or,
          Bool.not_eq_false] at hid
        simp only [Prod.mk.injEq, true_and] at h
        obtain ⟨rfl, rfl⟩ := h
        exact ⟨117 :: ds, rfl, .u4 ((hexDigits_iff _ _).2 ⟨h3, rfl⟩) h2 hid.1 hid.2⟩

theorem idEscape_complete {idc : Nat → Bool} {q : List Nat} {v : Nat} (h : IdEscape idc q v)
    (rest : List Nat) :
    ∃ s, q = 117 :: s ∧ readUnicodeEscapeSeq idc true (s ++ rest) = (v, none, rest) := by
  cases h with
  | u4 hd hl hi hb =>
    rename_i cs vs
    obtain ⟨h1, rfl⟩ := (hexDigits_iff _ _).1 hd
    refine ⟨cs, rfl, ?_⟩
    unfold readUnicodeEscapeSeq
    have hne : cs ≠ [] := by rintro rfl; cases hl
    rw [if_neg (by
      cases cs with
      | nil => cases hl
      | cons c cs =>
        simp only [List.cons_append, List.head?_cons, Option.some.injEq]
        exact (hex_ne_brace (h1 c (by simp))).1)]
    unfold readHex4Digits
    rw [(hex4Loop_some 4 _ _ _).2 ⟨rfl, hl, h1⟩]
    have hlt : value 16 (cs.map digitVal) < 2 ^ 31 := by
      have := value_lt 16 (cs.map digitVal) (by
        intro v hv
        obtain ⟨d, hd, rfl⟩ := List.mem_map.1 hv
        exact digitVal_lt_of_hex (h1 d hd))
      rw [List.length_map, hl] at this
      omega
    simp only
    rw [parseInt32_of_lt 16 cs hne hlt]
    have hb' : (value 16 (List.map digitVal cs) == 92) = false := by
      rw [beq_eq_false_iff_ne]; exact hb
    simp only [Bool.false_eq_true, if_false, hi, hb', Bool.not_true, Bool.or_false, Bool.and_false]
  | brace hd hn hle =>
    rename_i cs vs
    obtain ⟨h1, rfl⟩ := (hexDigits_iff _ _).1 hd
    refine ⟨123 :: cs ++ [125], rfl, ?_⟩
    unfold readUnicodeEscapeSeq
    rw [if_pos (by simp), readCodepoint]
    simp only [List.cons_append, List.append_assoc, List.nil_append]
    rw [rd_cons (by decide), codepointLoop_ok _ _ _ _ (by simp)]
    exact ⟨cs, rfl, h1, by simpa using hn, rfl, hle⟩

/-- The characters `readIdPart` reads on. -/
def part (T : IdTables) (jsx : Bool) (c : Nat) : Bool :=
  isIdStart T c || isIdPart T c || (jsx && c == 45)

/-- The escape rules for `readIdPart`; escapes are tested with `idChar`, plain characters with
`part`. -/
inductive Part (T : IdTables) (jsx : Bool) : List Nat → List Nat → Bool → Prop
  | nil : Part T jsx [] [] false
  | ch {c s n e} : part T jsx c = true → c ≠ '\\'.toNat → Part T jsx s n e →
      Part T jsx (c :: s) (appendRune c :: n) e
  | esc {q v s n e} : IdEscape (idChar T) q v → v ≠ '\\'.toNat → Part T jsx s n e →
      Part T jsx ('\\'.toNat :: q ++ s) (appendRune v :: n) true

/-- No character of an identifier follows. -/
def NoPart (T : IdTables) (jsx : Bool) (rest : List Nat) : Prop :=
  ∀ c, rest.head? = some c → part T jsx c = false

theorem readUnicodeEscape_sound {T : IdTables} {c : Nat} {t : List Nat} {r : Nat} {esc : Bool}
    {rest : List Nat} (h : readUnicodeEscape T c t = .ok (r, esc, rest)) :
    (c ≠ 92 ∧ r = c ∧ esc = false ∧ rest = t) ∨
    (c = 92 ∧ esc = true ∧ ∃ q, t = q ++ rest ∧ IdEscape (idChar T) q r) := by
  unfold readUnicodeEscape at h
  split at h
  · rename_i hc
    split at h
    · rename_i hu
      cases t with
      | nil => cases hu
      | cons d t =>
        simp only [List.head?_cons, Option.some.injEq] at hu
        subst hu
        simp only [List.tail_cons] at h
        split at h
        · cases h
        · rename_i r' rest' hr
          injection h with h
          simp only [Prod.mk.injEq] at h
          obtain ⟨rfl, rfl, rfl⟩ := h
          exact .inr ⟨hc, rfl, idEscape_sound hr⟩
    · cases h
  · rename_i hc
    injection h with h
    simp only [Prod.mk.injEq] at h
    obtain ⟨rfl, rfl, rfl⟩ := h
    exact .inl ⟨hc, rfl, rfl, rfl⟩

theorem readUnicodeEscape_complete {T : IdTables} {q : List Nat} {v : Nat}
    (h : IdEscape (idChar T) q v) (rest : List Nat) :
    readUnicodeEscape T 92 (q ++ rest) = .ok (v, true, rest) := by
  obtain ⟨s, rfl, hs⟩ := idEscape_complete h rest
  simp [readUnicodeEscape, hs]

theorem readIdPart_sound {T : IdTables} {jsx : Bool} (fuel : Nat) (s n : List Nat) (e : Bool)
    (rest : List Nat) (h : readIdPart T jsx fuel s = some (.ok (n, e, rest))) :
    ∃ src, s = src ++ rest ∧ Part T jsx src n e ∧ NoPart T jsx rest := by
  induction fuel generalizing s n e with
  | zero => cases h
  | succ fuel ih =>
    cases s with
    | nil =>
      simp only [readIdPart, Option.some.injEq, Except.ok.injEq, Prod.mk.injEq] at h
      obtain ⟨rfl, rfl, rfl⟩ := h
      exact ⟨[], rfl, .nil, by simp [NoPart]⟩
    | cons c t =>
      simp only [readIdPart] at h
      split at h
      · rename_i hp
        split at h
        · cases h
        · rename_i r esc rest1 hr
          split at h
          · cases h
          · rename_i hr92
            split at h
            · cases h
            · cases h
            · rename_i rs esc' rest' hi
              simp only [Option.some.injEq, Except.ok.injEq, Prod.mk.injEq] at h
              obtain ⟨rfl, rfl, rfl⟩ := h
              obtain ⟨src, rfl, h2, h3⟩ := ih _ _ _ hi
              rcases readUnicodeEscape_sound hr with ⟨hc, rfl, rfl, rfl⟩ | ⟨rfl, rfl, q, rfl, hq⟩
              · exact ⟨r :: src, rfl, by simpa using Part.ch hp hc h2, h3⟩
              · exact ⟨92 :: q ++ src, by simp, .esc hq hr92 h2, h3⟩
      · rename_i hp
        simp only [Option.some.injEq, Except.ok.injEq, Prod.mk.injEq] at h
        obtain ⟨rfl, rfl, rfl⟩ := h
        refine ⟨[], rfl, .nil, ?_⟩
        intro d hd
        simp only [List.head?_cons, Option.some.injEq] at hd
        subst hd
        simpa [part] using hp

theorem part_len {T : IdTables} {jsx : Bool} {src n : List Nat} {e : Bool}
    (h : Part T jsx src n e) (rest : List Nat) (hs : NoPart T jsx rest) :
    ∀ fuel, (src ++ rest).length < fuel →
      readIdPart T jsx fuel (src ++ rest) = some (.ok (n, e, rest)) := by
  induction h with
  | nil =>
    intro fuel hf
    cases fuel with
    | zero => omega
    | succ fuel =>
      cases rest with
      | nil => rfl
      | cons c r =>
        have := hs c rfl
        simp only [part] at this
        simp [readIdPart, this]
  | ch hp hc _ ih =>
    intro fuel hf
    cases fuel with
    | zero => omega
    | succ fuel =>
      simp only [List.cons_append, List.length_cons] at hf
      have h1 := ih fuel (by omega)
      have hp' := hp
      simp only [part] at hp'
      have hc' : ¬ _ = (92 : Nat) := hc
      simp only [List.cons_append, readIdPart, hp', if_true, readUnicodeEscape, hc', if_false, h1,
        Bool.false_or]
  | esc hq hv _ ih =>
    rename_i q v s n e _
    intro fuel hf
    cases fuel with
    | zero => omega
    | succ fuel =>
      simp only [List.cons_append, List.append_assoc, List.length_cons, List.length_append] at hf
      have h1 := ih fuel (by simp; omega)
      have h2 := readUnicodeEscape_complete hq (s ++ rest)
      have h3 : part T jsx 92 = true := by simp [part, isIdStart]
      simp only [part] at h3
      have hv' : ¬ v = 92 := hv
      show readIdPart T jsx (fuel + 1) (92 :: (q ++ s ++ rest)) = _
      rw [List.append_assoc]
      simp only [readIdPart, h3, if_true, h2, hv', if_false, h1, Bool.true_or]

/-- Reading a name always ends. -/
theorem readIdPart_terminates {T : IdTables} {jsx : Bool} (fuel : Nat) (s : List Nat)
    (h : s.length < fuel) : ∃ r, readIdPart T jsx fuel s = some r := by
  induction fuel generalizing s with
  | zero => omega
  | succ fuel ih =>
    cases s with
    | nil => exact ⟨_, rfl⟩
    | cons c t =>
      simp only [List.length_cons] at h
      simp only [readIdPart]
      split
      · split
        · exact ⟨_, rfl⟩
        · rename_i r esc rest hr
          split
          · exact ⟨_, rfl⟩
          · have hl : rest.length ≤ t.length := by
              rcases readUnicodeEscape_sound hr with ⟨-, -, -, rfl⟩ | ⟨-, -, q, rfl, -⟩ <;> simp
            obtain ⟨x, hx⟩ := ih rest (by omega)
            rw [hx]
            split
            · rename_i heq; cases heq
            · exact ⟨_, rfl⟩
            · exact ⟨_, rfl⟩
      · exact ⟨_, rfl⟩

/-- **C13.** Reading a name always ends. -/
theorem scanName_terminates (T : IdTables) (jsx : Bool) (s : List Nat) :
    ∃ r, scanName T jsx s = some r := by
  cases s with
  | nil => exact ⟨_, rfl⟩
  | cons c t =>
    simp only [scanName]
    split
    · exact ⟨_, rfl⟩
    · rename_i r esc rest hr
      split
      · exact ⟨_, rfl⟩
      · obtain ⟨x, hx⟩ := readIdPart_terminates (T := T) (jsx := jsx) (rest.length + 1) rest
          (by omega)
        rw [hx]
        split
        · rename_i heq; cases heq
        · exact ⟨_, rfl⟩
        · exact ⟨_, rfl⟩

/-- A name: its first character (plain or escaped) and identifier characters. -/
inductive NameAt (T : IdTables) (jsx : Bool) : List Nat → List Nat → Bool → Prop
  | ch {c s n e} : isIdStart T c = true → c ≠ '\\'.toNat → c ≠ 0xFFFD → Part T jsx s n e →
      NameAt T jsx (c :: s) (appendRune c :: n) e
  | esc {q v s n e} : IdEscape (idChar T) q v → v ≠ 0xFFFD → Part T jsx s n e →
      NameAt T jsx ('\\'.toNat :: q ++ s) (appendRune v :: n) true

/-- **C13** (partial: the grammar wants escapes to denote characters allowed at their place; the
code does not check `\u{…}` at all and lets `0` start a name, see below).  With an
identifier start ahead, a name is read exactly when the text starts with one, and it is read to
its end: no identifier character follows. -/
theorem scanName_iff_partial (T : IdTables) (jsx : Bool) (s : List Nat) (c : Nat)
    (hc : s.head? = some c) (hst : isIdStart T c = true) (n : List Nat) (e : Bool)
    (rest : List Nat) :
    scanName T jsx s = some (.ok (n, e, rest)) ↔
      ∃ src, s = src ++ rest ∧ NameAt T jsx src n e ∧
        ∀ d, rest.head? = some d →
          ¬ (isIdStart T d = true ∨ isIdPart T d = true ∨ (jsx = true ∧ d = '-'.toNat)) := by
  have hnp : NoPart T jsx rest ↔ ∀ d, rest.head? = some d →
      ¬ (isIdStart T d = true ∨ isIdPart T d = true ∨ (jsx = true ∧ d = '-'.toNat)) := by
    constructor
    · intro h d hd
      have := h d hd
      simp only [part, Bool.or_eq_false_iff, Bool.and_eq_false_iff, beq_eq_false_iff_ne] at this
      rintro (h1 | h1 | ⟨h1, h2⟩)
      · rw [this.1.1] at h1; cases h1
      · rw [this.1.2] at h1; cases h1
      · rcases this.2 with h | h
        · rw [h] at h1; cases h1
        · exact h h2
    · intro h d hd
      have := h d hd
      simp only [not_or, not_and, Bool.not_eq_true] at this
      simp only [part, Bool.or_eq_false_iff, Bool.and_eq_false_iff, beq_eq_false_iff_ne]
      refine ⟨⟨this.1, this.2.1⟩, ?_⟩
      cases jsx with
      | false => exact .inl rfl
      | true => exact .inr (this.2.2 rfl)
  rw [← hnp]
  cases s with
  | nil => cases hc
  | cons c' t =>
    simp only [List.head?_cons, Option.some.injEq] at hc
    subst hc
    simp only [scanName]
    constructor
    · intro h
      split at h
      · cases h
      · rename_i r esc rest1 hr
        split at h
        · cases h
        · rename_i hre
          split at h
          · cases h
          · cases h
          · rename_i rs esc' rest' hi
            simp only [Option.some.injEq, Except.ok.injEq, Prod.mk.injEq] at h
            obtain ⟨rfl, rfl, rfl⟩ := h
            obtain ⟨src, rfl, h2, h3⟩ := readIdPart_sound _ _ _ _ _ hi
            rcases readUnicodeEscape_sound hr with ⟨hc, rfl, rfl, rfl⟩ | ⟨rfl, rfl, q, rfl, hq⟩
            · exact ⟨r :: src, rfl, by simpa using NameAt.ch hst hc hre h2, h3⟩
            · exact ⟨92 :: q ++ src, by simp, .esc hq hre h2, h3⟩
    · rintro ⟨src, hs, hn, hstop⟩
      cases hn with
      | ch h1 h2 h3 h4 =>
        simp only [List.cons_append, List.cons.injEq] at hs
        obtain ⟨rfl, rfl⟩ := hs
        have h2' : ¬ c' = 92 := h2
        have h3' : ¬ c' = RE := h3
        have hp := part_len h4 rest hstop _ (Nat.lt_succ_self _)
        simp only [readUnicodeEscape, h2', if_false, h3', Nat.add_one, hp, Bool.false_or]
      | esc hq h3 h4 =>
        rename_i q v s n e
        simp only [List.cons_append, List.append_assoc, List.cons.injEq] at hs
        obtain ⟨rfl, rfl⟩ := hs
        have h3' : ¬ v = RE := h3
        have hp := part_len h4 rest hstop _ (Nat.lt_succ_self _)
        have hu := readUnicodeEscape_complete hq (s ++ rest)
        change readUnicodeEscape T '\\'.toNat (q ++ (s ++ rest)) = _ at hu
        simp only [hu, h3', if_false, Nat.add_one, hp, Bool.true_or]

/-- **C13.** Which ASCII characters a name is made of: it starts with a letter, `$`, `_` or the
backslash of an escape, and goes on with these and digits. -/
theorem ascii_name_chars (T : IdTables) (c : Nat) (h : c < 128) :
    (isIdStart T c = true ↔ ('a'.toNat ≤ c ∧ c ≤ 'z'.toNat) ∨ ('A'.toNat ≤ c ∧ c ≤ 'Z'.toNat) ∨
      c = '$'.toNat ∨ c = '_'.toNat ∨ c = '\\'.toNat) ∧
    (isIdStart T c = true ∨ isIdPart T c = true ↔
      isIdStart T c = true ∨ ('0'.toNat ≤ c ∧ c ≤ '9'.toNat)) := by
  simp only [isIdStart, isIdPart, h, if_true, Bool.or_eq_true, Bool.and_eq_true, decide_eq_true_eq, beq_iff_eq]
  simp only [show 'a'.toNat = 97 from rfl, show 'z'.toNat = 122 from rfl, show 'A'.toNat = 65 from rfl,
    show 'Z'.toNat = 90 from rfl, show '$'.toNat = 36 from rfl, show '_'.toNat = 95 from rfl,
    show '\\'.toNat = 92 from rfl, show '0'.toNat = 48 from rfl, show '9'.toNat = 57 from rfl]
  omega

/-- **C13.** Outside ASCII the Unicode tables decide, and the two joiners may continue a name. -/
theorem unicode_name_chars (T : IdTables) (c : Nat) (h : 128 ≤ c) :
    (isIdStart T c = true ↔ T.start c = true) ∧
    (isIdPart T c = true ↔ T.part c = true ∨ c = 0x200C ∨ c = 0x200D) := by
  simp only [isIdStart, isIdPart, show ¬ c < 128 by omega, if_false, Bool.or_eq_true, beq_iff_eq, true_and, or_assoc]

/-- **C13.** A name written without escapes is read to its end, as it is written. -/
theorem scanName_plain (T : IdTables) (c : Nat) (run rest : List Nat)
    (hc : isIdStart T c = true ∧ c ≠ '\\'.toNat ∧ Scalar c ∧ c ≠ 0xFFFD)
    (hrun : ∀ d ∈ run, (isIdStart T d = true ∨ isIdPart T d = true) ∧ d ≠ '\\'.toNat ∧ Scalar d)
    (hrest : ∀ d, rest.head? = some d → isIdStart T d = false ∧ isIdPart T d = false) :
    scanName T false (c :: run ++ rest) = some (.ok (c :: run, false, rest)) := by
  have happ : ∀ d, Scalar d → appendRune d = d := by
    intro d hd
    simp only [Scalar] at hd
    simp only [appendRune]
    rw [if_neg]
    simp only [Bool.or_eq_true, Bool.and_eq_true, decide_eq_true_eq]
    omega
  have hpart : Part T false run run false := by
    clear hrest
    induction run with
    | nil => exact .nil
    | cons d run ih =>
      have h1 := hrun d (by simp)
      have h2 := Part.ch (T := T) (jsx := false) (c := d) (s := run) (n := run) (e := false)
        (by simp only [part, Bool.or_eq_true]; exact .inl h1.1) h1.2.1
        (ih fun x hx => hrun x (by simp [hx]))
      rwa [happ d h1.2.2] at h2
  rw [scanName_iff_partial T false _ c rfl hc.1]
  refine ⟨c :: run, rfl, ?_, ?_⟩
  · have := NameAt.ch hc.1 hc.2.1 hc.2.2.2 hpart
    rwa [happ c hc.2.2.1] at this
  · intro d hd
    have := hrest d hd
    simp [this.1, this.2]

/-- The reserved words of the language that are so everywhere, except `const` and `in`, which
the parser recognises by their text. -/
def reserved : List String :=
  ["break", "case", "catch", "class", "continue", "debugger", "default", "delete", "do", "else",
    "enum", "export", "extends", "false", "finally", "for", "function", "if", "import",
    "instanceof", "new", "null", "return", "super", "switch", "this", "throw", "true", "try",
    "typeof", "var", "void", "while", "with"]

/-- The words reserved in strict mode. -/
def reservedStrict : List String :=
  ["implements", "interface", "let", "package", "private", "protected", "public", "static",
    "yield", "const"]

theorem contains_iff (w : String) : (keywords.contains (str w) = true ↔ w ∈ reserved) ∧
    (strictKeywords.contains (str w) = true ↔ w ∈ reservedStrict) := by
  have hinj : ∀ a b : String, str a = str b ↔ a = b := by
    intro a b
    constructor
    · intro h
      have : a.toList = b.toList := by
        have hi : Function.Injective Char.toNat := by
          intro x y hxy
          exact Char.ext (UInt32.toNat_inj.1 hxy)
        exact (List.map_inj_right fun x y hxy => hi hxy).1 h
      exact String.toList_inj.1 this
    · rintro rfl; rfl
  constructor
  · simp only [keywords, reserved, List.contains_iff_mem, List.mem_map, List.mem_cons, List.not_mem_nil,
      or_false]
    constructor
    · rintro ⟨a, ha, hw⟩
      rw [hinj] at hw
      subst hw
      grind
    · intro h
      exact ⟨w, by grind, rfl⟩
  · simp only [strictKeywords, reservedStrict, List.contains_iff_mem, List.mem_map, List.mem_cons,
      List.not_mem_nil, or_false]
    constructor
    · rintro ⟨a, ha, hw⟩
      rw [hinj] at hw
      subst hw
      grind
    · intro h
      exact ⟨w, by grind, rfl⟩

/-- **C13.** A name becomes a keyword exactly when it is a reserved word written without
escapes, and is rejected when it is one written with them. -/
theorem classify_keyword (F : NameCfg) (w : String) (esc : Bool) :
    (classify F (str w) esc = .keyword ↔ w ∈ reserved ∧ esc = false) ∧
    (classify F (str w) esc = .escapeInKeyword ↔
      esc = true ∧ (w ∈ reserved ∨ (w = "await" ∧ (F.module = true ∨ F.asyncAwait = true ∧ F.async = true)))) := by
  have hk := (contains_iff w).1
  have hs := (contains_iff w).2
  have hinj : (str w == str "await") = true ↔ w = "await" := by
    rw [beq_iff_eq]
    constructor
    · intro h
      have : w.toList = "await".toList := by
        have hi : Function.Injective Char.toNat := by
          intro x y hxy
          exact Char.ext (UInt32.toNat_inj.1 hxy)
        exact (List.map_inj_right fun x y hxy => hi hxy).1 h
      exact String.toList_inj.1 this
    · rintro rfl; rfl
  unfold classify
  by_cases h1 : w ∈ reserved
  · have h1' := hk.2 h1
    simp only [h1', if_true]
    cases esc <;> simp [h1]
  · have h1' : keywords.contains (str w) = false := by
      cases h : keywords.contains (str w) with
      | false => rfl
      | true => exact absurd (hk.1 h) h1
    rw [h1']
    simp only [Bool.false_eq_true, if_false]
    by_cases h2 : F.strict = true ∧ w ∈ reservedStrict
    · have h2' : (F.strict && strictKeywords.contains (str w)) = true := by
        rw [h2.1, hs.2 h2.2]; rfl
      rw [h2']
      have hna : w ≠ "await" := by
        rintro rfl
        exact absurd h2.2 (by decide)
      simp [h1, hna]
    · have h2' : (F.strict && strictKeywords.contains (str w)) = false := by
        cases h : F.strict && strictKeywords.contains (str w) with
        | false => rfl
        | true =>
          rw [Bool.and_eq_true] at h
          exact absurd ⟨h.1, hs.1 h.2⟩ h2
      rw [h2']
      simp only [Bool.false_eq_true, if_false]
      by_cases ha : w = "await"
      · have ha' := hinj.2 ha
        rw [ha', Bool.true_and]
        cases hm : F.module <;> cases hy : F.asyncAwait <;> cases hz : F.async <;> cases esc <;>
          simp [ha, show "await" ∉ reserved by decide]
      · have ha' : (str w == str "await") = false := by
          cases h : str w == str "await" with
          | false => rfl
          | true => exact absurd (hinj.1 h) ha
        rw [ha']
        simp [h1, ha]

/-- **C13** (partial: the property wants `esc = false` here as well).  A name becomes a
strict-mode keyword exactly in strict mode when it is one of the words reserved there. -/
theorem classify_strict_partial (F : NameCfg) (w : String) (esc : Bool) :
    classify F (str w) esc = .strictKeyword ↔ F.strict = true ∧ w ∈ reservedStrict := by
  have hk := (contains_iff w).1
  have hs := (contains_iff w).2
  unfold classify
  constructor
  · intro h
    split at h
    · split at h <;> cases h
    · split at h
      · rename_i h2
        rw [Bool.and_eq_true] at h2
        exact ⟨h2.1, hs.1 h2.2⟩
      · split at h
        · split at h <;> cases h
        · cases h
  · rintro ⟨h1, h2⟩
    have h3 : keywords.contains (str w) = false := by
      cases h : keywords.contains (str w) with
      | false => rfl
      | true =>
        have := hk.1 h
        simp only [reservedStrict, reserved, List.mem_cons, List.not_mem_nil, or_false] at h2 this
        rcases h2 with rfl | rfl | rfl | rfl | rfl | rfl | rfl | rfl | rfl | rfl <;> simp at this
    rw [h3, h1, hs.2 h2]
    simp

/-- **C13 is violated**: in strict mode a reserved word written with escapes (`l\u0065t`) still
becomes the keyword. -/
theorem escaped_strict_keyword_violated :
    classify ⟨false, false, true, false⟩ (str "let") true = .strictKeyword := by decide

/-- **C13 is violated**: `a\u{20}` is read as a name that contains a space. -/
theorem brace_escape_violated (T : IdTables) :
    scanName T false (str "a\\u{20}") = some (.ok ([97, 32], true, [])) := by
  rw [scanName_iff_partial T false _ 97 rfl (by simp [isIdStart])]
  refine ⟨_, (List.append_nil _).symm, ?_, by simp⟩
  have h32 : value 16 [2, 0] = 32 := rfl
  have h := NameAt.ch (T := T) (jsx := false) (c := 97) (by simp [isIdStart]) (by decide) (by decide)
    (Part.esc (T := T) (jsx := false)
      (.brace (cs := [50, 48]) (vs := [2, 0])
        (.cons (.inl ⟨by omega, rfl⟩) (.cons (.inl ⟨by omega, rfl⟩) .nil)) (by simp) (by decide))
      (by decide) .nil)
  simpa [appendRune, h32, str] using h

/-- **C13 is violated**: `\u0030` (the digit 0) is read as a name. -/
theorem escaped_start_violated (T : IdTables) :
    scanName T false (str "\\u0030") = some (.ok ([48], true, [])) := by
  rw [scanName_iff_partial T false _ 92 rfl (by simp [isIdStart])]
  refine ⟨_, (List.append_nil _).symm, ?_, by simp⟩
  have h48 : value 16 [0, 0, 3, 0] = 48 := rfl
  have h := NameAt.esc (T := T) (jsx := false)
      (.u4 (cs := [48, 48, 51, 48]) (vs := [0, 0, 3, 0])
        (.cons (.inl ⟨by omega, rfl⟩) (.cons (.inl ⟨by omega, rfl⟩)
          (.cons (.inl ⟨by omega, rfl⟩) (.cons (.inl ⟨by omega, rfl⟩) .nil)))) rfl
        (by simp [h48, idChar, isIdStart, isIdPart]) (by decide)) (by decide) .nil
  simpa [appendRune, h48, str] using h

/-- **C13 is violated**: `#if` is no private name but the keyword `if`. -/
theorem private_keyword_violated :
    classifyPvt true (classify ⟨false, false, true, false⟩ (str "if") false) =
      some (.inl .keyword) := by decide

example (T : IdTables) : scanName T false (str "ab1;") = some (.ok (str "ab1", false, str ";")) :=
  scanName_plain T 97 [98, 49] [59] (by simp [isIdStart, Scalar])
    (by simp [isIdStart, isIdPart, Scalar]) (by simp [isIdStart, isIdPart])

end Mole.Lexer
