import Verif.Lexer.Escape
import Verif.Lexer.EscapeSpec
/-! Auxiliary lemmas on digits and escape sequences. -/
namespace Mole.Lexer
open Spec

theorem hexDigit_iff (c v : Nat) : HexDigit c v ↔ isHexDigit c = true ∧ digitVal c = v := by
  simp only [HexDigit, isHexDigit, digitVal, Char.reduceToNat, Bool.or_eq_true, Bool.and_eq_true,
    decide_eq_true_eq]
  constructor
  · rintro (⟨h, rfl⟩ | ⟨h1, h2, rfl | rfl⟩)
    · exact ⟨by omega, by rw [if_pos (by omega)]; omega⟩
    · exact ⟨by omega, by rw [if_neg (by omega), if_neg (by omega)]; omega⟩
    · exact ⟨by omega, by rw [if_neg (by omega), if_pos (by omega)]; omega⟩
  · rintro ⟨h, rfl⟩
    split
    · omega
    · split <;> omega

theorem octDigit_iff (c v : Nat) : OctDigit c v ↔ isOctalDigit c = true ∧ digitVal c = v := by
  simp only [OctDigit, isOctalDigit, digitVal, Char.reduceToNat, Bool.and_eq_true,
    decide_eq_true_eq]
  constructor
  · rintro ⟨h, rfl⟩
    exact ⟨by omega, by rw [if_pos (by omega)]; omega⟩
  · rintro ⟨h, rfl⟩
    split <;> omega

theorem noOctal_iff (s : List Nat) : NoOctal s ↔ ∀ c t, s = c :: t → isOctalDigit c = false := by
  constructor
  · intro h c t e
    cases hc : isOctalDigit c with
    | false => rfl
    | true => exact absurd ((octDigit_iff c _).2 ⟨hc, rfl⟩) (h c _ t e)
  · intro h c v t e ho
    have := ((octDigit_iff c v).1 ho).1
    rw [h c t e] at this; cases this

theorem hexDigits_iff (cs vs : List Nat) :
    HexDigits cs vs ↔ (∀ c ∈ cs, isHexDigit c = true) ∧ vs = cs.map digitVal := by
  constructor
  · intro h
    induction h with
    | nil => simp
    | cons hd _ ih =>
      obtain ⟨h1, rfl⟩ := (hexDigit_iff _ _).1 hd
      obtain ⟨h2, rfl⟩ := ih
      simp_all
  · rintro ⟨h, rfl⟩
    induction cs with
    | nil => exact .nil
    | cons c cs ih =>
      refine .cons ((hexDigit_iff _ _).2 ⟨h c (by simp), rfl⟩) (ih fun d hd => h d (by simp [hd]))

theorem foldl_value (base : Nat) (cs : List Nat) (a : Nat) :
    cs.foldl (fun a d => a * base + digitVal d) a =
      a * base ^ cs.length + value base (cs.map digitVal) := by
  induction cs generalizing a with
  | nil => simp [value]
  | cons c cs ih =>
    simp only [List.foldl_cons, ih, List.map_cons, value, List.length_map, List.length_cons,
      Nat.pow_succ, Nat.add_mul]
    rw [Nat.mul_assoc, Nat.mul_comm base, Nat.add_assoc]

theorem value_lt (base : Nat) (vs : List Nat) (h : ∀ v ∈ vs, v < base) :
    value base vs < base ^ vs.length := by
  induction vs with
  | nil => simp [value]
  | cons v vs ih =>
    have h1 := ih fun w hw => h w (by simp [hw])
    have h2 := h v (by simp)
    simp only [value, List.length_cons, Nat.pow_succ]
    have : (v + 1) * base ^ vs.length ≤ base * base ^ vs.length :=
      Nat.mul_le_mul_right _ h2
    rw [Nat.add_mul, Nat.one_mul, Nat.mul_comm base] at this
    omega

theorem parseInt32_of_lt (base : Nat) (cs : List Nat) (h : cs ≠ [])
    (hv : value base (cs.map digitVal) < 2 ^ 31) :
    parseInt32 base cs = (value base (cs.map digitVal), false) := by
  simp only [parseInt32, if_neg h, foldl_value]
  simp [hv]

theorem digitVal_lt_of_hex {c : Nat} (h : isHexDigit c = true) : digitVal c < 16 := by
  simp only [isHexDigit, digitVal, Bool.or_eq_true, Bool.and_eq_true, decide_eq_true_eq] at *
  split
  · omega
  · split <;> omega

theorem hex_ne_RE {c : Nat} (h : isHexDigit c = true) : c ≠ RE := by
  rintro rfl; revert h; decide

theorem hex_ne_cr {c : Nat} (h : isHexDigit c = true) : c ≠ 0x0d := by
  rintro rfl; revert h; decide

theorem hex_ne_brace {c : Nat} (h : isHexDigit c = true) : c ≠ 123 ∧ c ≠ 125 := by
  constructor <;> (rintro rfl; revert h; decide)

theorem hex4Loop_some (n : Nat) (s ds rest : List Nat) :
    hex4Loop n s = (some ds, rest) ↔
      s = ds ++ rest ∧ ds.length = n ∧ ∀ d ∈ ds, isHexDigit d = true := by
  induction n generalizing s ds with
  | zero =>
    simp only [hex4Loop, Prod.mk.injEq, Option.some.injEq]
    constructor
    · rintro ⟨rfl, rfl⟩; simp
    · rintro ⟨h1, h2, -⟩
      have := List.length_eq_zero_iff.1 h2
      subst this; exact ⟨rfl, by simpa using h1⟩
  | succ n ih =>
    cases s with
    | nil =>
      simp only [hex4Loop]
      constructor
      · intro h; cases h
      · rintro ⟨h1, h2, -⟩
        cases ds with
        | nil => simp at h2
        | cons => cases h1
    | cons c t =>
      simp only [hex4Loop]
      by_cases hc : isHexDigit c = true
      · rw [if_neg (by simp [hc, hex_ne_RE hc])]
        cases hl : hex4Loop n t with
        | mk o r =>
          cases o with
          | none =>
            simp only [reduceCtorEq, Prod.mk.injEq, false_and, false_iff]
            rintro ⟨h1, h2, h3⟩
            cases ds with
            | nil => simp at h2
            | cons d ds =>
              injection h1 with h1 h1'
              have := (ih t ds).2 ⟨h1', by simpa using h2, fun d hd => h3 d (by simp [hd])⟩
              rw [this] at hl; cases hl
          | some ds' =>
            have := ih t ds'
            simp only [Prod.mk.injEq, Option.some.injEq]
            constructor
            · rintro ⟨rfl, rfl⟩
              obtain ⟨h1, h2, h3⟩ := this.1 hl
              subst h1
              refine ⟨rfl, by simp [h2], ?_⟩
              intro d hd
              rcases List.mem_cons.1 hd with rfl | hd
              · exact hc
              · exact h3 d hd
            · rintro ⟨h1, h2, h3⟩
              cases ds with
              | nil => simp at h2
              | cons d ds =>
                injection h1 with h1 h1'
                have := (ih t ds).2 ⟨h1', by simpa using h2, fun d hd => h3 d (by simp [hd])⟩
                rw [this] at hl
                injection hl with e1 e2
                injection e1 with e1
                subst e1 e2 h1
                exact ⟨rfl, rfl⟩
      · rw [if_pos (by simp [hc])]
        constructor
        · intro h; cases h
        · rintro ⟨h1, h2, h3⟩
          cases ds with
          | nil => simp at h2
          | cons d ds =>
            injection h1 with h1 h1'
            subst h1
            exact absurd (h3 _ (by simp)) hc

theorem codepointLoop_ok (hex s : List Nat) (v : Nat) (rest : List Nat)
    (hh : ∀ d ∈ hex, isHexDigit d = true) :
    codepointLoop hex s = (v, none, rest) ↔
      ∃ ds, s = ds ++ 125 :: rest ∧ (∀ d ∈ ds, isHexDigit d = true) ∧ hex ++ ds ≠ [] ∧
        v = value 16 ((hex ++ ds).map digitVal) ∧ v ≤ 0x10FFFF := by
  induction s generalizing hex with
  | nil => simp [codepointLoop]
  | cons c t ih =>
    simp only [codepointLoop]
    by_cases hc : c = 125
    · subst hc
      rw [if_pos rfl]
      by_cases he : hex = []
      · subst he
        simp only [parseInt32]
        simp only [if_true]
        rw [if_neg (by decide)]
        constructor
        · intro h; cases h
        · rintro ⟨ds, h1, h2, h3, -⟩
          cases ds with
          | nil => simp at h3
          | cons d ds =>
            injection h1 with h1 _
            subst h1
            have := h2 125 (by simp)
            exact absurd this (by decide)
      · have key : ∀ ds, 125 :: t = ds ++ 125 :: rest → (∀ d ∈ ds, isHexDigit d = true) →
            ds = [] ∧ t = rest := by
          intro ds h1 h2
          cases ds with
          | nil => exact ⟨rfl, by simpa using h1⟩
          | cons d ds =>
            injection h1 with h1 _
            subst h1
            have := h2 125 (by simp)
            exact absurd this (by decide)
        simp only [parseInt32, if_neg he, foldl_value, Nat.zero_mul, Nat.zero_add]
        by_cases hv : value 16 (hex.map digitVal) ≤ 0x10FFFF
        · have e : (if value 16 (hex.map digitVal) < 2 ^ 31 then
              (value 16 (hex.map digitVal), false) else (2 ^ 31 - 1, true)) =
              (value 16 (hex.map digitVal), false) := if_pos (by omega)
          simp only [e]
          rw [if_neg (by omega)]
          simp only [Bool.false_eq_true, if_false, Prod.mk.injEq, true_and]
          constructor
          · rintro ⟨rfl, rfl⟩
            exact ⟨[], by simp, by simp, by simpa using he, by simp, hv⟩
          · rintro ⟨ds, h1, h2, h3, h4, h5⟩
            obtain ⟨rfl, rfl⟩ := key ds h1 h2
            exact ⟨by rw [h4, List.append_nil], rfl⟩
        · have : (if value 16 (hex.map digitVal) < 2 ^ 31 then
              (value 16 (hex.map digitVal), false) else (2 ^ 31 - 1, true)).1 > 0x10FFFF := by
            split
            · simp only; omega
            · decide
          rw [if_pos this]
          constructor
          · intro h; cases h
          · rintro ⟨ds, h1, h2, h3, h4, h5⟩
            obtain ⟨rfl, rfl⟩ := key ds h1 h2
            simp only [List.append_nil] at h4
            omega
    · rw [if_neg hc]
      by_cases hx : isHexDigit c = true
      · rw [if_neg (by simp [hx, hex_ne_RE hx])]
        rw [ih (hex ++ [c]) (by
          intro d hd
          rcases List.mem_append.1 hd with h | h
          · exact hh d h
          · simp at h; subst h; exact hx)]
        constructor
        · rintro ⟨ds, rfl, h2, h3, h4, h5⟩
          refine ⟨c :: ds, rfl, ?_, by simp, by simpa using h4, h5⟩
          intro d hd
          rcases List.mem_cons.1 hd with rfl | hd
          · exact hx
          · exact h2 d hd
        · rintro ⟨ds, h1, h2, h3, h4, h5⟩
          cases ds with
          | nil => injection h1 with h1 _; exact absurd h1 hc
          | cons d ds =>
            injection h1 with h1 h1'
            subst h1
            exact ⟨ds, h1', fun e he => h2 e (by simp [he]), by simp, by simpa using h4, h5⟩
      · rw [if_pos (by simp [hx])]
        constructor
        · intro h; cases h
        · rintro ⟨ds, h1, h2, -⟩
          cases ds with
          | nil => injection h1 with h1 _; exact absurd h1 hc
          | cons d ds =>
            injection h1 with h1 _
            subst h1
            exact absurd (h2 _ (by simp)) hx

end Mole.Lexer
