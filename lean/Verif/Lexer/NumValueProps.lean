import Verif.Lexer.NumValue
/-!
# C52: the number a literal denotes
-/
namespace Mole.Lexer
open Spec

theorem digitOf_eq {D : Nat → Prop} {base c : Nat}
    (hD : ∀ c, D c → Hex c ∧ digit c < base) (h : D c) :
    digitOf c = some (digit c) ∧ digit c < base ∧ c ≠ 95 := by
  obtain ⟨hx, hb⟩ := hD c h
  have hx' : (48 ≤ c ∧ c ≤ 57) ∨ (97 ≤ c ∧ c ≤ 102) ∨ (65 ≤ c ∧ c ≤ 70) := hx
  refine ⟨?_, hb, by omega⟩
  show digitOf c = some (if c ≤ 57 then c - 48 else if c ≤ 90 then c - 65 + 10 else c - 97 + 10)
  simp only [digitOf]
  rcases hx' with h | h | h
  · rw [if_pos h, if_pos h.2]
  · rw [if_neg (by omega), if_pos (by omega), if_neg (by omega), if_neg (by omega)]
    congr 1; omega
  · rw [if_neg (by omega), if_neg (by omega), if_pos (by omega), if_neg (by omega),
      if_pos (by omega)]
    congr 1; omega

theorem numeral_ge {base : Nat} (hb : 1 ≤ base) (n : Nat) (s : List Nat) :
    n ≤ numeral base n s := by
  induction s generalizing n with
  | nil => exact Nat.le_refl _
  | cons c t ih =>
    simp only [numeral]
    split
    · exact ih n
    · refine Nat.le_trans ?_ (ih _)
      exact Nat.le_trans (Nat.le_mul_of_pos_right n hb) (Nat.le_add_right _ _)

theorem parseUint_tail {D : Nat → Prop} {base : Nat} {sep : Prop} (hb : 1 ≤ base)
    (hD : ∀ c, D c → Hex c ∧ digit c < base) {t : List Nat} (ht : DigitsTail D sep t) (n : Nat)
    (hv : numeral base n t < 2 ^ 32) :
    parseUintLoop base n (t.filter (· != 95)) = numeral base n t := by
  induction ht generalizing n with
  | nil => rfl
  | digit hd _ ih =>
    obtain ⟨h1, h2, h3⟩ := digitOf_eq hD hd
    simp only [numeral, show ¬ _ = '_'.toNat from h3, if_false] at hv ⊢
    have hge := numeral_ge hb _ _ |> fun h => Nat.lt_of_le_of_lt h hv
    rw [List.filter_cons_of_pos (by simpa using h3)]
    simp only [parseUintLoop, h1]
    rw [if_neg (by omega), if_neg (by omega), ih _ hv]
  | sep _ hd _ ih =>
    obtain ⟨h1, h2, h3⟩ := digitOf_eq hD hd
    simp only [numeral, show ¬ _ = '_'.toNat from h3, if_false, if_true] at hv ⊢
    have hge := numeral_ge hb _ _ |> fun h => Nat.lt_of_le_of_lt h hv
    rw [List.filter_cons_of_neg (by decide), List.filter_cons_of_pos (by simpa using h3)]
    simp only [parseUintLoop, h1]
    rw [if_neg (by omega), if_neg (by omega), ih _ hv]

theorem setString_tail {D : Nat → Prop} {base : Nat} {sep : Prop}
    (hD : ∀ c, D c → Hex c ∧ digit c < base) {t : List Nat} (ht : DigitsTail D sep t) (n : Nat) :
    setStringLoop base n (t.filter (· != 95)) = some (numeral base n t) := by
  induction ht generalizing n with
  | nil => rfl
  | digit hd _ ih =>
    obtain ⟨h1, h2, h3⟩ := digitOf_eq hD hd
    simp only [numeral, show ¬ _ = '_'.toNat from h3, if_false]
    rw [List.filter_cons_of_pos (by simpa using h3)]
    simp only [setStringLoop, h1]
    rw [if_neg (by omega), ih]
  | sep _ hd _ ih =>
    obtain ⟨h1, h2, h3⟩ := digitOf_eq hD hd
    simp only [numeral, show ¬ _ = '_'.toNat from h3, if_false, if_true]
    rw [List.filter_cons_of_neg (by decide), List.filter_cons_of_pos (by simpa using h3)]
    simp only [setStringLoop, h1]
    rw [if_neg (by omega), ih]

theorem digits_tail {D : Nat → Prop} {sep : Prop} {s : List Nat} (h : Digits D sep s) :
    DigitsTail D sep s := by
  obtain ⟨d, t, rfl, hd, ht⟩ := h
  exact .digit hd ht

theorem digits_filter_ne {D : Nat → Prop} {sep : Prop} {s : List Nat} (h : Digits D sep s)
    (hD : ∀ c, D c → Hex c) : s.filter (· != 95) ≠ [] := by
  obtain ⟨d, t, rfl, hd, ht⟩ := h
  have hx : (48 ≤ d ∧ d ≤ 57) ∨ (97 ≤ d ∧ d ≤ 102) ∨ (65 ≤ d ∧ d ≤ 70) := hD d hd
  rw [List.filter_cons_of_pos (by simp; omega)]
  simp

theorem bin_ok (c : Nat) (h : Bin c) : Hex c ∧ digit c < 2 := by
  rcases h with rfl | rfl <;> exact ⟨.inl (by simp [Dec]), by decide⟩

theorem oct_ok (c : Nat) (h : Oct c) : Hex c ∧ digit c < 8 := by
  have h1 : 48 ≤ c := h.1
  have h2 : c ≤ 55 := h.2
  refine ⟨.inl ⟨h1, Nat.le_trans h2 (by decide)⟩, ?_⟩
  simp only [digit]
  rw [if_pos (Nat.le_trans h2 (by decide))]
  show c - 48 < 8
  omega

theorem dec_ok (c : Nat) (h : Dec c) : Hex c ∧ digit c < 10 := by
  have h1 : 48 ≤ c := h.1
  have h2 : c ≤ 57 := h.2
  refine ⟨.inl h, ?_⟩
  simp only [digit]
  rw [if_pos h.2]
  show c - 48 < 10
  omega

theorem hex_ok (c : Nat) (h : Hex c) : Hex c ∧ digit c < 16 := by
  refine ⟨h, ?_⟩
  have hx : (48 ≤ c ∧ c ≤ 57) ∨ (97 ≤ c ∧ c ≤ 102) ∨ (65 ≤ c ∧ c ≤ 70) := h
  show (if c ≤ 57 then c - 48 else if c ≤ 90 then c - 65 + 10 else c - 97 + 10) < 16
  split
  · omega
  · split <;> omega

theorem parseUint_digits {D : Nat → Prop} {base : Nat} {sep : Prop} (hb : 1 ≤ base)
    (hD : ∀ c, D c → Hex c ∧ digit c < base) {ds : List Nat} (h : Digits D sep ds)
    (hv : numeral base 0 ds < 2 ^ 32) :
    parseUint32 base (ds.filter (· != 95)) = numeral base 0 ds :=
  parseUint_tail hb hD (digits_tail h) 0 hv

/-- A literal of a radix other than ten, and the number it denotes. -/
inductive RadixLit (sep : Prop) : List Nat → Nat → Prop
  | bin {b ds} : b = 'b'.toNat ∨ b = 'B'.toNat → Digits Bin sep ds →
      RadixLit sep ('0'.toNat :: b :: ds) (numeral 2 0 ds)
  | oct {b ds} : b = 'o'.toNat ∨ b = 'O'.toNat → Digits Oct sep ds →
      RadixLit sep ('0'.toNat :: b :: ds) (numeral 8 0 ds)
  | hex {b ds} : b = 'x'.toNat ∨ b = 'X'.toNat → Digits Hex sep ds →
      RadixLit sep ('0'.toNat :: b :: ds) (numeral 16 0 ds)

theorem filter_prefix {b : Nat} {ds : List Nat} (hb : b ≠ 95) :
    (48 :: b :: ds).filter (· != 95) = 48 :: b :: ds.filter (· != 95) := by
  rw [List.filter_cons_of_pos (by decide), List.filter_cons_of_pos (by simpa using hb)]

/-- **C52** (partial: only numbers below 2^32; the property has no bound, and fails beyond it).
A binary, octal or hexadecimal literal converts to the number it denotes. -/
theorem parseFloat_radix_partial (sep : Prop) (lit : List Nat) (v : Nat) (h : RadixLit sep lit v)
    (hv : v < 2 ^ 32) : parseFloat lit = .nat v := by
  cases h with
  | bin hb hd =>
    have := parseUint_digits (by omega) bin_ok hd hv
    rcases hb with rfl | rfl
    all_goals
      simp only [parseFloat, show '0'.toNat = 48 from rfl]
      rw [filter_prefix (by decide)]
      simp [has0, this]
  | oct hb hd =>
    have := parseUint_digits (by omega) oct_ok hd hv
    rcases hb with rfl | rfl
    all_goals
      simp only [parseFloat, show '0'.toNat = 48 from rfl]
      rw [filter_prefix (by decide)]
      simp [has0, this]
  | hex hb hd =>
    have := parseUint_digits (by omega) hex_ok hd hv
    rcases hb with rfl | rfl
    all_goals
      simp only [parseFloat, show '0'.toNat = 48 from rfl]
      rw [filter_prefix (by decide)]
      simp [has0, this]

example : RadixLit True ("0xF_f".toList.map Char.toNat) 255 :=
  .hex (.inl rfl) ⟨70, [95, 102], rfl, by simp [Hex, Dec],
    .sep trivial (by simp [Hex, Dec]) .nil⟩

theorem numeral_zeros (base : Nat) (t : List Nat) :
    numeral base 0 t = numeral base 0 (t.dropWhile (· == 48)) := by
  induction t with
  | nil => rfl
  | cons c t ih =>
    by_cases hc : c = 48
    · subst hc
      rw [List.dropWhile_cons_of_pos (by decide), ← ih]
      show (if (48 : Nat) = 95 then _ else numeral base (0 * base + digit 48) t) = _
      rw [if_neg (by omega), show digit 48 = 0 from rfl, Nat.zero_mul]
    · rw [List.dropWhile_cons_of_neg (by simpa using hc)]

theorem octTail_drop {t : List Nat} (h : DigitsTail Oct False t) :
    DigitsTail Oct False (t.dropWhile (· == 48)) := by
  induction h with
  | nil => exact .nil
  | digit hd ht ih =>
    rename_i d t
    by_cases hc : d = 48
    · subst hc; rw [List.dropWhile_cons_of_pos (by decide)]; exact ih
    · rw [List.dropWhile_cons_of_neg (by simpa using hc)]; exact .digit hd ht
  | sep h => exact h.elim

theorem octTail_filter {t : List Nat} (h : DigitsTail Oct False t) : t.filter (· != 95) = t := by
  induction h with
  | nil => rfl
  | digit hd ht ih =>
    rename_i d t
    have h1 := (digitOf_eq oct_ok hd).2.2
    rw [List.filter_cons_of_pos (by simpa using h1), ih]
  | sep h => exact h.elim

/-- **C52** (partial, as before). A legacy octal literal converts to the number it denotes. -/
theorem parseFloat_legacy_partial (ds : List Nat) (h : Digits Oct False ds)
    (hv : numeral 8 0 ds < 2 ^ 32) :
    parseFloat ('0'.toNat :: ds) = .nat (numeral 8 0 ds) := by
  have ht := digits_tail h
  obtain ⟨d, t, rfl, hd, -⟩ := h
  have hf := octTail_filter ht
  have h1 : 48 ≤ d := hd.1
  have h2 : d ≤ 55 := hd.2
  have key : parseUint32 8 ((d :: t).dropWhile (· == 48)) = numeral 8 0 (d :: t) := by
    have := parseUint_tail (base := 8) (by omega) oct_ok (octTail_drop ht) 0
      (by rw [← numeral_zeros]; exact hv)
    rw [octTail_filter (octTail_drop ht), ← numeral_zeros] at this
    exact this
  simp only [parseFloat, show '0'.toNat = 48 from rfl]
  rw [List.filter_cons_of_pos (by decide), hf]
  have hn : ∀ lo up, lo > 55 → up > 55 → has0 lo up (48 :: d :: t) = false := by
    intro lo up _ _
    simp [has0]; omega
  rw [hn _ _ (by omega) (by omega), hn _ _ (by omega) (by omega), hn _ _ (by omega) (by omega)]
  simp only [Bool.false_eq_true, if_false, List.head?_cons, List.length_cons]
  rw [if_pos ⟨trivial, by omega⟩, List.dropWhile_cons_of_pos (by decide), key]

theorem decTail_head {sep : Prop} {t : List Nat} (h : DigitsTail Dec sep t) :
    ∀ c ∈ t.filter (· != 95), Dec c := by
  induction h with
  | nil => simp
  | digit hd ht ih =>
    have h1 := (digitOf_eq dec_ok hd).2.2
    rw [List.filter_cons_of_pos (by simpa using h1)]
    intro c hc
    rcases List.mem_cons.1 hc with rfl | hc
    · exact hd
    · exact ih c hc
  | sep _ hd ht ih =>
    have h1 := (digitOf_eq dec_ok hd).2.2
    rw [List.filter_cons_of_neg (by decide), List.filter_cons_of_pos (by simpa using h1)]
    intro c hc
    rcases List.mem_cons.1 hc with rfl | hc
    · exact hd
    · exact ih c hc

/-- **C52** (partial: `strconv.ParseFloat` is trusted, and the property fails for literals that
start with a zero). A decimal literal that does not start with a zero is converted by
`strconv.ParseFloat` from its text without separators. -/
theorem parseFloat_decimal_partial (lit : List Nat) (h : lit.head? ≠ some '0'.toNat)
    (hs : lit.head? ≠ some '_'.toNat) :
    parseFloat lit = .strconv (lit.filter (· != '_'.toNat)) := by
  cases lit with
  | nil => rfl
  | cons c t =>
    have h1 : c ≠ 48 := by simpa using h
    have h2 : c ≠ 95 := by simpa using hs
    simp only [parseFloat]
    rw [List.filter_cons_of_pos (by simpa using h2)]
    simp [has0, h1, h2]

/-- **C52.** The literal `0` is zero: `strconv.ParseFloat` gets the text `0`. -/
theorem parseFloat_zero : parseFloat ['0'.toNat] = .strconv ['0'.toNat] := by decide

/-- **C52.** A BigInt literal converts to the number it denotes, of any size. -/
theorem parseBigint_eq (sep : Prop) (lit : List Nat) (v : Nat)
    (h : RadixLit sep lit v ∨
      (lit = ['0'.toNat] ∧ v = 0) ∨
      (∃ d t, lit = d :: t ∧ Dec d ∧ d ≠ '0'.toNat ∧ DigitsTail Dec sep t ∧ v = numeral 10 0 lit)) :
    parseBigint (lit ++ ['n'.toNat]) = some v := by
  simp only [parseBigint, List.dropLast_concat]
  rcases h with h | ⟨rfl, rfl⟩ | ⟨d, t, rfl, hd, h0, ht, rfl⟩
  · cases h with
    | bin hb hd =>
      have h1 := setString_tail bin_ok (digits_tail hd) 0
      have h2 := digits_filter_ne hd (fun c h => (bin_ok c h).1)
      rcases hb with rfl | rfl
      all_goals
        rw [show '0'.toNat = 48 from rfl, filter_prefix (by decide)]
        simp only [has0, List.head?_cons, List.tail_cons, List.drop_succ_cons, List.drop_zero, h1, h2]
        simp
    | oct hb hd =>
      have h1 := setString_tail oct_ok (digits_tail hd) 0
      have h2 := digits_filter_ne hd (fun c h => (oct_ok c h).1)
      rcases hb with rfl | rfl
      all_goals
        rw [show '0'.toNat = 48 from rfl, filter_prefix (by decide)]
        simp only [has0, List.head?_cons, List.tail_cons, List.drop_succ_cons, List.drop_zero, h1, h2]
        simp
    | hex hb hd =>
      have h1 := setString_tail hex_ok (digits_tail hd) 0
      have h2 := digits_filter_ne hd (fun c h => h)
      rcases hb with rfl | rfl
      all_goals
        rw [show '0'.toNat = 48 from rfl, filter_prefix (by decide)]
        simp only [has0, List.head?_cons, List.tail_cons, List.drop_succ_cons, List.drop_zero, h1, h2]
        simp
  · rfl
  · have h1 := setString_tail dec_ok (.digit hd ht : DigitsTail Dec sep (d :: t)) 0
    have h2 := (digitOf_eq dec_ok hd).2.2
    rw [List.filter_cons_of_pos (by simpa using h2)] at h1 ⊢
    have h0' : d ≠ 48 := h0
    simp only [has0, List.head?_cons, Option.some_beq_some, h1]
    simp [h0']

/-- **C52 is violated**: `0x100000000` converts to 2^32 - 1. -/
theorem large_hex_violated :
    parseFloat ("0x100000000".toList.map Char.toNat) = .nat (2 ^ 32 - 1) := by rfl

/-- **C52 is violated**: `0.5` converts to 0. -/
theorem leading_zero_violated : parseFloat ("0.5".toList.map Char.toNat) = .nat 0 := by rfl

end Mole.Lexer
