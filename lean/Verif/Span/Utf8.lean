import Verif.Span.Lemmas
/-!
The decoder against the definition of UTF-8, and the character classes against their lists.
-/
namespace Mole.Span

theorem byte_toNat {n : Nat} (h : n < 256) : (UInt8.ofNat n).toNat = n := by
  rw [UInt8.toNat_ofNat']; omega

theorem ofNat_byte {n : Nat} {b : UInt8} (h : n = b.toNat) : UInt8.ofNat n = b := by
  subst h; simp

theorem decodeRune_encode {c : Nat} (h : Scalar c) (t : Bytes) :
    decodeRune (encode c ++ t) = (c, (encode c).length) := by
  have hs : c < 0x110000 := by rcases h with h | h <;> omega
  have d1 : c / 4096 = c / 64 / 64 := by rw [Nat.div_div_eq_div_mul]
  have d2 : c / 262144 = c / 64 / 64 / 64 := by rw [Nat.div_div_eq_div_mul, Nat.div_div_eq_div_mul]
  unfold encode
  have e0 : (UInt8.ofNat (0x80 + c % 64)).toNat = 0x80 + c % 64 := byte_toNat (by omega)
  have e1 : (UInt8.ofNat (0x80 + c / 64 % 64)).toNat = 0x80 + c / 64 % 64 := byte_toNat (by omega)
  have e2 : (UInt8.ofNat (0x80 + c / 4096 % 64)).toNat = 0x80 + c / 4096 % 64 := byte_toNat (by omega)
  split
  · have e : (UInt8.ofNat c).toNat = c := byte_toNat (by omega)
    simp only [List.cons_append, List.nil_append, decodeRune, e]
    rw [if_pos (by omega)]; rfl
  split
  · have e : (UInt8.ofNat (0xC0 + c / 64)).toNat = 0xC0 + c / 64 := byte_toNat (by omega)
    simp only [List.cons_append, List.nil_append, decodeRune, e, e0, inRange, Bool.and_eq_true,
      decide_eq_true_eq]
    clear e1 e2 d1 d2
    rw [if_neg (by omega), if_neg (by omega), if_pos (by omega), if_pos (by omega)]
    exact Prod.ext (by show _ = c; simp only; omega) rfl
  split
  · have e : (UInt8.ofNat (0xE0 + c / 4096)).toNat = 0xE0 + c / 4096 := byte_toNat (by omega)
    simp only [List.cons_append, List.nil_append, decodeRune, e, e0, e1, inRange, Bool.and_eq_true,
      decide_eq_true_eq]
    rw [if_neg (by omega), if_neg (by omega), if_neg (by omega), if_pos (by omega), if_pos]
    · exact Prod.ext (by show _ = c; simp only; omega) rfl
    · refine ⟨⟨?_, ?_⟩, by omega⟩
      · split <;> omega
      · split
        · rcases h with h | h <;> omega
        · omega
  · have e : (UInt8.ofNat (0xF0 + c / 262144)).toNat = 0xF0 + c / 262144 := byte_toNat (by omega)
    simp only [List.cons_append, List.nil_append, decodeRune, e, e0, e1, e2, inRange,
      Bool.and_eq_true, decide_eq_true_eq]
    rw [if_neg (by omega), if_neg (by omega), if_neg (by omega), if_neg (by omega),
      if_pos (by omega), if_pos]
    · exact Prod.ext (by show _ = c; simp only; omega) rfl
    · refine ⟨⟨⟨?_, ?_⟩, by omega⟩, by omega⟩
      · split <;> omega
      · split <;> omega

theorem decodeRune_valid (b : UInt8) (t : Bytes) :
    decodeRune (b :: t) = (runeError, 1) ∨
    (Scalar (decodeRune (b :: t)).1 ∧
      b :: t = encode (decodeRune (b :: t)).1 ++ (b :: t).drop (decodeRune (b :: t)).2) := by
  have hb := b.toNat_lt
  unfold decodeRune
  simp only
  split
  · right
    refine ⟨by unfold Scalar; omega, ?_⟩
    simp only [encode, if_pos (by omega : b.toNat < 0x80)]
    simp
  split
  · simp
  split
  · cases t with
    | nil => simp
    | cons b1 t =>
      simp only [inRange, Bool.and_eq_true, decide_eq_true_eq]
      split
      · right
        refine ⟨by unfold Scalar; omega, ?_⟩
        simp only [encode]
        rw [if_neg (by omega), if_pos (by omega)]
        simp only [List.drop_succ_cons, List.drop_zero, List.cons_append, List.nil_append]
        rw [ofNat_byte (b := b) (by omega), ofNat_byte (b := b1) (by omega)]
      · simp
  split
  · match t with
    | [] => simp
    | [_] => simp
    | b1 :: b2 :: t =>
      simp only [inRange, Bool.and_eq_true, decide_eq_true_eq]
      by_cases h : ((if b.toNat = 0xE0 then 0xA0 else 0x80) ≤ b1.toNat ∧
          b1.toNat ≤ (if b.toNat = 0xED then 0x9F else 0xBF)) ∧ 0x80 ≤ b2.toNat ∧ b2.toNat ≤ 0xBF
      · rw [if_pos h]
        right
        have h1 : b.toNat ≥ 0xE0 := by omega
        have h2 : b.toNat = 0xE0 → 0xA0 ≤ b1.toNat := by
          intro he; have := h.1.1; simpa [he] using this
        have h3 : b.toNat = 0xED → b1.toNat ≤ 0x9F := by
          intro he; have := h.1.2; simpa [he] using this
        have h4 : 0x80 ≤ b1.toNat ∧ b1.toNat ≤ 0xBF := by
          have := h.1; split at this <;> split at this <;> omega
        refine ⟨by unfold Scalar; simp only; omega, ?_⟩
        simp only [encode]
        rw [if_neg (by omega), if_neg (by omega), if_pos (by omega)]
        simp only [List.drop_succ_cons, List.drop_zero, List.cons_append, List.nil_append]
        rw [ofNat_byte (b := b) (by omega), ofNat_byte (b := b1) (by omega),
          ofNat_byte (b := b2) (by omega)]
      · rw [if_neg h]; simp
  split
  · match t with
    | [] => simp
    | [_] => simp
    | [_, _] => simp
    | b1 :: b2 :: b3 :: t =>
      simp only [inRange, Bool.and_eq_true, decide_eq_true_eq]
      by_cases h : (((if b.toNat = 0xF0 then 0x90 else 0x80) ≤ b1.toNat ∧
          b1.toNat ≤ (if b.toNat = 0xF4 then 0x8F else 0xBF)) ∧ 0x80 ≤ b2.toNat ∧ b2.toNat ≤ 0xBF) ∧
          0x80 ≤ b3.toNat ∧ b3.toNat ≤ 0xBF
      · rw [if_pos h]
        right
        have h1 : b.toNat ≥ 0xF0 := by omega
        have h2 : b.toNat = 0xF0 → 0x90 ≤ b1.toNat := by
          intro he; have := h.1.1.1; simpa [he] using this
        have h3 : b.toNat = 0xF4 → b1.toNat ≤ 0x8F := by
          intro he; have := h.1.1.2; simpa [he] using this
        have h4 : 0x80 ≤ b1.toNat ∧ b1.toNat ≤ 0xBF := by
          have := h.1.1; split at this <;> split at this <;> omega
        refine ⟨by unfold Scalar; simp only; omega, ?_⟩
        simp only [encode]
        rw [if_neg (by omega), if_neg (by omega), if_neg (by omega)]
        simp only [List.drop_succ_cons, List.drop_zero, List.cons_append, List.nil_append]
        rw [ofNat_byte (b := b) (by omega), ofNat_byte (b := b1) (by omega),
          ofNat_byte (b := b2) (by omega), ofNat_byte (b := b3) (by omega)]
      · rw [if_neg h]; simp
  · simp

theorem encode_ne_nil (c : Nat) : encode c ≠ [] := by
  unfold encode; repeat' split
  all_goals simp

theorem decodeAll_encode {c : Nat} (h : Scalar c) (t : Bytes) :
    decodeAll (encode c ++ t) = c :: decodeAll t := by
  have hd := decodeRune_encode h t
  cases he : encode c ++ t with
  | nil => simp [encode_ne_nil] at he
  | cons b bs =>
    rw [decodeAll_cons, ← he, hd]
    simp

theorem decodeRune_bad {b : UInt8} {t : Bytes}
    (h : ∀ c t', Scalar c → b :: t ≠ encode c ++ t') : decodeRune (b :: t) = (runeError, 1) := by
  rcases decodeRune_valid b t with h' | ⟨h1, h2⟩
  · exact h'
  · exact absurd h2 (h _ _ h1)

theorem decodes_iff (s : Bytes) (cs : List Nat) : Decodes s cs ↔ decodeAll s = cs := by
  constructor
  · intro h
    induction h with
    | nil => rfl
    | char hc _ ih => rw [decodeAll_encode hc, ih]
    | bad hb _ ih => rw [decodeAll_cons, decodeRune_bad hb]; simp [ih, runeError]
  · rintro rfl
    induction hn : s.length using Nat.strongRecOn generalizing s with
    | _ n ih =>
      cases s with
      | nil => exact .nil
      | cons b t =>
        have hw := decodeRune_width_pos b t
        have hl : ((b :: t).drop (decodeRune (b :: t)).2).length < n := by
          rw [List.length_drop]; simp at hn ⊢; omega
        have hrec := ih _ hl _ rfl
        rw [decodeAll_cons]
        by_cases hbad : ∀ c t', Scalar c → b :: t ≠ encode c ++ t'
        · have hd := decodeRune_bad hbad
          rw [hd] at hrec ⊢
          exact .bad hbad hrec
        · rcases decodeRune_valid b t with h' | ⟨h1, h2⟩
          · exfalso
            apply hbad
            intro c t' hc he
            have hd := decodeRune_encode hc t'
            rw [← he, h'] at hd
            simp only [Prod.mk.injEq, runeError] at hd
            obtain ⟨rfl, hd⟩ := hd
            revert hd; decide
          · have := Decodes.char h1 hrec
            rw [← h2] at this
            exact this

theorem isSpace_iff (c : Nat) : isSpace c = true ↔ White c := by
  simp only [isSpace, White, Bool.or_eq_true, beq_iff_eq, Bool.and_eq_true, decide_eq_true_eq,
    List.mem_cons, List.not_mem_nil, or_false]
  omega

theorem isSpace_iff' (c : Nat) : isSpace c = false ↔ ¬ White c := by
  rw [← isSpace_iff]; simp

theorem isSpace_eq : isSpace = fun c => decide (White c) := by
  funext c; rw [Bool.eq_iff_iff, isSpace_iff]; simp

theorem isLineTerminator_iff (c : Nat) : isLineTerminator c = true ↔ LineTerm c := by
  simp only [isLineTerminator, LineTerm, Bool.or_eq_true, beq_iff_eq, List.mem_cons,
    List.not_mem_nil, or_false, or_assoc]
  exact Iff.rfl

theorem isLineTerminator_eq : isLineTerminator = fun c => decide (LineTerm c) := by
  funext c; rw [Bool.eq_iff_iff, isLineTerminator_iff]; simp

end Mole.Span
