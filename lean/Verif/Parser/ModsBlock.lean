import Verif.Parser.ModsMain
/-!
# Modifiers of class members: lemmas on static blocks
-/
namespace Mole.Parser.Mods

theorem has_app {k : Nat} {s t : List Word} (h : has k s = true) : has k (s ++ t) = true := by
  simp only [has, List.any_append] at h ⊢
  rw [h]; rfl

theorem modifiers_has {k : Nat} : ∀ (ts : List Tok) (s : List Word), has k s = true → has k (modifiers s ts).1 = true
  | [], s, h => h
  | t :: r, s, h => by
    unfold modifiers
    split
    · split
      · split
        · exact h
        · split
          · exact h
          · exact modifiers_has r _ (has_app h)
      · exact h
    · exact h

/-- What a static block needs: of the modifiers only `static`. -/
theorem block_seen {cls : Cls} {ts : List Tok} (h : classElem cls ts = .block) {k : Nat} (hk : 0 < k) (hk5 : k ≤ 5) :
    has 0 (modifiers [] ts).1 = true ∧ (head (modifiers [] ts).2.2).k = .braceL ∧ has k (modifiers [] ts).1 = false ∧
    accOf ((modifiers [] ts).1 ++ (modifiers [] ts).2.1.toList) = none := by
  unfold classElem at h
  generalize modifiers [] ts = m at h ⊢
  obtain ⟨seen, nm, r⟩ := m
  simp only at h ⊢
  have hm : ∀ a b c d, member a b c d r ≠ .block := by intro a b c d; unfold member; split <;> simp
  have hmr : ∀ a b c d r, member a b c d r ≠ .block := by intro a b c d r; unfold member; split <;> simp
  have ht : ∀ a b c d, tail a b c d r ≠ .block := by
    intro a b c d e
    unfold tail field at e
    clear h hm
    repeat' (split at e <;> try dsimp only at e)
    all_goals first | exact absurd e (hmr _ _ _ _ _) | cases e
  have hfl : ∀ a b c d, field a b c d ≠ .block := by intro a b c d; unfold field; split <;> exact hmr _ _ _ _ _
  split at h
  · cases h
  · rename_i ho
    split at h
    · rename_i h0
      split at h
      · rename_i hb
        split at h
        · cases h
        · rename_i ha
          simp only [beq_iff_eq] at hb
          simp [order, h0, hb] at ho ha
          refine ⟨h0, hb, ?_, ha.1.1⟩
          obtain rfl | rfl | rfl | rfl | rfl : k = 1 ∨ k = 2 ∨ k = 3 ∨ k = 4 ∨ k = 5 := by omega
          all_goals simp [ho]
      · split at h
        · exact absurd h (hmr _ _ _ _ _)
        · exact absurd h (ht _ _ _ _)
    · split at h
      · exact absurd h (hfl _ _ _ _)
      · exact absurd h (ht _ _ _ _)

theorem block_shape {cls : Cls} {ts : List Tok} (h : classElem cls ts = .block) :
    ∃ b r, ts = ⟨.word .static, b⟩ :: r ∧ ((head r).k = .braceL ∨
      ∃ w b' r', r = ⟨.word w, b'⟩ :: r' ∧ (w = .abstract ∨ w = .readonly ∨ w = .override ∨ w = .declare) ∧ head r' = ⟨.braceL, true⟩) := by
  have hs := fun k h1 h2 => block_seen h (k := k) h1 h2
  obtain ⟨h0, hb, -, ha⟩ := hs 1 (by omega) (by omega)
  have hk : ∀ k, 0 < k → k ≤ 5 → has k (modifiers [] ts).1 = false := fun k h1 h2 => (hs k h1 h2).2.2.1
  clear hs h
  have kle : ∀ (w : Word) k, w.kind = some k → k ≤ 5 := by intro w k; cases w <;> simp [Word.kind] <;> omega
  match ts with
  | [] => simp [modifiers, has] at h0
  | ⟨.word w, b⟩ :: r =>
    cases hw : w.kind with
    | none => simp [modifiers, hw, has] at h0
    | some k =>
      by_cases hf : isField (w == .static) (head r) = true
      · simp [modifiers, hw, has, hf] at h0
      · have e : modifiers [] (⟨.word w, b⟩ :: r) = modifiers [w] r := by simp [modifiers, hw, has, hf]
        rw [e] at h0 hb ha hk
        have hw1 : has k [w] = true := by simp [has, hw]
        have k0 : k = 0 := by
          cases k with
          | zero => rfl
          | succ k => have := modifiers_has r [w] hw1; rw [hk _ (by omega) (kle w _ hw)] at this; cases this
        subst k0
        have : w = .static := by cases w <;> simp [Word.kind] at hw ⊢
        subst this
        refine ⟨b, r, rfl, ?_⟩
        match r with
        | [] => simp [modifiers, head] at hb
        | ⟨.word v, c⟩ :: r' =>
          right
          cases hv : v.kind with
          | none => simp [modifiers, hv, head] at hb
          | some j =>
            by_cases hj : has j [Word.static] = true
            · simp [modifiers, hv, hj, head] at hb
            · by_cases hf' : isField (v == .static) (head r') = true
              · simp [modifiers, hv, hj, hf'] at hb ha
                refine ⟨v, c, r', rfl, ?_, ?_⟩
                · cases v <;> simp [Word.kind] at hv <;> simp [accOf] at ha ⊢
                  subst hv; simp [has, Word.kind] at hj
                · have hvs : (v == Word.static) = false := by
                    cases v <;> simp [Word.kind] at hv ⊢
                    subst hv; simp [has, Word.kind] at hj
                  generalize head r' = t at hb hf' ⊢
                  obtain ⟨tk, tn⟩ := t
                  simp only at hb
                  subst hb
                  simp [isField, hvs] at hf'
                  rw [hf']
              · have e2 : modifiers [.static] (⟨.word v, c⟩ :: r') = modifiers [.static, v] r' := by simp [modifiers, hv, hj, hf']
                rw [e2] at hk
                have := modifiers_has (k := j) r' [.static, v] (by simp [has, hv])
                have hj0 : 0 < j := by
                  cases j with
                  | zero => simp [has, Word.kind] at hj
                  | succ j => omega
                rw [hk j hj0 (kle v j hv)] at this; cases this
        | ⟨.braceL, c⟩ :: r' => exact .inl rfl
        | ⟨.stop, c⟩ :: r' | ⟨.mark, c⟩ :: r' | ⟨.paren, c⟩ :: r' | ⟨.star, c⟩ :: r' | ⟨.key _, c⟩ :: r' | ⟨.other, c⟩ :: r' =>
          simp [modifiers, head] at hb
  | ⟨.stop, b⟩ :: r | ⟨.mark, b⟩ :: r | ⟨.paren, b⟩ :: r | ⟨.braceL, b⟩ :: r | ⟨.star, b⟩ :: r | ⟨.key _, b⟩ :: r | ⟨.other, b⟩ :: r =>
    simp [modifiers, has] at h0

end Mole.Parser.Mods
