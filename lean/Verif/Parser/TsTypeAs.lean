import Verif.Parser.TsTypeSpec
/-!
# The conversions between types and parameters are those of the specification
-/
namespace Mole.Parser.TsType
variable {X : Type} {C : Cfg X}

theorem word_iff {t : Nd X} {v : String} : label t = some v ↔ Word t v := by
  unfold label Word
  split <;> simp_all

theorem no_word {t : Nd X} : label t = none ↔ ∀ v, ¬ Word t v := by
  simp only [← word_iff]
  cases label t <;> simp

theorem startsArg_iff {k : K} : argStart k = true ↔ StartsArg k := by
  cases k <;> simp [argStart, StartsArg]

theorem named_iff {m : Nd X} : isNamed m = true ↔ Named m := by
  cases m <;> simp [isNamed, Named]

theorem namedOk_iff {m : Nd X} : namedOk m = true ↔ (Named m ∨ ∃ t, m = .rest t ∧ Named t) := by
  cases m <;> simp [namedOk, Named, named_iff]

theorem namesAgree_iff {l : List (Nd X)} : NamesAgree l ↔ ((∃ m ∈ l, isNamed m = true) → ∀ m ∈ l, namedOk m = true) := by
  simp only [NamesAgree, named_iff, namedOk_iff]

theorem hasInfo_iff {p : Nd X} : hasInfo p = true ↔ Pattern p := by
  cases p <;> simp [hasInfo, Pattern]

theorem primitive_iff {t : Nd X} : primitive t = false ↔
    (∀ s ∈ ["any", "number", "boolean", "string", "symbol", "void"], t ≠ .predef s) ∧ t ≠ .this := by
  cases t with
  | predef s =>
    simp only [primitive, Bool.eq_false_iff, ne_eq, List.contains_iff_mem, Nd.predef.injEq, reduceCtorEq, not_false_eq_true, and_true]
    exact ⟨fun h r hr e => h (e ▸ hr), fun h hs => h s hs rfl⟩
  | _ => simp [primitive]

mutual
theorem asPat_of (t : Nd X) : ∀ p, toPat C t = some p → AsPat C t p := by
  intro p h
  cases t with
  | predef s =>
    simp only [toPat] at h
    split at h
    · rename_i hs
      cases h
      exact .predef s (by simpa using hs)
    · rename_i hs
      split at h
      · cases h
      · rename_i hv
        cases h
        exact .stays _ (.inl ⟨s, rfl, by simp at hs ⊢; simp [hs, hv]⟩)
  | ref n => cases n <;> simp [toPat] at h; subst h; exact .name _
  | obj x =>
    simp only [toPat, Option.map_eq_some_iff] at h
    obtain ⟨y, hy, rfl⟩ := h
    exact .obj x y hy
  | arr u =>
    simp only [toPat] at h
    split at h
    · cases h
    · rename_i hp
      have := primitive_iff.1 (Bool.eq_false_iff.2 hp)
      exact .arr u p this.1 this.2 (asPat_of u p h)
  | tuple l =>
    simp only [toPat, Option.map_eq_some_iff] at h
    obtain ⟨m, hm, rfl⟩ := h
    exact .tuple l m (asPats_of l m hm)
  | this => simp only [toPat, Option.some.injEq] at h; subst h; exact .this
  | rest u =>
    cases u with
    | ref n => cases n with
      | id s => simp only [toPat, Option.some.injEq] at h; subst h; exact .rest s
      | dot => simp [toPat] at h
    | _ => simp [toPat] at h
  | app | paren | fn | fnNo | union | inter => simp [toPat] at h
  | _ =>
    simp only [toPat, Option.some.injEq] at h
    subst h
    exact .stays _ (by simp [Stays])
theorem asPats_of (l : List (Nd X)) : ∀ m, toPats C l = some m → AsPats C l m := by
  intro m h
  cases l with
  | nil => simp only [toPats, Option.some.injEq] at h; subst h; exact .nil
  | cons t l =>
    simp only [toPats] at h
    split at h
    · cases h
    · rename_i p hp
      simp only [Option.map_eq_some_iff] at h
      obtain ⟨m', hm, rfl⟩ := h
      exact .cons t p l m' (asPat_of t p hp) (asPats_of l m' hm)
end

theorem stays_toPat {t : Nd X} (h : Stays t) : toPat C t = some t := by
  cases t <;> simp_all [Stays, toPat]

mutual
theorem toPat_of {t p : Nd X} : AsPat C t p → toPat C t = some p
  | .name s => rfl
  | .predef s h => by simp only [toPat]; rw [if_pos (by simpa using h)]
  | .this => rfl
  | .obj x y h => by simp [toPat, h]
  | .tuple l m h => by simp [toPat, toPats_of h]
  | .arr t p h1 h2 h => by simp [toPat, primitive_iff.2 ⟨h1, h2⟩, toPat_of h]
  | .rest s => rfl
  | .stays t h => stays_toPat h
theorem toPats_of {l m : List (Nd X)} : AsPats C l m → toPats C l = some m
  | .nil => rfl
  | .cons t p l m h h2 => by simp [toPats, toPat_of h, toPats_of h2]
end

theorem asPat_iff {t p : Nd X} : toPat C t = some p ↔ AsPat C t p := ⟨asPat_of t p, toPat_of⟩

theorem toName_iff {t : Nd X} {v : String} : toName C t = some v ↔ AsPat C t (.pid v) := by
  rw [← asPat_iff]
  unfold toName
  split <;> simp_all

theorem asFirst_iff {l m : List (Nd X)} : firstParam C l = some m ↔ AsFirst C l m := by
  constructor
  · intro h
    cases l with
    | nil => simp only [firstParam, Option.some.injEq] at h; subst h; exact .nil
    | cons p l =>
      simp only [firstParam, Option.map_eq_some_iff] at h
      obtain ⟨x, hx, rfl⟩ := h
      cases p <;> simp only [toParam] at hx
      case param t o =>
        split at hx
        · cases hx
        · rename_i hne
          split at hx
          · rename_i p hp
            split at hx
            · rename_i hi
              cases hx
              exact .param _ _ _ _ hne (asPat_iff.1 hp) (hasInfo_iff.1 hi)
            · cases hx
          · cases hx
      case paramTy t o u =>
        split at hx
        · rename_i p hp
          split at hx
          · rename_i hi
            cases hx
            exact .paramTy _ _ _ _ _ (asPat_iff.1 hp) (hasInfo_iff.1 hi)
          · cases hx
        · cases hx
      all_goals cases hx
  · intro h
    cases h with
    | nil => rfl
    | param t p o l h1 h2 h3 =>
      have := asPat_iff.2 h2
      have h4 := hasInfo_iff.2 h3
      cases t <;> simp_all [firstParam, toParam]
    | paramTy t p u o l h2 h3 =>
      have := asPat_iff.2 h2
      have h4 := hasInfo_iff.2 h3
      simp_all [firstParam, toParam]

mutual
theorem asTyp_of (t : Nd X) : ∀ p, toTyp C t = some p → AsTyp C t p := by
  intro p h
  cases t with
  | obj x =>
    simp only [toTyp, Option.map_eq_some_iff] at h
    obtain ⟨y, hy, rfl⟩ := h
    exact .obj x y hy
  | tuple l =>
    simp only [toTyp, Option.map_eq_some_iff] at h
    obtain ⟨m, hm, rfl⟩ := h
    exact .tuple l m (asTyps_of l m hm)
  | _ =>
    simp only [toTyp, Option.some.injEq] at h
    subst h
    exact .other _ (by simp) (by simp)
theorem asTyps_of (l : List (Nd X)) : ∀ m, toTyps C l = some m → AsTyps C l m := by
  intro m h
  cases l with
  | nil => simp only [toTyps, Option.some.injEq] at h; subst h; exact .nil
  | cons t l =>
    simp only [toTyps] at h
    split at h
    · cases h
    · rename_i p hp
      simp only [Option.map_eq_some_iff] at h
      obtain ⟨m', hm, rfl⟩ := h
      exact .cons t p l m' (asTyp_of t p hp) (asTyps_of l m' hm)
end

mutual
theorem toTyp_of {t p : Nd X} : AsTyp C t p → toTyp C t = some p
  | .obj x y h => by simp [toTyp, h]
  | .tuple l m h => by simp [toTyp, toTyps_of h]
  | .other t h1 h2 => by cases t <;> simp_all [toTyp]
theorem toTyps_of {l m : List (Nd X)} : AsTyps C l m → toTyps C l = some m
  | .nil => rfl
  | .cons t p l m h h2 => by simp [toTyps, toTyp_of h, toTyps_of h2]
end

theorem asTyp_iff {t p : Nd X} : toTyp C t = some p ↔ AsTyp C t p := ⟨asTyp_of t p, toTyp_of⟩

end Mole.Parser.TsType
