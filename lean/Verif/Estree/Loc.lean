import Verif.Span.Model

/-! # The extremes of ranges (C53): model of ecma/estree/convert.go 298-332 -/

namespace Mole.Estree

open Mole.Span (Range)

/-- The largest `uint32`. -/
def maxU32 : Nat := 4294967295

/-- The loop variables of convert.go 299-301 and 317-319. -/
structure Best where
  k : Nat
  lo : Nat
  hi : Nat

/-- convert.go 302-311: the loop of FirstLoc from index `i`. -/
def firstLoop : List Range → Nat → Best → Best
  | [], _, b => b
  | r :: rs, i, b =>
    if r.empty then firstLoop rs (i + 1) b
    else if r.lo < b.lo || (r.lo == b.lo && decide (r.hi < b.hi)) then firstLoop rs (i + 1) ⟨i, r.lo, r.hi⟩
    else firstLoop rs (i + 1) b

/-- convert.go 298-314 (FirstLoc), the range it returns; `none` is the index panic for no arguments. -/
def firstLoc (locs : List Range) : Option Range := locs[(firstLoop locs 0 ⟨0, maxU32, maxU32⟩).k]?

/-- convert.go 320-329: the loop of LastLoc from index `i`. -/
def lastLoop : List Range → Nat → Best → Best
  | [], _, b => b
  | r :: rs, i, b =>
    if r.empty then lastLoop rs (i + 1) b
    else if r.hi > b.hi || (r.hi == b.hi && decide (r.lo > b.lo)) then lastLoop rs (i + 1) ⟨i, r.lo, r.hi⟩
    else lastLoop rs (i + 1) b

/-- convert.go 316-332 (LastLoc), the range it returns. -/
def lastLoc (locs : List Range) : Option Range := locs[(lastLoop locs 0 ⟨0, 0, 0⟩).k]?

/-! ## Specification -/

/-- `a` starts before `b`, or at the same place and does not end after it. -/
def Starts (a b : Range) : Prop := a.lo < b.lo ∨ (a.lo = b.lo ∧ a.hi ≤ b.hi)

/-- `a` ends after `b`, or at the same place and does not start before it. -/
def Ends (a b : Range) : Prop := a.hi > b.hi ∨ (a.hi = b.hi ∧ a.lo ≥ b.lo)

/-- The zero value of a range, which stands for something absent from the source. -/
def Absent (r : Range) : Prop := r.lo = 0 ∧ r.hi = 0

/-- `r` is the first, by `before`, of the ranges that are not absent. -/
def Extreme (before : Range → Range → Prop) (locs : List Range) (r : Range) : Prop :=
  r ∈ locs ∧ ¬Absent r ∧ ∀ x ∈ locs, ¬Absent x → before r x

/-! ## Proofs -/

theorem empty_true (r : Range) : r.empty = true ↔ Absent r := by simp [Mole.Span.Range.empty, Absent]

theorem empty_false (r : Range) : r.empty = false ↔ ¬Absent r := by
  rw [← empty_true]; cases r.empty <;> simp

/-- `Extreme` in terms of the model. -/
def ExtremeE (before : Range → Range → Prop) (locs : List Range) (r : Range) : Prop :=
  r ∈ locs ∧ r.empty = false ∧ ∀ x ∈ locs, x.empty = false → before r x

theorem extreme_iff (before : Range → Range → Prop) (locs : List Range) (r : Range) :
    ExtremeE before locs r ↔ Extreme before locs r := by
  simp only [ExtremeE, Extreme, empty_false]

theorem firstLoop_spec (all : List Range) : ∀ (rs pre : List Range) (b : Best), all = pre ++ rs →
    (((∀ x ∈ pre, x.empty = true) ∧ b.k = 0 ∧ b.lo = maxU32 ∧ b.hi = maxU32) ∨
      ∃ r, all[b.k]? = some r ∧ r.lo = b.lo ∧ r.hi = b.hi ∧ ExtremeE Starts pre r) →
    (∀ x ∈ all, x.empty = false → x.lo < maxU32) →
    ((∀ x ∈ all, x.empty = true) ∧ (firstLoop rs pre.length b).k = 0) ∨
      ∃ r, all[(firstLoop rs pre.length b).k]? = some r ∧ ExtremeE Starts all r := by
  intro rs
  induction rs with
  | nil =>
    intro pre b hall hb _
    simp only [List.append_nil] at hall
    subst hall
    rcases hb with ⟨h1, h2, _⟩ | ⟨r, h1, _, _, h4⟩
    · exact .inl ⟨h1, h2⟩
    · exact .inr ⟨r, h1, h4⟩
  | cons r rs ih =>
    intro pre b hall hb hmax
    have hall' : all = (pre ++ [r]) ++ rs := by simp [hall]
    have hlen : (pre ++ [r]).length = pre.length + 1 := by simp
    have hget : all[pre.length]? = some r := by rw [hall]; simp
    have next := fun b' hb' => ih (pre ++ [r]) b' hall' hb' hmax
    rw [hlen] at next
    have hmem : ∀ x ∈ pre ++ [r], x ∈ pre ∨ x = r := by simp
    cases he : r.empty with
    | true =>
      simp only [firstLoop, he, if_true]
      apply next
      rcases hb with ⟨h1, h2⟩ | ⟨q, h1, h2, h3, h4, h5, h6⟩
      · left
        refine ⟨fun x hx => ?_, h2⟩
        rcases hmem x hx with h | rfl
        · exact h1 x h
        · exact he
      · right
        refine ⟨q, h1, h2, h3, List.mem_append_left _ h4, h5, fun x hx hxe => ?_⟩
        rcases hmem x hx with h | rfl
        · exact h6 x h hxe
        · rw [he] at hxe; cases hxe
    | false =>
      by_cases hc : r.lo < b.lo ∨ (r.lo = b.lo ∧ r.hi < b.hi)
      · have hc' : (decide (r.lo < b.lo) || (r.lo == b.lo && decide (r.hi < b.hi))) = true := by simpa using hc
        simp only [firstLoop, he, Bool.false_eq_true, if_false, if_pos hc']
        apply next
        right
        refine ⟨r, hget, rfl, rfl, by simp, he, fun x hx hxe => ?_⟩
        rcases hmem x hx with h | rfl
        · rcases hb with ⟨h1, _⟩ | ⟨q, _, h2, h3, _, _, h6⟩
          · rw [h1 x h] at hxe; cases hxe
          · have := h6 x h hxe
            simp only [Starts] at this ⊢
            omega
        · simp [Starts]
      · have hc' : ¬ (decide (r.lo < b.lo) || (r.lo == b.lo && decide (r.hi < b.hi))) = true := by simpa using hc
        simp only [firstLoop, he, Bool.false_eq_true, if_false, if_neg hc']
        apply next
        rcases hb with ⟨h1, h2, h3, h4⟩ | ⟨q, h1, h2, h3, h4, h5, h6⟩
        · exfalso
          have := hmax r (by rw [hall]; simp) he
          omega
        · right
          refine ⟨q, h1, h2, h3, List.mem_append_left _ h4, h5, fun x hx hxe => ?_⟩
          rcases hmem x hx with h | rfl
          · exact h6 x h hxe
          · simp only [Starts]; omega

theorem lastLoop_spec (all : List Range) : ∀ (rs pre : List Range) (b : Best), all = pre ++ rs →
    (((∀ x ∈ pre, x.empty = true) ∧ b.k = 0 ∧ b.lo = 0 ∧ b.hi = 0) ∨
      ∃ r, all[b.k]? = some r ∧ r.lo = b.lo ∧ r.hi = b.hi ∧ ExtremeE Ends pre r) →
    (∀ x ∈ all, x.lo ≤ x.hi) →
    ((∀ x ∈ all, x.empty = true) ∧ (lastLoop rs pre.length b).k = 0) ∨
      ∃ r, all[(lastLoop rs pre.length b).k]? = some r ∧ ExtremeE Ends all r := by
  intro rs
  induction rs with
  | nil =>
    intro pre b hall hb _
    simp only [List.append_nil] at hall
    subst hall
    rcases hb with ⟨h1, h2, _⟩ | ⟨r, h1, _, _, h4⟩
    · exact .inl ⟨h1, h2⟩
    · exact .inr ⟨r, h1, h4⟩
  | cons r rs ih =>
    intro pre b hall hb hmax
    have hall' : all = (pre ++ [r]) ++ rs := by simp [hall]
    have hlen : (pre ++ [r]).length = pre.length + 1 := by simp
    have hget : all[pre.length]? = some r := by rw [hall]; simp
    have next := fun b' hb' => ih (pre ++ [r]) b' hall' hb' hmax
    rw [hlen] at next
    have hmem : ∀ x ∈ pre ++ [r], x ∈ pre ∨ x = r := by simp
    cases he : r.empty with
    | true =>
      simp only [lastLoop, he, if_true]
      apply next
      rcases hb with ⟨h1, h2⟩ | ⟨q, h1, h2, h3, h4, h5, h6⟩
      · left
        refine ⟨fun x hx => ?_, h2⟩
        rcases hmem x hx with h | rfl
        · exact h1 x h
        · exact he
      · right
        refine ⟨q, h1, h2, h3, List.mem_append_left _ h4, h5, fun x hx hxe => ?_⟩
        rcases hmem x hx with h | rfl
        · exact h6 x h hxe
        · rw [he] at hxe; cases hxe
    | false =>
      by_cases hc : r.hi > b.hi ∨ (r.hi = b.hi ∧ r.lo > b.lo)
      · have hc' : (decide (r.hi > b.hi) || (r.hi == b.hi && decide (r.lo > b.lo))) = true := by simpa using hc
        simp only [lastLoop, he, Bool.false_eq_true, if_false, if_pos hc']
        apply next
        right
        refine ⟨r, hget, rfl, rfl, by simp, he, fun x hx hxe => ?_⟩
        rcases hmem x hx with h | rfl
        · rcases hb with ⟨h1, _⟩ | ⟨q, _, h2, h3, _, _, h6⟩
          · rw [h1 x h] at hxe; cases hxe
          · have := h6 x h hxe
            simp only [Ends] at this ⊢
            omega
        · simp [Ends]
      · have hc' : ¬ (decide (r.hi > b.hi) || (r.hi == b.hi && decide (r.lo > b.lo))) = true := by simpa using hc
        simp only [lastLoop, he, Bool.false_eq_true, if_false, if_neg hc']
        apply next
        rcases hb with ⟨h1, h2, h3, h4⟩ | ⟨q, h1, h2, h3, h4, h5, h6⟩
        · exfalso
          have hv := hmax r (by rw [hall]; simp)
          simp only [Mole.Span.Range.empty, Bool.and_eq_false_iff, beq_eq_false_iff_ne] at he
          omega
        · right
          refine ⟨q, h1, h2, h3, List.mem_append_left _ h4, h5, fun x hx hxe => ?_⟩
          rcases hmem x hx with h | rfl
          · exact h6 x h hxe
          · simp only [Ends]; omega

theorem starts_anti {a b : Range} (h1 : Starts a b) (h2 : Starts b a) : a = b := by
  obtain ⟨al, ah⟩ := a; obtain ⟨bl, bh⟩ := b
  simp only [Starts, Mole.Span.Range.mk.injEq] at *; omega

theorem ends_anti {a b : Range} (h1 : Ends a b) (h2 : Ends b a) : a = b := by
  obtain ⟨al, ah⟩ := a; obtain ⟨bl, bh⟩ := b
  simp only [Ends, Mole.Span.Range.mk.injEq] at *; omega

/-! ## Properties -/

/-- **C53, first** (partial: for ranges that start before the largest offset, see `first_max_violated`).  Of ranges not all of
which are empty, FirstLoc returns the one that starts first (of those, the one that ends first). -/
theorem first_extreme_partial (locs : List Range) (hm : ∀ x ∈ locs, ¬Absent x → x.lo < maxU32)
    (hne : ∃ x ∈ locs, ¬Absent x) : ∃ r, firstLoc locs = some r ∧ Extreme Starts locs r := by
  rcases firstLoop_spec locs locs [] ⟨0, maxU32, maxU32⟩ rfl (.inl ⟨by simp, rfl, rfl, rfl⟩)
    (fun x hx he => hm x hx ((empty_false x).mp he)) with ⟨h, _⟩ | ⟨r, h1, h2⟩
  · obtain ⟨x, hx, he⟩ := hne
    exact absurd ((empty_true x).mp (h x hx)) he
  · exact ⟨r, h1, (extreme_iff _ _ _).mp h2⟩

/-- **C53, last**.  Of ranges that do not end before they start and not all of which are empty, LastLoc returns the one that
ends last (of those, the one that starts last). -/
theorem last_extreme (locs : List Range) (hv : ∀ x ∈ locs, x.lo ≤ x.hi) (hne : ∃ x ∈ locs, ¬Absent x) :
    ∃ r, lastLoc locs = some r ∧ Extreme Ends locs r := by
  rcases lastLoop_spec locs locs [] ⟨0, 0, 0⟩ rfl (.inl ⟨by simp, rfl, rfl, rfl⟩) hv with ⟨h, _⟩ | ⟨r, h1, h2⟩
  · obtain ⟨x, hx, he⟩ := hne
    exact absurd ((empty_true x).mp (h x hx)) he
  · exact ⟨r, h1, (extreme_iff _ _ _).mp h2⟩

/-- **C53, order of arguments**.  The results do not depend on it. -/
theorem first_perm (a b : List Range) (hp : a.Perm b) (hm : ∀ x ∈ a, ¬Absent x → x.lo < maxU32)
    (hne : ∃ x ∈ a, ¬Absent x) : firstLoc a = firstLoc b := by
  obtain ⟨r, h1, h2, h3, h4⟩ := first_extreme_partial a hm hne
  obtain ⟨q, g1, g2, g3, g4⟩ := first_extreme_partial b (fun x hx => hm x (hp.mem_iff.mpr hx))
    (hne.imp fun x hx => ⟨hp.mem_iff.mp hx.1, hx.2⟩)
  rw [h1, g1, starts_anti (h4 q (hp.mem_iff.mpr g2) g3) (g4 r (hp.mem_iff.mp h2) h3)]

theorem last_perm (a b : List Range) (hp : a.Perm b) (hv : ∀ x ∈ a, x.lo ≤ x.hi) (hne : ∃ x ∈ a, ¬Absent x) :
    lastLoc a = lastLoc b := by
  obtain ⟨r, h1, h2, h3, h4⟩ := last_extreme a hv hne
  obtain ⟨q, g1, g2, g3, g4⟩ := last_extreme b (fun x hx => hv x (hp.mem_iff.mpr hx))
    (hne.imp fun x hx => ⟨hp.mem_iff.mp hx.1, hx.2⟩)
  rw [h1, g1, ends_anti (h4 q (hp.mem_iff.mpr g2) g3) (g4 r (hp.mem_iff.mp h2) h3)]

/-- If all are empty, the first argument is returned. -/
theorem all_empty (r : Range) (rs : List Range) (h : ∀ x ∈ r :: rs, Absent x) : firstLoc (r :: rs) = some r ∧ lastLoc (r :: rs) = some r := by
  constructor
  · rcases firstLoop_spec (r :: rs) (r :: rs) [] ⟨0, maxU32, maxU32⟩ rfl (.inl ⟨by simp, rfl, rfl, rfl⟩)
      (fun x hx he => absurd (h x hx) ((empty_false x).mp he)) with ⟨_, h2⟩ | ⟨q, _, h2, h3, _⟩
    · rw [firstLoc]; rw [List.length_nil] at h2; rw [h2]; rfl
    · exact absurd (h q h2) ((empty_false q).mp h3)
  · rcases lastLoop_spec (r :: rs) (r :: rs) [] ⟨0, 0, 0⟩ rfl (.inl ⟨by simp, rfl, rfl, rfl⟩)
      (fun x hx => by have := h x hx; simp only [Absent] at this; omega) with ⟨_, h2⟩ | ⟨q, _, h2, h3, _⟩
    · rw [lastLoc]; rw [List.length_nil] at h2; rw [h2]; rfl
    · exact absurd (h q h2) ((empty_false q).mp h3)

example : firstLoc [⟨0, 0⟩, ⟨5, 9⟩, ⟨3, 7⟩, ⟨3, 4⟩] = some ⟨3, 4⟩ ∧ lastLoc [⟨0, 0⟩, ⟨5, 9⟩, ⟨3, 9⟩, ⟨3, 4⟩] = some ⟨5, 9⟩ := by decide

/-- **C53 is violated** by a range at the largest offset, which is passed over for an empty one. -/
theorem first_max_violated : firstLoc [⟨0, 0⟩, ⟨maxU32, maxU32⟩] = some ⟨0, 0⟩ := by decide

end Mole.Estree
