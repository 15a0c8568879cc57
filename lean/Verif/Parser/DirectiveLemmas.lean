import Verif.Parser.DirectiveSpec

namespace Mole.Parser.Directive

open Spec

/-- The text is `use strict`. -/
def us (s : St) : Bool := (isDirective s).1

theorem us_iff (s : St) : us s = true ↔ useStrict s := by
  cases s with
  | other lo => simp [us, isDirective, useStrict]
  | str raw lo =>
    simp only [us, isDirective, useStrict, St.str.injEq]
    by_cases h1 : raw = "\"use strict\""
    · simp [h1]
    · by_cases h2 : raw = "'use strict'"
      · simp [h2]
      · simp [h1, h2]

theorem isDirective_eq (s : St) : isDirective s = (us s, isStr s) := by
  cases s with
  | other lo => rfl
  | str raw lo => simp only [us, isDirective, isStr]; split <;> rfl

theorem us_isStr {s : St} (h : us s = true) : isStr s = true := by
  cases s with
  | other lo => simp [us, isDirective] at h
  | str _ _ => rfl

theorem lo_iff (s : St) : s.lo = true ↔ octal s := by cases s <;> rfl

/-! ## Blocks -/

theorem loop_block (p : List St) (s : S) : loop false s p =
    if s.strict && p.any St.lo then none else some ⟨s.strict, s.prologue, s.done ++ p.map fun x => (x, false)⟩ := by
  induction p generalizing s with
  | nil => simp [loop]
  | cons st r ih =>
    simp only [loop, turn, Bool.and_false, Bool.false_eq_true, if_false]
    cases h1 : s.strict && st.lo with
    | true =>
      simp only [if_true, List.any_cons]
      have : (s.strict && (st.lo || r.any St.lo)) = true := by
        simp only [Bool.and_eq_true] at h1; simp [h1.1, h1.2]
      simp [this]
    | false =>
      simp only [Bool.false_eq_true, if_false, ih, List.any_cons, List.map_cons]
      have : (s.strict && (st.lo || r.any St.lo)) = (s.strict && r.any St.lo) := by
        cases hs : s.strict <;> cases hl : st.lo <;> simp_all
      rw [this]; simp

/-! ## After the prologue is over for good -/

theorem loop_over (p : List St) (s : S) (h : s.prologue = -1) : loop true s p =
    if s.strict && p.any St.lo then none else some ⟨s.strict, -1, s.done ++ p.map fun x => (x, false)⟩ := by
  induction p generalizing s with
  | nil => simp [loop, ← h]
  | cons st r ih =>
    have e : (s.prologue != -1) = false := by simp [h]
    simp only [loop, turn, e, Bool.false_and, Bool.false_eq_true, if_false]
    cases h1 : s.strict && st.lo with
    | true =>
      simp only [if_true, List.any_cons]
      have : (s.strict && (st.lo || r.any St.lo)) = true := by
        simp only [Bool.and_eq_true] at h1; simp [h1.1, h1.2]
      simp [this]
    | false =>
      simp only [Bool.false_eq_true, if_false]
      rw [ih ⟨s.strict, s.prologue, s.done ++ [(st, false)]⟩ h]
      simp only [List.any_cons, List.map_cons]
      have : (s.strict && (st.lo || r.any St.lo)) = (s.strict && r.any St.lo) := by
        cases hs : s.strict <;> cases hl : st.lo <;> simp_all
      rw [this]; simp

/-! ## Statements which are no strings, the counter being positive or zero -/

theorem loop_others (p : List St) (s : S) (hp : ∀ x ∈ p, isStr x = false) : ∃ q, loop true s p =
    if s.strict && p.any St.lo then none else some ⟨s.strict, q, s.done ++ p.map fun x => (x, false)⟩ := by
  induction p generalizing s with
  | nil => exact ⟨s.prologue, by simp [loop]⟩
  | cons st r ih =>
    have h0 : isStr st = false := hp st (by simp)
    have hu : us st = false := by cases h : us st <;> simp_all [us_isStr]
    have hb : (s.strict && (st.lo || r.any St.lo)) = ((s.strict && st.lo) || (s.strict && r.any St.lo)) := by
      cases s.strict <;> simp
    simp only [loop, turn, isDirective_eq, h0, hu, List.any_cons, hb]
    cases h1 : s.strict && st.lo with
    | true => exact ⟨0, by simp⟩
    | false =>
      simp only [Bool.false_eq_true, if_false, Bool.false_and, Bool.false_or, Bool.or_false]
      cases hn : s.prologue != -1 with
      | true =>
        obtain ⟨q, hq⟩ := ih ⟨s.strict, if s.prologue == 0 then -1 else s.prologue, s.done ++ [(st, false)]⟩
          (fun x hx => hp x (by simp [hx]))
        exact ⟨q, by simp only [Bool.and_true, if_true, Bool.not_false]; rw [hq]; simp⟩
      | false =>
        obtain ⟨q, hq⟩ := ih ⟨s.strict, s.prologue, s.done ++ [(st, false)]⟩ (fun x hx => hp x (by simp [hx]))
        exact ⟨q, by simp only [Bool.false_and, Bool.false_eq_true, if_false]; rw [hq]; simp⟩

/-! ## The prologue -/

theorem loop_prologue (ds : List St) (s : S) (hd : ∀ x ∈ ds, isStr x = true) (hw : ∀ x ∈ ds, us x = true → x.lo = false)
    (h0 : s.prologue ≥ 0) (h1 : s.strict = true → s.done.any (fun x => loStr x.1) = false)
    (h2 : s.strict = false → s.prologue = s.done.length) : ∃ q, q ≥ 0 ∧ (s.done ++ ds.map (fun x => (x, true)) = [] → q = s.prologue) ∧
    loop true s ds = if (s.strict || ds.any us) && (s.done.any (fun x => loStr x.1) || ds.any St.lo) then none
      else some ⟨s.strict || ds.any us, q, s.done ++ ds.map fun x => (x, true)⟩ := by
  induction ds generalizing s with
  | nil =>
    refine ⟨s.prologue, h0, fun _ => rfl, ?_⟩
    cases hs : s.strict with
    | false => rw [← hs]; simp [loop, hs]; simp [← hs]
    | true => rw [h1 hs]; simp [loop, ← hs]
  | cons d r ih =>
    have hds : isStr d = true := hd d (by simp)
    have hlo : loStr d = d.lo := by cases d <;> simp_all [loStr, St.lo, isStr]
    have hne : (s.prologue != -1) = true := by simp; omega
    simp only [loop, turn, isDirective_eq, hds, hne, Bool.true_and, Bool.not_true, Bool.false_eq_true, if_false, if_true]
    cases hc : s.strict && d.lo with
    | true =>
      simp only [if_true]
      simp only [Bool.and_eq_true] at hc
      exact ⟨0, by omega, by simp, by simp [hc.1, hc.2]⟩
    | false =>
      simp only [Bool.false_eq_true, if_false]
      by_cases hchk : (us d && decide (s.prologue > 0) && (s.done.take s.prologue.toNat).any (fun x => loStr x.1)) = true
      · simp only [hchk, if_true]
        simp only [Bool.and_eq_true, List.any_eq_true] at hchk
        obtain ⟨⟨hu, _⟩, x, hx, hxl⟩ := hchk
        have : s.done.any (fun x => loStr x.1) = true := List.any_eq_true.mpr ⟨x, List.mem_of_mem_take hx, hxl⟩
        exact ⟨0, by omega, by simp, by simp [hu, this]⟩
      · simp only [hchk, if_false]
        obtain ⟨q, hq0, _, hq⟩ := ih
          ⟨s.strict || us d, (if (us d && decide (s.prologue > 0)) = true then -1 else s.prologue) + 1, s.done ++ [(d, true)]⟩
          (fun x hx => hd x (by simp [hx])) (fun x hx => hw x (by simp [hx]))
          (by simp only; split <;> omega)
          (by
            intro hs
            simp only [List.any_append, List.any_cons, List.any_nil, Bool.or_false, hlo, Bool.or_eq_false_iff]
            simp only [Bool.or_eq_true] at hs
            cases hst : s.strict with
            | true => exact ⟨h1 hst, by simpa [hst] using hc⟩
            | false =>
              have hu : us d = true := by simpa [hst] using hs
              refine ⟨?_, hw d (by simp) hu⟩
              have hl := h2 hst
              simp only [hu, Bool.true_and] at hchk
              by_cases hpos : s.prologue > 0
              · have ht : s.prologue.toNat = s.done.length := by omega
                rw [ht, List.take_length] at hchk
                simp only [hpos, decide_true, Bool.true_and] at hchk
                exact Bool.eq_false_iff.mpr hchk
              · have : s.done.length = 0 := by omega
                rw [List.eq_nil_of_length_eq_zero this]; rfl)
          (by
            intro hs
            simp only [Bool.or_eq_false_iff] at hs
            have := h2 hs.1
            simp [hs.2, this])
        refine ⟨q, hq0, by simp, ?_⟩
        simp only [Bool.false_eq_true, if_false]
        rw [hq]
        simp only [List.any_cons, List.any_append, List.any_nil, List.map_cons, List.append_assoc, List.singleton_append,
          Bool.or_false, Bool.or_assoc, hlo]

/-! ## Strict from the first string on -/

theorem turn_strict {s s1 : S} {d : St} (h : s.strict = true ∨ s.prologue > 0) (ht : turn true s d = some s1) :
    s1.strict = (s.strict || us d) ∨ (s.strict = true ∧ s1.strict = true) := by
  simp only [turn, isDirective_eq] at ht
  generalize (if (!isStr d) = true then if (s.prologue == 0) = true then -1 else s.prologue else s.prologue) = p1 at ht
  by_cases h1 : (s.strict && d.lo) = true
  · rw [if_pos h1] at ht; cases ht
  · rw [if_neg h1] at ht
    by_cases h2 : (s.prologue != -1 && true) = true
    · rw [if_pos h2] at ht
      by_cases h3 : (us d && decide (p1 > 0) && (s.done.take p1.toNat).any (fun x => loStr x.1)) = true
      · rw [if_pos h3] at ht; cases ht
      · rw [if_neg h3, Option.some.injEq] at ht; subst ht; exact .inl rfl
    · rw [if_neg h2, Option.some.injEq] at ht; subst ht
      rcases h with h | h
      · exact .inr ⟨h, h⟩
      · exact absurd (by simp; omega) h2

theorem turn_pos {s s1 : S} {d : St} (h : s.strict = true ∨ s.prologue > 0) (ht : turn true s d = some s1) :
    s1.strict = true ∨ s1.prologue > 0 := by
  cases hst : s1.strict with
  | true => exact .inl rfl
  | false =>
    right
    have hp : s.strict = false ∧ us d = false := by
      rcases turn_strict h ht with k | ⟨_, k⟩
      · rw [hst] at k; simpa using k.symm
      · rw [hst] at k; cases k
    have hpos : s.prologue > 0 := by
      rcases h with h | h
      · rw [hp.1] at h; cases h
      · exact h
    have h0 : (s.prologue == 0) = false := by simp; omega
    have h1 : (s.prologue != -1) = true := by simp; omega
    simp only [turn, isDirective_eq, hp.1, hp.2, h0, h1, Bool.false_and, Bool.false_eq_true, if_false, Bool.and_true, if_true,
      Option.some.injEq] at ht
    subst ht
    simp only
    cases isStr d <;> simp <;> omega

theorem loop_strict (p : List St) (s : S) (h : s.strict = true ∨ s.prologue > 0) (s' : S) (hs : loop true s p = some s') :
    s'.strict = (s.strict || p.any us) := by
  induction p generalizing s with
  | nil => simp only [loop, Option.some.injEq] at hs; subst hs; simp
  | cons d r ih =>
    simp only [loop] at hs
    cases ht : turn true s d with
    | none => rw [ht] at hs; cases hs
    | some s1 =>
      rw [ht] at hs
      rw [ih s1 (turn_pos h ht) hs, List.any_cons]
      rcases turn_strict h ht with k | ⟨k1, k2⟩
      · rw [k, Bool.or_assoc]
      · rw [k1, k2]; simp

theorem loop_append (top : Bool) (s : S) (p q : List St) : loop top s (p ++ q) = (loop top s p).bind fun s1 => loop top s1 q := by
  induction p generalizing s with
  | nil => rfl
  | cons d r ih =>
    simp only [List.cons_append, loop]
    cases turn top s d with
    | none => rfl
    | some s1 => exact ih s1

theorem any_lo (p : List St) : p.any St.lo = true ↔ ∃ s ∈ p, octal s := by
  simp only [List.any_eq_true, lo_iff]

theorem any_us (p : List St) : p.any us = true ↔ ∃ s ∈ p, useStrict s := by
  simp only [List.any_eq_true, us_iff]

theorem prologue_isStr (p : List St) : ∀ x ∈ prologue p, isStr x = true := by
  unfold prologue
  induction p with
  | nil => simp
  | cons a r ih =>
    intro x hx
    simp only [List.takeWhile_cons] at hx
    split at hx
    · rename_i h
      rcases List.mem_cons.mp hx with rfl | hx
      · exact h
      · exact ih x hx
    · simp at hx

theorem split_prologue (p : List St) : ∃ rest, p = prologue p ++ rest ∧ (∀ b c, rest = b :: c → isStr b = false) := by
  refine ⟨p.dropWhile isStr, (List.takeWhile_append_dropWhile).symm, ?_⟩
  induction p with
  | nil => simp
  | cons a r ih =>
    intro b c h
    simp only [List.dropWhile_cons] at h
    split at h
    · exact ih b c h
    · rename_i hn
      simp only [List.cons.injEq] at h
      rw [← h.1]; simpa using hn

theorem map_flag (p : List St) (b : Bool) : (p.map fun x => (x, b)).map (·.2) = List.replicate p.length b := by
  induction p with
  | nil => rfl
  | cons _ _ ih => simpa [List.replicate_succ] using ih

end Mole.Parser.Directive
