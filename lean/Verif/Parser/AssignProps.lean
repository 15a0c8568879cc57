import Verif.Parser.ExprProps
/-!
# C29: assignment and conditional expressions group to the right
-/
namespace Mole.Parser
open Spec

namespace Spec

/-- A tree of operands and binary operators only. -/
def Flat : Tree → Prop
  | .leaf _ => True
  | .bin _ l r => Flat l ∧ Flat r
  | _ => False

/-- ECMA-262 13.14 and 13.15: a conditional has a binary expression as its test and assignment
expressions as its branches; an assignment has a binary expression on the left and an assignment
expression on the right.  So a conditional or assignment never stands left of `?` or `=`. -/
def Shape : Tree → Prop
  | .cond t c a => Flat t ∧ Shape c ∧ Shape a
  | .assign _ l r => Flat l ∧ Shape r
  | t => Flat t

/-- Every left side is a valid target. -/
def TargetsOk : Tree → Prop
  | .cond _ c a => TargetsOk c ∧ TargetsOk a
  | .assign p (.leaf o) r => (if p then o.target else o.opTarget) = true ∧ TargetsOk r
  | .assign _ _ _ => False
  | _ => True

/-- The tokens do not continue an assignment expression. -/
def Ends (C : ExprCfg) (s : List Tok) : Prop :=
  NoOp C s ∧ (∀ t, s ≠ .hook :: t) ∧ ∀ p t, s ≠ .assign p :: t

end Spec

theorem yield_pos (t : Tree) : 0 < (yield t).length := by
  cases t <;> simp [yield] <;> omega

theorem binExpr_flat {C : ExprCfg} {s : List Tok} {t : Tree} {rest : List Tok}
    (h : binExpr C s = some (.ok (t, rest))) : Flat t := by
  have key : ∀ n, (∀ (fuel : Nat) (lhs : Tree) (min : Nat) (lg nl : Bool) (s : List Tok) (t : Tree) (rest : List Tok), fuel ≤ n → Flat lhs →
      binLoop C fuel lhs min lg nl s = some (.ok (t, rest)) → Flat t) ∧
      (∀ (fuel : Nat) (pcd : Nat) (rhs : Tree) (lg nl : Bool) (s : List Tok) (t : Tree) (rest : List Tok), fuel ≤ n → Flat rhs →
      innerLoop C fuel pcd rhs lg nl s = some (.ok (t, rest)) → Flat t) := by
    intro n
    induction n with
    | zero =>
      refine ⟨?_, ?_⟩
      · intro fuel lhs min lg nl s t rest hf hl h
        obtain rfl : fuel = 0 := by omega
        simp [binLoop] at h
      · intro fuel lhs min lg nl s t hf hl rest h
        obtain rfl : fuel = 0 := by omega
        simp [innerLoop] at h
    | succ n ih =>
      refine ⟨?_, ?_⟩
      · intro fuel lhs min lg nl s t rest hf hl h
        cases fuel with
        | zero => simp [binLoop] at h
        | succ fuel =>
          rw [binLoop] at h
          split at h
          · simp only [Option.some.injEq, Except.ok.injEq, Prod.mk.injEq] at h
            rw [← h.1]; exact hl
          · split at h
            · simp only [Option.some.injEq, Except.ok.injEq, Prod.mk.injEq] at h
              rw [← h.1]; exact hl
            · split at h
              · cases h
              · split at h
                · cases h
                · split at h
                  · split at h
                    · cases h
                    · cases h
                    · rename_i hi
                      split at h
                      · cases h
                      · split at h
                        · cases h
                        · refine ih.1 _ _ _ _ _ _ _ _ (by omega) ?_ h
                          exact ⟨hl, ih.2 _ _ _ _ _ _ _ _ (by omega) (show Flat (.leaf _) from trivial) hi⟩
                  · cases h
      · intro fuel pcd rhs lg nl s t rest hf hl h
        cases fuel with
        | zero => simp [innerLoop] at h
        | succ fuel =>
          rw [innerLoop] at h
          split at h
          · simp only [Option.some.injEq, Except.ok.injEq, Prod.mk.injEq] at h
            rw [← h.1]; exact hl
          · split at h
            · split at h
              · cases h
              · cases h
              · rename_i hi
                exact ih.2 _ _ _ _ _ _ _ _ (by omega) (ih.1 _ _ _ _ _ _ _ _ (by omega) hl hi) h
            · simp only [Option.some.injEq, Except.ok.injEq, Prod.mk.injEq] at h
              rw [← h.1]; exact hl
  unfold binExpr at h
  split at h
  · exact (key _).1 _ _ _ _ _ _ _ _ (Nat.le_refl _) (show Flat (.leaf _) from trivial) h
  · cases h

theorem Spec.Flat.shape {t : Tree} (h : Flat t) : Shape t := by
  cases t <;> first | exact h | cases h

theorem Spec.Flat.targets {t : Tree} (h : Flat t) : TargetsOk t := by
  cases t <;> first | trivial | cases h

theorem isTarget_ok {p : Bool} {l r : Tree} (h : l.isTarget p = true) (hr : TargetsOk r) :
    TargetsOk (.assign p l r) := by
  cases l <;> simp_all [Tree.isTarget, TargetsOk]

/-- What a successful run of `condExpr` or `assignExpr` returns. -/
theorem parses_shape (C : ExprCfg) : ∀ (fuel : Nat),
    (∀ s t rest, condExpr C fuel s = some (.ok (t, rest)) →
      s = yield t ++ rest ∧ Shape t ∧ TargetsOk t ∧ NoOp C rest ∧ (∀ u, rest ≠ .hook :: u) ∧
        ((∀ p u, rest ≠ .assign p :: u) ∨ Flat t)) ∧
    (∀ s t rest, assignExpr C fuel s = some (.ok (t, rest)) →
      s = yield t ++ rest ∧ Shape t ∧ TargetsOk t ∧ Ends C rest) := by
  intro fuel
  induction fuel with
  | zero => exact ⟨by simp [condExpr], by simp [assignExpr]⟩
  | succ fuel ih =>
    refine ⟨?_, ?_⟩
    · intro s t rest h
      rw [condExpr] at h
      split at h
      · cases h
      · cases h
      · rename_i test s1 hb
        obtain ⟨hy, -⟩ := binExpr_yield C _ _ _ hb
        have hf := binExpr_flat hb
        split at h
        · cases h
        · cases h
        · rename_i cons s2 ha
          obtain ⟨hy1, hs1, ht1, -⟩ := ih.2 _ _ _ ha
          split at h
          · cases h
          · cases h
          · rename_i alt s3 ha2
            obtain ⟨hy2, hs2, ht2, he2⟩ := ih.2 _ _ _ ha2
            simp only [Option.some.injEq, Except.ok.injEq, Prod.mk.injEq] at h
            obtain ⟨rfl, rfl⟩ := h
            refine ⟨?_, ⟨hf, hs1, hs2⟩, ⟨ht1, ht2⟩, he2.1, he2.2.1, .inl he2.2.2⟩
            rw [hy, hy1, hy2]
            simp [yield]
        · cases h
      · rename_i r hne hb
        obtain ⟨t', rest'⟩ := r
        simp only [Option.some.injEq, Except.ok.injEq, Prod.mk.injEq] at h
        obtain ⟨rfl, rfl⟩ := h
        obtain ⟨hy, hn, -⟩ := binExpr_yield C _ _ _ hb
        have hf := binExpr_flat hb
        refine ⟨hy, hf.shape, hf.targets, hn, ?_, .inr hf⟩
        rintro u rfl
        exact hne _ _ rfl
    · intro s t rest h
      rw [assignExpr] at h
      split at h
      · cases h
      · cases h
      · rename_i lhs p s1 hc
        obtain ⟨hy, hs, ht, hn, hh, hx⟩ := ih.1 _ _ _ hc
        have hf : Flat lhs := by
          rcases hx with hx | hx
          · exact absurd rfl (hx _ _)
          · exact hx
        split at h
        · cases h
        · cases h
        · rename_i rhs s2 ha
          obtain ⟨hy1, hs1, ht1, he1⟩ := ih.2 _ _ _ ha
          split at h
          · rename_i htar
            simp only [Option.some.injEq, Except.ok.injEq, Prod.mk.injEq] at h
            obtain ⟨rfl, rfl⟩ := h
            refine ⟨?_, ⟨hf, hs1⟩, isTarget_ok htar ht1, he1⟩
            rw [hy, hy1]
            simp [yield]
          · cases h
      · rename_i r hne hc
        obtain ⟨t', rest'⟩ := r
        simp only [Option.some.injEq, Except.ok.injEq, Prod.mk.injEq] at h
        obtain ⟨rfl, rfl⟩ := h
        obtain ⟨hy, hs, ht, hn, hh, hx⟩ := ih.1 _ _ _ hc
        refine ⟨hy, hs, ht, hn, hh, ?_⟩
        rintro p u rfl
        exact hne _ _ _ rfl

theorem assign_total (C : ExprCfg) : ∀ (n : Nat) (s : List Tok), s.length ≤ n → ∀ fuel,
    (2 * n + 1 ≤ fuel → ∃ r, condExpr C fuel s = some r) ∧
    (2 * n + 2 ≤ fuel → ∃ r, assignExpr C fuel s = some r) := by
  intro n
  induction n with
  | zero =>
    intro s hs
    have hc : ∀ fuel, 1 ≤ fuel → ∃ e, condExpr C fuel s = some (.error e) := by
      intro fuel hf
      cases fuel with
      | zero => omega
      | succ fuel =>
        have : s = [] := List.length_eq_zero_iff.1 (by omega)
        subst this
        exact ⟨.unexpected, by simp [condExpr, binExpr]⟩
    intro fuel
    refine ⟨fun hf => ?_, fun hf => ?_⟩
    · obtain ⟨e, he⟩ := hc fuel (by omega)
      exact ⟨_, he⟩
    · cases fuel with
      | zero => omega
      | succ fuel =>
        obtain ⟨e, he⟩ := hc fuel (by omega)
        exact ⟨.error e, by rw [assignExpr, he]⟩
  | succ n ih =>
    intro s hs
    have hc : ∀ fuel, 2 * (n + 1) + 1 ≤ fuel → ∃ r, condExpr C fuel s = some r := by
      intro fuel hf
      cases fuel with
      | zero => omega
      | succ fuel =>
        rw [condExpr]
        obtain ⟨r, hr⟩ := binExpr_terminates C s
        rw [hr]
        rcases r with e | ⟨test, s1⟩
        · exact ⟨_, rfl⟩
        · have hlen := congrArg List.length (binExpr_yield C _ _ _ hr).1
          have hpos := yield_pos test
          simp only [List.length_append] at hlen
          split
          · rename_i hz; cases hz
          · exact ⟨_, rfl⟩
          · rename_i test' s1' heq
            simp only [Option.some.injEq, Except.ok.injEq, Prod.mk.injEq] at heq
            obtain ⟨rfl, rfl⟩ := heq
            simp only [List.length_cons] at hlen
            obtain ⟨r2, hr2⟩ := (ih s1' (by omega) fuel).2 (by omega)
            rw [hr2]
            rcases r2 with e | ⟨cons, s2⟩
            · exact ⟨_, rfl⟩
            · have hlen2 := congrArg List.length ((parses_shape C fuel).2 _ _ _ hr2).1
              simp only [List.length_append] at hlen2
              split
              · rename_i hz; cases hz
              · exact ⟨_, rfl⟩
              · rename_i cons' s2' heq2
                simp only [Option.some.injEq, Except.ok.injEq, Prod.mk.injEq] at heq2
                obtain ⟨rfl, rfl⟩ := heq2
                simp only [List.length_cons] at hlen2
                obtain ⟨r3, hr3⟩ := (ih s2' (by omega) fuel).2 (by omega)
                rw [hr3]
                rcases r3 with e | ⟨alt, s3⟩ <;> exact ⟨_, rfl⟩
              · exact ⟨_, rfl⟩
          · exact ⟨_, rfl⟩
    intro fuel
    refine ⟨hc fuel, fun hf => ?_⟩
    cases fuel with
    | zero => omega
    | succ fuel =>
      rw [assignExpr]
      obtain ⟨r, hr⟩ := hc fuel (by omega)
      rw [hr]
      rcases r with e | ⟨lhs, s1⟩
      · exact ⟨_, rfl⟩
      · have hlen := congrArg List.length ((parses_shape C fuel).1 _ _ _ hr).1
        have hpos := yield_pos lhs
        simp only [List.length_append] at hlen
        split
        · rename_i hz; cases hz
        · exact ⟨_, rfl⟩
        · rename_i lhs' p s1' heq
          simp only [Option.some.injEq, Except.ok.injEq, Prod.mk.injEq] at heq
          obtain ⟨rfl, rfl⟩ := heq
          simp only [List.length_cons] at hlen
          obtain ⟨r2, hr2⟩ := (ih s1' (by omega) fuel).2 (by omega)
          rw [hr2]
          rcases r2 with e | ⟨rhs, s2⟩
          · exact ⟨_, rfl⟩
          · dsimp only
            split <;> exact ⟨_, rfl⟩
        · exact ⟨_, rfl⟩

/-- Steps enough for `assignExpr`. -/
def assignFuel (s : List Tok) : Nat := 2 * s.length + 2

/-- **C29, shape.** An accepted expression stands for exactly the tokens consumed, has no
assignment or conditional on the left of `=` or `?`, all its left sides are valid targets, and it
stops at a token that cannot continue it. -/
theorem assign_shape (C : ExprCfg) (fuel : Nat) (s : List Tok) (t : Tree) (rest : List Tok)
    (h : assignExpr C fuel s = some (.ok (t, rest))) :
    s = yield t ++ rest ∧ Shape t ∧ TargetsOk t ∧ Ends C rest :=
  (parses_shape C fuel).2 s t rest h

/-- Parsing an assignment expression always ends. -/
theorem assign_terminates (C : ExprCfg) (s : List Tok) : ∃ r, assignExpr C (assignFuel s) s = some r :=
  (assign_total C s.length s (Nat.le_refl _) _).2 (Nat.le_refl _)

/-- The binary parser reads the tree `b` off its tokens. -/
def ParsesAs (C : ExprCfg) (b : Tree) : Prop :=
  ∀ rest, NoOp C rest → binExpr C (yield b ++ rest) = some (.ok (b, rest))

theorem leaf_parses (C : ExprCfg) (o : Operand) : ParsesAs C (.leaf o) := by
  intro rest hn
  show binLoop C (binFuel rest) (.leaf o) 0 false false rest = _
  refine binLoop_stop ?_ _ _ _ _
  intro op hop
  rw [nextOp_none.2 hn] at hop
  cases hop

/-- All operand positions of a shaped tree hold trees the binary parser reads. -/
def LeavesParse (C : ExprCfg) : Tree → Prop
  | .cond t c a => ParsesAs C t ∧ LeavesParse C c ∧ LeavesParse C a
  | .assign _ l r => ParsesAs C l ∧ LeavesParse C r
  | t => ParsesAs C t

theorem noOp_cons {C : ExprCfg} {x : Tok} {s : List Tok} (h : ∀ op, x ≠ .bin op) : NoOp C (x :: s) := by
  intro op t he
  simp only [List.cons.injEq] at he
  exact absurd he.1 (h op)

theorem cond_stop {C : ExprCfg} {fuel : Nat} {s : List Tok} {t : Tree} {rest : List Tok}
    (h : binExpr C s = some (.ok (t, rest))) (hh : ∀ u, rest ≠ .hook :: u) :
    condExpr C (fuel + 1) s = some (.ok (t, rest)) := by
  rw [condExpr, h]
  split
  · rename_i h'; cases h'
  · rename_i h'; cases h'
  · rename_i h'
    simp only [Option.some.injEq, Except.ok.injEq, Prod.mk.injEq] at h'
    exact absurd h'.2 (hh _)
  · rename_i h'
    simp only [Option.some.injEq, Except.ok.injEq] at h'
    rw [← h']

theorem assign_stop {C : ExprCfg} {fuel : Nat} {s : List Tok} {t : Tree} {rest : List Tok}
    (h : condExpr C fuel s = some (.ok (t, rest))) (hh : ∀ p u, rest ≠ .assign p :: u) :
    assignExpr C (fuel + 1) s = some (.ok (t, rest)) := by
  rw [assignExpr, h]
  split
  · rename_i h'; cases h'
  · rename_i h'; cases h'
  · rename_i h'
    simp only [Option.some.injEq, Except.ok.injEq, Prod.mk.injEq] at h'
    exact absurd h'.2 (hh _ _)
  · rename_i h'
    simp only [Option.some.injEq, Except.ok.injEq] at h'
    rw [← h']

open Classical in
theorem assign_reads (C : ExprCfg) : ∀ (t : Tree), Shape t → LeavesParse C t → ∀ rest, Ends C rest →
    ∀ fuel, 2 * (yield t).length + 2 ≤ fuel →
      if TargetsOk t then assignExpr C fuel (yield t ++ rest) = some (.ok (t, rest))
      else ∃ e, assignExpr C fuel (yield t ++ rest) = some (.error e) := by
  intro t
  have flat : ∀ t : Tree, Flat t → ParsesAs C t → ∀ rest, Ends C rest → ∀ fuel,
      2 * (yield t).length + 2 ≤ fuel →
      if TargetsOk t then assignExpr C fuel (yield t ++ rest) = some (.ok (t, rest))
      else ∃ e, assignExpr C fuel (yield t ++ rest) = some (.error e) := by
    intro t hf hp rest he fuel hfuel
    rw [if_pos hf.targets]
    obtain ⟨fuel, rfl⟩ : ∃ k, fuel = k + 2 := ⟨fuel - 2, by omega⟩
    exact assign_stop (cond_stop (hp rest he.1) he.2.1) he.2.2
  induction t with
  | leaf o => exact fun hs hl => flat _ hs hl
  | bin op l r => exact fun hs hl => flat _ hs hl
  | cond t c a _ ihc iha =>
    rintro ⟨hft, hsc, hsa⟩ ⟨hpt, hlc, hla⟩ rest he fuel hfuel
    have hpos := yield_pos t
    simp only [yield, List.length_append, List.length_cons] at hfuel
    obtain ⟨fuel, rfl⟩ : ∃ k, fuel = k + 2 := ⟨fuel - 2, by omega⟩
    have hb := hpt (.hook :: (yield c ++ .colon :: (yield a ++ rest))) (noOp_cons (by simp))
    have h1 := ihc hsc hlc (.colon :: (yield a ++ rest))
      ⟨noOp_cons (by simp), by simp, by simp⟩ fuel (by omega)
    have h2 := iha hsa hla rest he fuel (by omega)
    have hsrc : yield (.cond t c a) ++ rest =
        yield t ++ .hook :: (yield c ++ .colon :: (yield a ++ rest)) := by simp [yield]
    have hT : TargetsOk (.cond t c a) ↔ TargetsOk c ∧ TargetsOk a := Iff.rfl
    rw [hsrc]
    by_cases hc : TargetsOk c
    · rw [if_pos hc] at h1
      by_cases ha : TargetsOk a
      · rw [if_pos ha] at h2
        rw [if_pos (hT.2 ⟨hc, ha⟩)]
        refine assign_stop ?_ he.2.2
        rw [condExpr, hb]
        dsimp only
        rw [h1]
        dsimp only
        rw [h2]
      · rw [if_neg ha] at h2
        obtain ⟨e, h2⟩ := h2
        rw [if_neg (fun h => ha (hT.1 h).2)]
        refine ⟨e, ?_⟩
        have : condExpr C (fuel + 1) (yield t ++ .hook :: (yield c ++ .colon :: (yield a ++ rest))) =
            some (.error e) := by
          rw [condExpr, hb]
          dsimp only
          rw [h1]
          dsimp only
          rw [h2]
        rw [assignExpr, this]
    · rw [if_neg hc] at h1
      obtain ⟨e, h1⟩ := h1
      rw [if_neg (fun h => hc (hT.1 h).1)]
      refine ⟨e, ?_⟩
      have : condExpr C (fuel + 1) (yield t ++ .hook :: (yield c ++ .colon :: (yield a ++ rest))) =
          some (.error e) := by
        rw [condExpr, hb]
        dsimp only
        rw [h1]
      rw [assignExpr, this]
  | assign p l r _ ihr =>
    rintro ⟨hfl, hsr⟩ ⟨hpl, hlr⟩ rest he fuel hfuel
    have hpos := yield_pos l
    simp only [yield, List.length_append, List.length_cons] at hfuel
    obtain ⟨fuel, rfl⟩ : ∃ k, fuel = k + 2 := ⟨fuel - 2, by omega⟩
    have hb := hpl (.assign p :: (yield r ++ rest)) (noOp_cons (by simp))
    have hc := cond_stop (fuel := fuel) hb (by simp)
    have h1 := ihr hsr hlr rest he (fuel + 1) (by omega)
    have hsrc : yield (.assign p l r) ++ rest = yield l ++ .assign p :: (yield r ++ rest) := by
      simp [yield]
    rw [hsrc]
    have hT : TargetsOk (.assign p l r) ↔ l.isTarget p = true ∧ TargetsOk r := by
      refine ⟨?_, fun h => isTarget_ok h.1 h.2⟩
      intro h
      cases l with
      | leaf o => exact ⟨h.1, h.2⟩
      | bin => cases h
      | cond => cases h
      | assign => cases h
    by_cases hr : TargetsOk r
    · rw [if_pos hr] at h1
      by_cases hl : l.isTarget p = true
      · rw [if_pos (hT.2 ⟨hl, hr⟩), assignExpr, hc]
        dsimp only
        rw [h1]
        dsimp only
        rw [if_pos hl]
      · rw [if_neg (fun h => hl (hT.1 h).1)]
        refine ⟨.assignToRvalue, ?_⟩
        rw [assignExpr, hc]
        dsimp only
        rw [h1]
        dsimp only
        rw [if_neg hl]
    · rw [if_neg hr] at h1
      obtain ⟨e, h1⟩ := h1
      rw [if_neg (fun h => hr (hT.1 h).2)]
      refine ⟨e, ?_⟩
      rw [assignExpr, hc]
      dsimp only
      rw [h1]

/-- **C29, completeness.** The tokens of a tree of the grammar's shape are parsed into that very
tree when every left side is a valid target. -/
theorem assign_accepts (C : ExprCfg) (t : Tree) (hs : Shape t) (hl : LeavesParse C t)
    (rest : List Tok) (he : Ends C rest) (ht : TargetsOk t) (fuel : Nat)
    (hf : 2 * (yield t).length + 2 ≤ fuel) :
    assignExpr C fuel (yield t ++ rest) = some (.ok (t, rest)) := by
  have := assign_reads C t hs hl rest he fuel hf
  rwa [if_pos ht] at this

/-- **C29, rejection.** They are rejected when some left side is not a valid target. -/
theorem assign_rejects (C : ExprCfg) (t : Tree) (hs : Shape t) (hl : LeavesParse C t)
    (rest : List Tok) (he : Ends C rest) (ht : ¬ TargetsOk t) (fuel : Nat)
    (hf : 2 * (yield t).length + 2 ≤ fuel) :
    ∃ e, assignExpr C fuel (yield t ++ rest) = some (.error e) := by
  have := assign_reads C t hs hl rest he fuel hf
  rwa [if_neg ht] at this

/-- `o₁ = o₂ = … = o`. -/
def assignChain (o : Operand) : List Operand → Tree
  | [] => .leaf o
  | x :: xs => .assign true (.leaf x) (assignChain o xs)

/-- `t₁ ? c₁ : t₂ ? c₂ : … : o`. -/
def condChain (o : Operand) : List (Operand × Operand) → Tree
  | [] => .leaf o
  | (t, c) :: xs => .cond (.leaf t) (.leaf c) (condChain o xs)

/-- **C29.** A chain of assignments of any length groups to the right. -/
theorem assign_right (C : ExprCfg) (o : Operand) (xs : List Operand) (rest : List Tok)
    (he : Ends C rest) (hx : ∀ x ∈ xs, x.target = true) (fuel : Nat)
    (hf : 2 * (yield (assignChain o xs)).length + 2 ≤ fuel) :
    assignExpr C fuel (yield (assignChain o xs) ++ rest) = some (.ok (assignChain o xs, rest)) := by
  have : Shape (assignChain o xs) ∧ LeavesParse C (assignChain o xs) ∧
      TargetsOk (assignChain o xs) := by
    clear hf
    induction xs with
    | nil => exact ⟨trivial, leaf_parses C o, trivial⟩
    | cons x xs ih =>
      obtain ⟨h1, h2, h3⟩ := ih fun y hy => hx y (by simp [hy])
      exact ⟨⟨trivial, h1⟩, ⟨leaf_parses C x, h2⟩, hx x (by simp), h3⟩
  exact assign_accepts C _ this.1 this.2.1 rest he this.2.2 fuel hf

/-- **C29.** A chain of conditionals of any length groups to the right. -/
theorem cond_right (C : ExprCfg) (o : Operand) (xs : List (Operand × Operand)) (rest : List Tok)
    (he : Ends C rest) (fuel : Nat) (hf : 2 * (yield (condChain o xs)).length + 2 ≤ fuel) :
    assignExpr C fuel (yield (condChain o xs) ++ rest) = some (.ok (condChain o xs, rest)) := by
  have : Shape (condChain o xs) ∧ LeavesParse C (condChain o xs) ∧
      TargetsOk (condChain o xs) := by
    clear hf
    induction xs with
    | nil => exact ⟨trivial, leaf_parses C o, trivial⟩
    | cons x xs ih =>
      obtain ⟨h1, h2, h3⟩ := ih
      exact ⟨⟨trivial, trivial, h1⟩, ⟨leaf_parses C x.1, leaf_parses C x.2, h2⟩, trivial, h3⟩
  exact assign_accepts C _ this.1 this.2.1 rest he this.2.2 fuel hf

/-- `a = b ? c : d += e` and a rejected `f() = 1`. -/
example : assignExpr ⟨false, false, false, true⟩ 40
      [.operand (nm 0), .assign true, .operand (nm 1), .hook, .operand (nm 2), .colon,
        .operand (nm 3), .assign false, .operand (nm 4)] =
      some (.ok (.assign true (.leaf (nm 0)) (.cond (.leaf (nm 1)) (.leaf (nm 2))
        (.assign false (.leaf (nm 3)) (.leaf (nm 4)))), [])) := rfl

example : assignExpr ⟨false, false, false, true⟩ 40
      [.operand ⟨0, false, false, false, false⟩, .assign true, .operand (nm 1)] =
      some (.error .assignToRvalue) := rfl

example : yield (assignChain (nm 2) [nm 0, nm 1]) =
    [.operand (nm 0), .assign true, .operand (nm 1), .assign true, .operand (nm 2)] := rfl

end Mole.Parser
