import Verif.Parser.ExprLemmas
/-! Helper lemmas for C17 and C18: what the loops of `binExpr` return. -/
namespace Mole.Parser
open Spec

theorem good_cons (p : Nat) (ps : List Nat) : Good (p :: ps) ↔ Good ps ∧
    ∀ q qs, ps = q :: qs → p < q → ∀ r, qs.find? (fun x => x < q) = some r → r ≤ p := by
  cases ps with
  | nil => simp [Good]
  | cons q qs =>
    rw [Good]
    simp only [List.cons.injEq, and_imp]
    constructor
    · rintro ⟨h1, h2⟩
      refine ⟨h1, ?_⟩
      rintro q' qs' rfl rfl
      exact h2
    · rintro ⟨h1, h2⟩
      exact ⟨h1, h2 q qs rfl rfl⟩

theorem good_append (A B : List Nat) (h : ∀ b, B.head? = some b → ∀ a ∈ A, b ≤ a) :
    Good (A ++ B) ↔ Good A ∧ Good B := by
  induction A with
  | nil => simp [Good]
  | cons p A ih =>
    have ih := ih (fun b hb a ha => h b hb a (by simp [ha]))
    rw [List.cons_append, good_cons, good_cons, ih]
    cases A with
    | nil =>
      simp only [List.nil_append, Good, true_and]
      constructor
      · rintro ⟨h1, -⟩
        exact ⟨by simp, h1⟩
      · rintro ⟨-, h1⟩
        refine ⟨h1, ?_⟩
        rintro q qs rfl hpq
        have := h q rfl p (by simp)
        omega
    | cons q qs =>
      have key : p < q → ((∀ r, (qs ++ B).find? (fun x => x < q) = some r → r ≤ p) ↔
          (∀ r, qs.find? (fun x => x < q) = some r → r ≤ p)) := by
        intro hpq
        rw [List.find?_append]
        cases hf : qs.find? (fun x => decide (x < q)) with
        | some r => simp
        | none =>
          simp only [Option.none_or]
          constructor
          · intro _ r hr
            cases hr
          · intro _ r hr
            cases B with
            | nil => cases hr
            | cons b B =>
              have hb := h b rfl p (by simp)
              rw [List.find?_cons, decide_eq_true (by omega : b < q)] at hr
              simp only [Option.some.injEq] at hr
              omega
      constructor
      · rintro ⟨⟨h1, h2⟩, h3⟩
        refine ⟨⟨h1, ?_⟩, h2⟩
        rintro q' qs' he hpq
        simp only [List.cons.injEq] at he
        obtain ⟨rfl, rfl⟩ := he
        exact (key hpq).1 (h3 q (qs ++ B) rfl hpq)
      · rintro ⟨⟨h1, h2⟩, h3⟩
        refine ⟨⟨h1, h3⟩, ?_⟩
        rintro q' qs' he hpq
        simp only [List.cons_append, List.cons.injEq] at he
        obtain ⟨rfl, rfl⟩ := he
        exact (key hpq).2 (h2 q qs rfl hpq)

/-- An operator whose right operand has no operator. -/
theorem good_flat (p : Nat) (R : List Nat) (h : ∀ b, R.head? = some b → b ≤ p) :
    Good (p :: R) ↔ Good R := by
  rw [good_cons]
  constructor
  · exact fun h => h.1
  · intro h1
    refine ⟨h1, ?_⟩
    rintro q qs rfl hpq
    have := h q rfl
    omega

/-- An operator whose right operand has the operators `q :: qs`. -/
theorem good_nest (p q : Nat) (qs R : List Nat) (hI : ∀ a ∈ qs, q ≤ a)
    (hR : ∀ b, R.head? = some b → b < q) :
    Good (p :: (q :: qs ++ R)) ↔
      Good (q :: qs) ∧ Good R ∧ (p < q → ∀ b, R.head? = some b → b ≤ p) := by
  rw [good_cons, good_append]
  · have hfind : (qs ++ R).find? (fun x => x < q) = R.head? := by
      rw [List.find?_append]
      have : qs.find? (fun x => decide (x < q)) = none := by
        rw [List.find?_eq_none]
        intro a ha
        have := hI a ha
        simp; omega
      rw [this, Option.none_or]
      cases R with
      | nil => rfl
      | cons b R =>
        have := hR b rfl
        rw [List.find?_cons, decide_eq_true this]
        rfl
    constructor
    · rintro ⟨⟨h1, h2⟩, h3⟩
      refine ⟨h1, h2, ?_⟩
      intro hpq b hb
      exact h3 q (qs ++ R) rfl hpq b (by rw [hfind]; exact hb)
    · rintro ⟨h1, h2, h3⟩
      refine ⟨⟨h1, h2⟩, ?_⟩
      intro q' qs' he hpq r hr
      simp only [List.cons_append, List.cons.injEq] at he
      obtain ⟨rfl, rfl⟩ := he
      rw [hfind] at hr
      exact h3 hpq r hr
  · intro b hb a ha
    have := hR b hb
    simp only [List.mem_cons] at ha
    rcases ha with rfl | ha
    · omega
    · have := hI a ha
      omega

/-- The levels of the operators of a chain. -/
def levels (ps : List (BinOp × Operand)) : List Nat := ps.map fun p => level p.1

theorem chain_append (ps qs : List (BinOp × Operand)) : chain (ps ++ qs) = chain ps ++ chain qs := by
  induction ps with
  | nil => rfl
  | cons p ps ih =>
    obtain ⟨op, o⟩ := p
    simp [chain, ih]

/-- The first operator of a chain fits to the right of `lhs`. -/
def FitsNext (lhs : Tree) (ps : List (BinOp × Operand)) : Prop :=
  ∀ p, ps.head? = some p → LeftOk p.1 lhs

/-- What the loops return. -/
structure Ret (C : ExprCfg) (lhs : Tree) (min : Nat) (s : List Tok) (t : Tree) (rest : List Tok)
    (ps : List (BinOp × Operand)) : Prop where
  src : s = chain ps ++ rest
  yld : yield t = yield lhs ++ chain ps
  ops : ∀ p ∈ ps, Enabled C p.1 ∧ min ≤ p.1.pcd ∧ (p.1 = .pow → C.pow = true)
  stop : Stop C min rest
  grp : Grouped t ↔ Grouped lhs ∧ FitsNext lhs ps ∧ Good (levels ps)
  root : (ps = [] ∧ t = lhs) ∨ (ps ≠ [] ∧ ∃ o l r, t = .bin o l r ∧ min ≤ o.pcd)

theorem nextOp_chain (C : ExprCfg) (p : BinOp × Operand) (ps : List (BinOp × Operand))
    (rest : List Tok) (h : Enabled C p.1) : nextOp C (chain (p :: ps) ++ rest) = some p.1 :=
  nextOp_iff.2 ⟨_, rfl, h⟩

theorem binLoop_ret (C : ExprCfg) (f : Nat) : ∀ (lhs : Tree) (min : Nat) (lg nl : Bool)
    (s : List Tok) (t : Tree) (rest : List Tok),
    binLoop C f lhs min lg nl s = some (.ok (t, rest)) → ∃ ps, Ret C lhs min s t rest ps := by
  induction f using Nat.strongRecOn with
  | ind f ih =>
  intro lhs min lg nl s t rest h
  cases f with
  | zero => simp [binLoop] at h
  | succ f =>
  rcases stop_or C min s with hs | ⟨op, t', rfl, he, hm⟩
  · rw [binLoop_stop hs] at h
    simp only [Option.some.injEq, Except.ok.injEq, Prod.mk.injEq] at h
    obtain ⟨rfl, rfl⟩ := h
    exact ⟨[], rfl, by simp [chain], by simp, hs, by simp [FitsNext, levels, Good], .inl ⟨rfl, rfl⟩⟩
  · rw [binLoop_step he hm] at h
    unfold binStep at h
    split at h
    · cases h
    split at h
    · cases h
    rename_i _ hpow
    split at h
    · rename_i o s2
      split at h
      · cases h
      · cases h
      · rename_i rhs s3 hin
        split at h
        · cases h
        split at h
        · cases h
        obtain ⟨psR, R⟩ := ih f (by omega) _ _ _ _ _ _ _ h
        have hpow' : op = .pow → C.pow = true := by
          intro ho
          cases hc : C.pow with
          | true => rfl
          | false => exact absurd ⟨ho, hc⟩ hpow
        have hRhead : ∀ p, psR.head? = some p → nextOp C s3 = some p.1 := by
          intro p hp
          cases psR with
          | nil => cases hp
          | cons p' psR =>
            simp only [List.head?_cons, Option.some.injEq] at hp
            subst hp
            rw [R.src]
            exact nextOp_chain C _ _ _ (R.ops p' (by simp)).1
        -- the right operand
        rcases innerLoop_cases (C := C) op.pcd s2 with hnt | ⟨q, hq⟩
        · have := innerLoop_none hnt _ _ _ _ _ hin
          simp only [Except.ok.injEq, Prod.mk.injEq] at this
          obtain ⟨rfl, rfl⟩ := this
          refine ⟨(op, o) :: psR, by rw [R.src]; rfl, ?_, ?_, R.stop, ?_, ?_⟩
          · rw [R.yld]; simp [yield, chain]
          · intro p hp
            simp only [List.mem_cons] at hp
            rcases hp with rfl | hp
            · exact ⟨he, hm, hpow'⟩
            · exact R.ops p hp
          · rw [R.grp]
            have hh : ∀ p, psR.head? = some p → p.1.pcd ≤ op.pcd ∧ ¬ (p.1.pcd = op.pcd ∧ p.1 = .pow) := by
              intro p hp
              have h1 := hRhead p hp
              have h2 := hnt p.1
              simp only [Tight, h1, true_and, not_or] at h2
              exact ⟨by omega, h2.2⟩
            have hgood : Good (levels ((op, o) :: psR)) ↔ Good (levels psR) := by
              refine good_flat _ _ ?_
              intro b hb
              simp only [List.head?_map, Option.map_eq_some_iff] at hb
              obtain ⟨p, hp, rfl⟩ := hb
              have := (hh p hp).1
              have := level_pcd p.1
              have := level_pcd op
              show level p.1 ≤ level op
              omega
            rw [hgood]
            have hfit : FitsNext (.bin op lhs (.leaf o)) psR := by
              intro p hp
              have h1 := hh p hp
              have h2 := level_pcd p.1
              have h3 := level_pcd op
              show level p.1 < level op ∨ (level p.1 = level op ∧ p.1 ≠ .pow)
              rcases Nat.lt_or_ge p.1.pcd op.pcd with h4 | h4
              · left; omega
              · right
                exact ⟨by omega, fun hp => h1.2 ⟨by omega, hp⟩⟩
            simp only [Grouped, RightOk, and_true, true_and, hfit]
            simp only [FitsNext, List.head?_cons, Option.some.injEq, forall_eq', and_assoc]
          · right
            refine ⟨by simp, ?_⟩
            rcases R.root with ⟨-, rfl⟩ | ⟨-, hr⟩
            · exact ⟨op, lhs, _, rfl, hm⟩
            · exact hr
        · obtain ⟨f', rfl, hb⟩ := innerLoop_tight hq _ _ _ _ _ hin
          obtain ⟨psI, I⟩ := ih f' (by omega) _ _ _ _ _ _ _ hb
          obtain ⟨hqn, hqt⟩ := hq
          have hne : psI ≠ [] := by
            rintro rfl
            have h1 := I.stop q (by
              have := I.src
              simp only [chain, List.nil_append] at this
              rw [← this]; exact hqn)
            omega
          obtain ⟨pq, qs, rfl⟩ : ∃ pq qs, psI = pq :: qs := by
            cases psI with
            | nil => exact absurd rfl hne
            | cons a b => exact ⟨a, b, rfl⟩
          have hpq : pq.1 = q := by
            have := nextOp_chain C pq qs s3 (I.ops pq (by simp)).1
            rw [← I.src, hqn] at this
            exact (Option.some.inj this).symm
          obtain ⟨ri, rl, rr, rfl, hri⟩ : ∃ o l r, rhs = .bin o l r ∧ q.pcd ≤ o.pcd := by
            rcases I.root with ⟨hc, -⟩ | ⟨-, hr⟩
            · cases hc
            · exact hr
          refine ⟨(op, o) :: (pq :: qs ++ psR), ?_, ?_, ?_, R.stop, ?_, ?_⟩
          · have h1 := I.src
            rw [R.src] at h1
            rw [h1]
            show _ = .bin op :: .operand o :: (chain (pq :: qs ++ psR) ++ rest)
            rw [chain_append, List.append_assoc]
          · have h1 := I.yld
            rw [R.yld, yield, h1]
            show _ = yield lhs ++ .bin op :: .operand o :: chain (pq :: qs ++ psR)
            rw [chain_append]
            simp [yield]
          · intro p hp
            simp only [List.mem_cons, List.mem_append] at hp
            rcases hp with rfl | hp | hp
            · exact ⟨he, hm, hpow'⟩
            · have := I.ops p (by simp only [List.mem_cons]; exact hp)
              exact ⟨this.1, by omega, this.2.2⟩
            · exact R.ops p hp
          · rw [R.grp]
            have hh : ∀ p, psR.head? = some p → p.1.pcd < q.pcd := fun p hp =>
              I.stop p.1 (hRhead p hp)
            have hlq := level_pcd q
            have hlo := level_pcd op
            have hlr := level_pcd ri
            have hgood := good_nest (level op) (level q) (levels qs) (levels psR) (by
                intro a ha
                simp only [levels, List.mem_map] at ha
                obtain ⟨p, hp, rfl⟩ := ha
                have h1 := (I.ops p (by simp [hp])).2.1
                have h2 := level_pcd p.1
                omega) (by
                intro b hb
                simp only [levels, List.head?_map, Option.map_eq_some_iff] at hb
                obtain ⟨p, hp, rfl⟩ := hb
                have h1 := hh p hp
                have h2 := level_pcd p.1
                omega)
            have hlev : levels ((op, o) :: (pq :: qs ++ psR)) =
                level op :: (level q :: levels qs ++ levels psR) := by
              simp [levels, hpq]
            have hlevI : levels (pq :: qs) = level q :: levels qs := by simp [levels, hpq]
            have hIg := I.grp
            rw [hlevI] at hIg
            rw [hlev, hgood]
            have hfl : FitsNext (.leaf o) (pq :: qs) := fun _ _ => trivial
            have hgr : Grouped (.leaf o) := trivial
            simp only [hfl, hgr, true_and] at hIg
            have hright : RightOk op (.bin ri rl rr) := by
              show level op < level ri ∨ (level op = level ri ∧ op = .pow)
              have hp1 := pcd_le ri
              have hp2 := pcd_16 op
              have hp3 := pcd_16 q
              rcases hqt with h1 | ⟨h1, h2⟩
              · left; omega
              · have := hp3.2 h2
                right
                exact ⟨by omega, hp2.1 (by omega)⟩
            have hfit : FitsNext (.bin op lhs (.bin ri rl rr)) psR ↔
                (level op < level q → ∀ b, (levels psR).head? = some b → b ≤ level op) := by
              constructor
              · intro h1 h2 b hb
                simp only [levels, List.head?_map, Option.map_eq_some_iff] at hb
                obtain ⟨p, hp, rfl⟩ := hb
                have h3 : level p.1 < level op ∨ (level p.1 = level op ∧ p.1 ≠ .pow) := h1 p hp
                omega
              · intro h1 p hp
                show level p.1 < level op ∨ (level p.1 = level op ∧ p.1 ≠ .pow)
                have h2 := hh p hp
                have h3 := level_pcd p.1
                have h4 := pcd_16 p.1
                have h5 := pcd_le q
                have hnp : p.1 ≠ .pow := fun hp => by have := h4.2 hp; omega
                rcases hqt with h6 | ⟨h6, h7⟩
                · have := h1 (by omega) (level p.1) (by simp [levels, hp])
                  rcases Nat.lt_or_ge (level p.1) (level op) with h8 | h8
                  · exact .inl h8
                  · exact .inr ⟨by omega, hnp⟩
                · left; omega
            rw [hfit]
            have hgb : Grouped (.bin op lhs (.bin ri rl rr)) ↔
                Grouped lhs ∧ Good (level q :: levels qs) ∧ LeftOk op lhs := by
              rw [Grouped, hIg]
              simp only [hright, and_true]
            rw [hgb]
            have hfn : FitsNext lhs ((op, o) :: (pq :: qs ++ psR)) ↔ LeftOk op lhs := by
              simp only [FitsNext, List.head?_cons, Option.some.injEq, forall_eq']
            rw [hfn]
            constructor
            · rintro ⟨⟨a, b, c⟩, d, e⟩
              exact ⟨a, c, b, e, d⟩
            · rintro ⟨a, c, b, e, d⟩
              exact ⟨⟨a, b, c⟩, d, e⟩
          · right
            refine ⟨by simp, ?_⟩
            rcases R.root with ⟨-, rfl⟩ | ⟨-, hr⟩
            · exact ⟨op, lhs, _, rfl, hm⟩
            · exact hr
    · cases h

end Mole.Parser
