import Verif.Parser.ExprTotal
/-!
# C17, C18, C19, C29: how expressions group
-/
namespace Mole.Parser
open Spec

/-- Parsing a binary chain always ends. -/
theorem binExpr_terminates (C : ExprCfg) (s : List Tok) : ∃ r, binExpr C s = some r := by
  unfold binExpr
  split
  · rename_i o t
    exact (loops_total C t.length).1 _ _ _ _ _ t (Nat.le_refl _) (by simp [binFuel])
  · exact ⟨_, rfl⟩

/-- **C18.** The leaves and operators of the tree, from left to right, are the tokens consumed,
and the parser stops exactly at the first token that is no enabled binary operator. -/
theorem binExpr_yield (C : ExprCfg) (s : List Tok) (t : Tree) (rest : List Tok)
    (h : binExpr C s = some (.ok (t, rest))) :
    s = yield t ++ rest ∧ NoOp C rest ∧
      ∃ o ps, yield t = .operand o :: chain ps ∧ ∀ p ∈ ps, Enabled C p.1 := by
  unfold binExpr at h
  split at h
  · rename_i o t'
    obtain ⟨ps, R⟩ := binLoop_ret C _ _ _ _ _ _ _ _ h
    refine ⟨?_, ?_, o, ps, R.yld, fun p hp => (R.ops p hp).1⟩
    · rw [R.yld, R.src]; rfl
    · rw [← nextOp_none]
      cases hn : nextOp C rest with
      | none => rfl
      | some op =>
        have := R.stop op hn
        omega
  · cases h

/-- **C17** (partial: the language wants `Grouped t` for every chain).  The tree is the one of the
grammar exactly when the chain satisfies `Good`: whenever an operator is followed by a tighter
one, the next operator looser than that is at most as tight as the first. -/
theorem binExpr_grouped_iff_partial (C : ExprCfg) (s : List Tok) (t : Tree) (rest : List Tok)
    (o : Operand) (ps : List (BinOp × Operand)) (hs : yield t = .operand o :: chain ps)
    (h : binExpr C s = some (.ok (t, rest))) :
    Grouped t ↔ Good (ps.map fun p => level p.1) := by
  unfold binExpr at h
  split at h
  · rename_i o' t'
    obtain ⟨ps', R⟩ := binLoop_ret C _ _ _ _ _ _ _ _ h
    have hy := R.yld
    rw [hs] at hy
    simp only [yield, List.cons_append, List.nil_append, List.cons.injEq] at hy
    have hinj : ∀ a b : List (BinOp × Operand), chain a = chain b → a = b := by
      intro a
      induction a with
      | nil =>
        intro b hb
        cases b with
        | nil => rfl
        | cons p b => simp [chain] at hb
      | cons p a ih =>
        intro b hb
        cases b with
        | nil => simp [chain] at hb
        | cons p' b =>
          obtain ⟨p1, p2⟩ := p
          obtain ⟨q1, q2⟩ := p'
          simp only [chain, List.cons.injEq, Tok.bin.injEq, Tok.operand.injEq] at hb
          rw [hb.1, hb.2.1, ih b hb.2.2]
    have := hinj _ _ hy.2
    subst this
    rw [R.grp]
    simp [Grouped, FitsNext, LeftOk, levels]
  · cases h

/-- A chain whose operators are on at most two levels is good, hence grouped right. -/
theorem good_two (a b : Nat) (ls : List Nat) (h : ∀ x ∈ ls, x = a ∨ x = b) : Good ls := by
  induction ls with
  | nil => trivial
  | cons p ls ih =>
    rw [good_cons]
    refine ⟨ih fun x hx => h x (by simp [hx]), ?_⟩
    rintro q qs rfl hpq r hr
    have h1 := h p (by simp)
    have h2 := h q (by simp)
    have h3 := h r (by
      have := List.mem_of_find?_eq_some hr
      simp [this])
    have h4 := List.find?_some hr
    simp only [decide_eq_true_eq] at h4
    omega

/-- So is one whose operators only get looser, or only tighter. -/
theorem good_falling (ls : List Nat) (h : ls.Pairwise (fun x y => y ≤ x)) : Good ls := by
  induction h with
  | nil => trivial
  | cons h1 _ ih =>
    rw [good_cons]
    refine ⟨ih, ?_⟩
    rintro q qs rfl hpq
    have := h1 q (by simp)
    omega

theorem good_rising (ls : List Nat) (h : ls.Pairwise (fun x y => x ≤ y)) : Good ls := by
  induction h with
  | nil => trivial
  | cons _ h2 ih =>
    rw [good_cons]
    refine ⟨ih, ?_⟩
    rintro q qs rfl hpq r hr
    have h3 := List.find?_some hr
    simp only [decide_eq_true_eq] at h3
    have h4 := List.mem_of_find?_eq_some hr
    have := (List.pairwise_cons.1 h2).1 r h4
    omega

theorem grouped_left {t : Tree} (h : Grouped t) :
    ∀ op l r, t = .bin op l r → ∀ o, .bin o ∈ yield l → level op < level o ∨ (level op = level o ∧ op ≠ .pow) := by
  induction t with
  | leaf => intro op l r h; cases h
  | cond => cases h
  | assign => cases h
  | bin op l r ihl ihr =>
    intro op' l' r' he o ho
    simp only [Tree.bin.injEq] at he
    obtain ⟨rfl, rfl, rfl⟩ := he
    obtain ⟨gl, gr, hl, hr⟩ := h
    have key : ∀ t : Tree, Grouped t → ∀ k, (∀ o a b, t = .bin o a b → k ≤ level o) →
        ∀ o, .bin o ∈ yield t → k ≤ level o := by
      intro t
      induction t with
      | leaf => intro _ k _ o ho; simp [yield] at ho
      | cond => intro h; cases h
      | assign => intro h; cases h
      | bin op l r il ir =>
        intro g k hk o ho
        obtain ⟨g1, g2, g3, g4⟩ := g
        have hop := hk op l r rfl
        simp only [yield, List.mem_append, List.mem_cons, Tok.bin.injEq] at ho
        rcases ho with ho | rfl | ho
        · refine il g1 k ?_ o ho
          rintro o' a b rfl
          have : level op < level o' ∨ (level op = level o' ∧ op ≠ .pow) := g3
          omega
        · exact hop
        · refine ir g2 k ?_ o ho
          rintro o' a b rfl
          have : level op < level o' ∨ (level op = level o' ∧ op = .pow) := g4
          omega
    by_cases hp : op = .pow
    · have h11 : level op = 11 := by rw [hp]; rfl
      cases l with
      | leaf => simp [yield] at ho
      | cond => cases hl
      | assign => cases hl
      | bin o' a b =>
        have h1 : level op < level o' ∨ (level op = level o' ∧ op ≠ .pow) := hl
        have h2 := level_pcd o'
        have h3 := pcd_le o'
        rcases h1 with h1 | ⟨-, h1⟩
        · omega
        · exact absurd hp h1
    · have := key l gl (level op) (by
        rintro o' a b rfl
        have h1 : level op < level o' ∨ (level op = level o' ∧ op ≠ .pow) := hl
        omega) o ho
      rcases Nat.lt_or_ge (level op) (level o) with h1 | h1
      · exact .inl h1
      · exact .inr ⟨by omega, hp⟩

theorem grouped_min {t : Tree} (g : Grouped t) : ∀ k, (∀ o a b, t = .bin o a b → k ≤ level o) →
    ∀ o, .bin o ∈ yield t → k ≤ level o := by
  induction t with
  | leaf => intro k _ o ho; simp [yield] at ho
  | cond => cases g
  | assign => cases g
  | bin op l r il ir =>
    intro k hk o ho
    obtain ⟨g1, g2, g3, g4⟩ := g
    have hop := hk op l r rfl
    simp only [yield, List.mem_append, List.mem_cons, Tok.bin.injEq] at ho
    rcases ho with ho | rfl | ho
    · refine il g1 k ?_ o ho
      rintro o' a b rfl
      have : level op < level o' ∨ (level op = level o' ∧ op ≠ .pow) := g3
      omega
    · exact hop
    · refine ir g2 k ?_ o ho
      rintro o' a b rfl
      have : level op < level o' ∨ (level op = level o' ∧ op = .pow) := g4
      omega

theorem grouped_right {op : BinOp} {l r : Tree} (h : Grouped (.bin op l r)) :
    ∀ o, .bin o ∈ yield r → level op < level o ∨ (level op = level o ∧ op = .pow) := by
  obtain ⟨-, gr, -, hr⟩ := h
  intro o ho
  cases r with
  | leaf => simp [yield] at ho
  | cond => cases gr
  | assign => cases gr
  | bin o' a b =>
    have h1 : level op < level o' ∨ (level op = level o' ∧ op = .pow) := hr
    have h2 := grouped_min gr (level o') (by
      rintro o'' a' b' he
      simp only [Tree.bin.injEq] at he
      rw [he.1]; exact Nat.le_refl _) o ho
    rcases Nat.lt_or_ge (level op) (level o) with h3 | h3
    · exact .inl h3
    · right
      rcases h1 with h1 | ⟨h1, h4⟩
      · omega
      · exact ⟨by omega, h4⟩

/-- The specification leaves no choice: two trees grouped as the grammar says that stand for the
same tokens are equal. -/
theorem grouped_unique {t u : Tree} (ht : Grouped t) (hu : Grouped u) (h : yield t = yield u) :
    t = u := by
  induction t generalizing u with
  | cond => cases ht
  | assign => cases ht
  | leaf o =>
    cases u with
    | leaf o' => simpa [yield] using h
    | cond => cases hu
    | assign => cases hu
    | bin op l r =>
      have := congrArg List.length h
      have hl : ∀ t : Tree, 0 < (yield t).length := by
        intro t; cases t <;> simp [yield] <;> omega
      have h1 := hl l
      have h2 := hl r
      simp [yield] at this
      omega
  | bin op l r il ir =>
    cases u with
    | cond => cases hu
    | assign => cases hu
    | leaf o =>
      have := congrArg List.length h
      have hl : ∀ t : Tree, 0 < (yield t).length := by
        intro t; cases t <;> simp [yield] <;> omega
      have h1 := hl l
      have h2 := hl r
      simp [yield] at this
      omega
    | bin op' l' r' =>
      simp only [yield] at h
      have hl := grouped_left ht op l r rfl
      have hl' := grouped_left hu op' l' r' rfl
      have hr := grouped_right ht
      have hr' := grouped_right hu
      rcases List.append_eq_append_iff.1 h with ⟨a, h1, h2⟩ | ⟨a, h1, h2⟩
      · cases a with
        | nil =>
          simp only [List.append_nil] at h1
          simp only [List.nil_append, List.cons.injEq, Tok.bin.injEq] at h2
          rw [h2.1, il ht.1 hu.1 h1.symm, ir ht.2.1 hu.2.1 h2.2]
        | cons x a =>
          simp only [List.cons_append, List.cons.injEq] at h2
          obtain ⟨rfl, h2⟩ := h2
          have h3 := hl' op (by rw [h1]; simp)
          have h4 := hr op' (by rw [h2]; simp)
          exfalso
          rcases h4 with h4 | ⟨h4, rfl⟩
          · omega
          · rcases h3 with h3 | ⟨h3, h5⟩
            · omega
            · have e1 := level_pcd op'
              have e2 := (pcd_16 op').1 (by
                have : level .pow = 11 := rfl
                omega)
              exact h5 e2
      · cases a with
        | nil =>
          simp only [List.append_nil] at h1
          simp only [List.nil_append, List.cons.injEq, Tok.bin.injEq] at h2
          rw [h2.1, il ht.1 hu.1 h1, ir ht.2.1 hu.2.1 h2.2.symm]
        | cons x a =>
          simp only [List.cons_append, List.cons.injEq] at h2
          obtain ⟨rfl, h2⟩ := h2
          have h3 := hl op' (by rw [h1]; simp)
          have h4 := hr' op (by rw [h2]; simp)
          exfalso
          rcases h4 with h4 | ⟨h4, rfl⟩
          · omega
          · rcases h3 with h3 | ⟨h3, h5⟩
            · omega
            · have e1 := level_pcd op
              have e2 := (pcd_16 op).1 (by
                have : level .pow = 11 := rfl
                omega)
              exact h5 e2

/-- A plain operand (say, a name). -/
def nm (n : Nat) : Operand := ⟨n, false, false, true, true⟩

/-- **C17 is violated**: `a || b == c && d` is grouped `(a || b == c) && d`. -/
theorem precedence_violated :
    binExpr ⟨false, false, false, true⟩
      [.operand (nm 0), .bin .or, .operand (nm 1), .bin .eq, .operand (nm 2), .bin .and,
        .operand (nm 3)] =
      some (.ok (.bin .and (.bin .or (.leaf (nm 0)) (.bin .eq (.leaf (nm 1)) (.leaf (nm 2))))
        (.leaf (nm 3)), [])) := rfl

/-- **C17 is violated**: `a == b * c + d` is grouped `(a == b * c) + d`. -/
theorem precedence_arith_violated :
    binExpr ⟨false, false, false, true⟩
      [.operand (nm 0), .bin .eq, .operand (nm 1), .bin .mul, .operand (nm 2), .bin .add,
        .operand (nm 3)] =
      some (.ok (.bin .add (.bin .eq (.leaf (nm 0)) (.bin .mul (.leaf (nm 1)) (.leaf (nm 2))))
        (.leaf (nm 3)), [])) := rfl

/-- `a + b * c ** d ** e - f` is grouped right. -/
example : ∃ t, binExpr ⟨false, false, false, true⟩
      [.operand (nm 0), .bin .add, .operand (nm 1), .bin .sub, .operand (nm 2), .bin .mul,
        .operand (nm 3), .bin .add, .operand (nm 4), .other 0] = some (.ok (t, [.other 0])) ∧
      t = .bin .add (.bin .sub (.bin .add (.leaf (nm 0)) (.leaf (nm 1)))
        (.bin .mul (.leaf (nm 2)) (.leaf (nm 3)))) (.leaf (nm 4)) := ⟨_, rfl, by decide⟩

/-- `??` stands in the chain together with `&&` or `||`. -/
def Mixed (ps : List (BinOp × Operand)) : Prop :=
  (∃ p ∈ ps, p.1 = .nullish) ∧ (∃ p ∈ ps, p.1 = .and ∨ p.1 = .or)

/-- A unary expression stands directly left of `**`. -/
def UnaryPow : Operand → List (BinOp × Operand) → Prop
  | _, [] => False
  | o, (op, o') :: ps => (o.unary = true ∧ op = .pow) ∨ UnaryPow o' ps

theorem chk_iff (lg nl : Bool) (hx : ¬ (lg = true ∧ nl = true)) (o : Operand)
    (ps : List (BinOp × Operand)) :
    chk lg nl o.unary ps = true ↔
      ¬ (((nl = true ∨ ∃ p ∈ ps, p.1 = .nullish) ∧ (lg = true ∨ ∃ p ∈ ps, p.1 = .and ∨ p.1 = .or)) ∨
        UnaryPow o ps) := by
  induction ps generalizing lg nl o with
  | nil => simp [chk, UnaryPow]; cases lg <;> cases nl <;> simp_all
  | cons p ps ih =>
    obtain ⟨op, o'⟩ := p
    rw [chk, UnaryPow]
    by_cases hmix : ((lg && op == .nullish) || (nl && (op == .and || op == .or))) = true
    · rw [hmix]
      simp only [Bool.not_true, Bool.false_and, Bool.false_eq_true, false_iff]
      intro hno
      refine hno (.inl ?_)
      simp only [Bool.or_eq_true, Bool.and_eq_true, beq_iff_eq] at hmix
      rcases hmix with ⟨h1, h2⟩ | ⟨h1, h2⟩
      · exact ⟨.inr ⟨_, List.mem_cons_self .., h2⟩, .inl h1⟩
      · exact ⟨.inl h1, .inr ⟨_, List.mem_cons_self .., h2⟩⟩
    · have hmix' : ((lg && op == .nullish) || (nl && (op == .and || op == .or))) = false := by
        simpa using hmix
      rw [hmix']
      simp only [Bool.not_false, Bool.true_and]
      by_cases hun : (o.unary && op == .pow) = true
      · rw [hun]
        simp only [Bool.and_eq_true, beq_iff_eq] at hun
        simp [hun]
      · have hun' : (o.unary && op == .pow) = false := by simpa using hun
        have hun2 : ¬ (o.unary = true ∧ op = .pow) := by simpa using hun
        rw [hun']
        simp only [Bool.not_false, Bool.true_and, hun2, false_or]
        simp only [Bool.or_eq_true, Bool.and_eq_true, beq_iff_eq, not_or, not_and] at hmix
        rw [ih]
        · have e1 : (((nl || op == .nullish) = true) ∨ ∃ p ∈ ps, p.1 = .nullish) ↔
              (nl = true ∨ ∃ p ∈ (op, o') :: ps, p.1 = .nullish) := by
            simp only [Bool.or_eq_true, beq_iff_eq, List.mem_cons, exists_eq_or_imp, or_assoc]
          have e2 : (((lg || op == .and || op == .or) = true) ∨ ∃ p ∈ ps, p.1 = .and ∨ p.1 = .or) ↔
              (lg = true ∨ ∃ p ∈ (op, o') :: ps, p.1 = .and ∨ p.1 = .or) := by
            simp only [Bool.or_eq_true, beq_iff_eq, List.mem_cons, exists_eq_or_imp, or_assoc]
          rw [e1, e2]
        · simp only [Bool.or_eq_true, beq_iff_eq]
          rintro ⟨(h1 | h1) | h1, h2 | h2⟩
          · exact hx ⟨h1, h2⟩
          · exact hmix.1 h1 h2
          · exact (hmix.2 h2).1 h1
          · subst h1; cases h2
          · exact (hmix.2 h2).2 h1
          · subst h1; cases h2

/-- **C19.** A binary chain with all its operands (none an arrow function, `**` enabled) is
rejected exactly when it contains `??` together with `&&` or `||`, or a unary operand directly
left of `**`; otherwise it is parsed to its end. -/
theorem binExpr_rejects_iff (C : ExprCfg) (hpow : C.pow = true) (o : Operand)
    (ps : List (BinOp × Operand)) (rest : List Tok) (hrest : NoOp C rest)
    (hps : ∀ p ∈ ps, Enabled C p.1 ∧ p.2.arrow = false) :
    ((∃ e, binExpr C (.operand o :: chain ps ++ rest) = some (.error e)) ↔
      Mixed ps ∨ UnaryPow o ps) ∧
    ((∃ t, binExpr C (.operand o :: chain ps ++ rest) = some (.ok (t, rest))) ↔
      ¬ (Mixed ps ∨ UnaryPow o ps)) := by
  obtain ⟨x, hx⟩ := binExpr_terminates C (.operand o :: chain ps ++ rest)
  have hx' : binLoop C (binFuel (chain ps ++ rest)) (.leaf o) 0 false false (chain ps ++ rest) =
    some x := hx
  have hb := binLoop_chk C hpow rest hrest _ (.leaf o) 0 false false ps x hps hx'
  have hup : upTo 0 ps = ps := by
    have : ∀ l : List (BinOp × Operand), l.takeWhile (fun _ => true) = l := by
      intro l
      induction l with
      | nil => rfl
      | cons a l ih => simp [ih]
    simp [upTo, this]
  have haf : after 0 ps = [] := by
    have := upTo_after 0 ps
    rw [hup] at this
    simpa using this
  rw [hup, haf] at hb
  have hiff := chk_iff false false (by simp) o ps
  simp only [Bool.false_eq_true, false_or] at hiff
  change if chk false false o.unary ps = true then _ else _ at hb
  rw [hx]
  by_cases hc : chk false false o.unary ps = true
  · rw [if_pos hc] at hb
    obtain ⟨t, rfl⟩ := hb
    have hok := hiff.1 hc
    refine ⟨⟨?_, fun h => absurd h hok⟩, fun _ => hok, fun _ => ⟨t, by simp [chain]⟩⟩
    rintro ⟨e, he⟩
    cases he
  · rw [if_neg hc] at hb
    obtain ⟨e, rfl⟩ := hb
    have hbad : Mixed ps ∨ UnaryPow o ps := Classical.not_not.1 (fun h => hc (hiff.2 h))
    refine ⟨⟨fun _ => hbad, fun _ => ⟨e, rfl⟩⟩, ?_, fun h => absurd hbad h⟩
    rintro ⟨t, ht⟩
    cases ht

example : Mixed [(.nullish, nm 1), (.add, nm 2), (.and, nm 3)] :=
  ⟨⟨(.nullish, nm 1), by simp, rfl⟩, ⟨(.and, nm 3), by simp, .inl rfl⟩⟩

end Mole.Parser
