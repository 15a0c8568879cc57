import Verif.Parser.ProgAccS

/-! # The literals of a tree: lemmas (for C76) -/

namespace Mole.Parser.Prog

theorem lit_async : isLit (.name "async") = false := by decide
theorem lit_target : isLit (.name "target") = false := by decide
theorem lit_inOf (b : Bool) : isLit (.name (if b then "in" else "of")) = false := by cases b <;> decide
theorem lit_pu (p : Pu) : isLit (.pu p) = false := rfl
theorem lit_cw (c : Cw) : isLit (.cw c) = false := rfl
theorem lit_bin (o : BinOp) : isLit (.bin o) = false := rfl
theorem lit_asg (o : AsgOp) : isLit (.asg o) = false := rfl
theorem lit_kw (k : Kw) : isLit (.kw k) = (k = .this || k = .super : Bool) := rfl

theorem lit_opt (b : Bool) {k : K} (h : isLit k = false) : (opt b k).filter isLit = [] := by
  cases b <;> simp [opt, h]

theorem lit_optA (b : Bool) : (opt b (.name "async")).filter isLit = [] := lit_opt b (by decide)
theorem lit_optM (b : Bool) : (opt b (.bin .mul)).filter isLit = [] := lit_opt b (by decide)
theorem lit_optW (b : Bool) : (opt b (.cw .await)).filter isLit = [] := lit_opt b (by decide)

theorem lit_semi {ks : List K} (h : Semi ks) : ks.filter isLit = [] := by
  rcases h with rfl | rfl <;> decide

theorem lit_unary {k : K} (h : isUnary k = true ∨ k = .cw .await) : isLit k = false := by
  rcases h with h | rfl
  · cases k <;> first | rfl | cases h
  · rfl

theorem lit_incDec {k : K} (h : isIncDec k = true) : isLit k = false := by
  simp only [isIncDec, Bool.or_eq_true, decide_eq_true_eq] at h
  rcases h with rfl | rfl <;> decide

theorem lit_yield {k : K} (h : isYield k = true) : isLit k = false := by
  simp only [isYield, Bool.or_eq_true, decide_eq_true_eq] at h
  rcases h with rfl | rfl <;> decide

theorem lit_op {o : BinOp} {k : K} (h : Op o k) : isLit k = false := by
  cases h <;> first | rfl | decide

theorem lit_dec {v k : K} (h : DecWord v k) : isLit k = false := by
  cases h <;> first | rfl | decide

theorem lit_accessor {L : Ex → Prop} (hL : ¬L .accessor) {i : Nat} {ks : List K} (h : Accessor L i ks) : ks.filter isLit = [] := by
  cases h <;> first | rfl | decide | exact absurd ‹_› hL

theorem lit_head {L : Ex → Prop} (h1 : ¬L .asyncStar) (h2 : ¬L .asyncName) {ks : List K} (h : AsyncHead L ks) : ks.filter isLit = [] := by
  cases h <;> first | exact absurd ‹_› h1 | exact absurd ‹_› h2

theorem lit_as : isLit (.name "as") = false := by decide
theorem lit_from : isLit (.name "from") = false := by decide
theorem lit_meta : isLit (.name "meta") = false := by decide
theorem lit_optS (b : Bool) : (opt b (.cw .static)).filter isLit = [] := lit_opt b (by decide)

theorem lit_specs {P : Node → List K → Prop} (hP : ∀ n ks, P n ks → lits n = ks.filter isLit) {l : List Node} {ks : List K}
    (h : Specs P l ks) : litsL l = ks.filter isLit := by
  induction h with
  | nil => rfl
  | one h => simp [litsL, hP _ _ h]
  | cons h _ ih => simp [litsL, hP _ _ h, ih, lit_pu]

theorem lit_loose {P : Node → List K → Prop} (hP : ∀ n ks, P n ks → lits n = ks.filter isLit) {l : List Node} {ks : List K}
    (h : Loose P l ks) : litsL l = ks.filter isLit := by
  induction h with
  | nil => rfl
  | cons h hc _ ih => rcases hc with rfl | rfl <;> simp [litsL, hP _ _ h, ih, lit_pu]

theorem lit_impSpec {n : Node} {ks : List K} (h : ImpSpec n ks) : lits n = ks.filter isLit := by
  cases h <;> simp [lits, List.filter_cons, lit_as] <;> split <;> simp

theorem lit_expSpec {n : Node} {ks : List K} (h : ExpSpec n ks) : lits n = ks.filter isLit := by
  cases h <;> simp [lits, List.filter_cons, lit_as] <;> split <;> simp

theorem lit_group {L : Ex → Prop} {l : List Node} {ks : List K} (h : Group L l ks) : litsL l = ks.filter isLit := by
  cases h with
  | named h => simp [lit_specs (fun _ _ => lit_impSpec) h, lit_pu]
  | loose _ h => simp [lit_loose (fun _ _ => lit_impSpec) h, lit_pu]
  | ns h => simp [litsL, lits, List.filter_cons, lit_as, lit_bin]

theorem lit_clause {L : Ex → Prop} {l : List Node} {ks : List K} (h : Clause L l ks) : litsL l = ks.filter isLit := by
  have happ : ∀ l l' : List Node, litsL (l ++ l') = litsL l ++ litsL l' := by
    intro l l'
    induction l with
    | nil => rfl
    | cons a l ih => simp [litsL, ih]
  cases h with
  | default h => simp [litsL, lits, List.filter_cons]
  | group h => exact lit_group h
  | both h g => simp [litsL, lits, List.filter_cons, lit_pu, lit_group g]; split <;> simp
  | two _ g g' => simp [happ, lit_group g, lit_group g', lit_pu]

theorem lit_exports {l : List Node} {ks : List K} (h : Specs ExpSpec l ks) : litsL l = ks.filter isLit :=
  lit_specs (fun _ _ => lit_expSpec) h

theorem lit_filter (k : K) (l : List K) : (k :: l).filter isLit = (if isLit k then [k] else []) ++ l.filter isLit := by
  simp only [List.filter_cons]
  split <;> rfl

theorem stmts_lits {L : Ex → Prop} (hL : ¬L .accessor) (h1 : ¬L .asyncStar) (h2 : ¬L .asyncName) {l : List Node} {ks : List K} (h : Stmts L l ks) :
    litsL l = ks.filter isLit := by
  apply Stmts.rec (L := L)
    (motive_1 := fun t ks _ => lits t = ks.filter isLit)
    (motive_2 := fun _ t ks _ => lits t = ks.filter isLit)
    (motive_3 := fun t ks _ => lits t = ks.filter isLit)
    (motive_4 := fun l ks _ => litsL l = ks.filter isLit)
    (motive_5 := fun l ks _ => litsL l = ks.filter isLit)
    (motive_6 := fun l ks _ => litsL l = ks.filter isLit)
    (motive_7 := fun l ks _ => litsL l = ks.filter isLit)
    (motive_8 := fun t ks _ => lits t = ks.filter isLit)
    (motive_9 := fun t ks _ => lits t = ks.filter isLit)
    (motive_10 := fun l ks _ => litsL l = ks.filter isLit)
    (motive_11 := fun t ks _ => lits t = ks.filter isLit)
    (motive_12 := fun t ks _ => lits t = ks.filter isLit)
    (motive_13 := fun t ks _ => lits t = ks.filter isLit)
    (motive_14 := fun t ks _ => lits t = ks.filter isLit)
    (motive_15 := fun t ks _ => lits t = ks.filter isLit)
    (motive_16 := fun l ks _ => litsL l = ks.filter isLit)
    (motive_17 := fun l ks _ => litsL l = ks.filter isLit)
    (motive_18 := fun _ t ks _ => lits t = ks.filter isLit)
    (motive_19 := fun t ks _ => lits t = ks.filter isLit)
    (motive_20 := fun _ l ks _ => litsL l = ks.filter isLit)
  case t => exact h
  all_goals intros
  all_goals
    try have := lit_accessor hL ‹_›
    try have := lit_head h1 h2 ‹_›
    try have := lit_semi ‹_›
    try have := lit_unary ‹_›
    try have := lit_incDec ‹_›
    try have := lit_yield ‹_›
    try have := lit_op ‹_›
    try have := lit_dec ‹_›
    try have := lit_clause ‹_›
    try have := lit_exports ‹_›
    simp_all [lits, litsL, lit_async, lit_target, lit_inOf, lit_pu, lit_cw, lit_bin, lit_asg, lit_kw, lit_optA, lit_optM, lit_optW,
       lit_optS, lit_as, lit_from, lit_meta,
       lit_filter, -List.filter_eq_nil_iff, -List.filter_cons]

end Mole.Parser.Prog
