import Verif.Parser.ProgSpec

/-! # Brackets and literals of what is written: specification and lemmas (for C76) -/

namespace Mole.Parser.Prog

/-- What is open is not changed. -/
def Neutral (ks : List K) : Prop := ∀ st rest, balanced st (ks ++ rest) = balanced st rest

/-- Neither opens nor closes. -/
def plain (k : K) : Bool := (closer k).isNone && !isCloser k

theorem bal_cons (st : List K) (k : K) (ks : List K) : balanced st (k :: ks) =
    match closer k with
    | some c => balanced (c :: st) ks
    | none => if isCloser k then (match st with | c :: st' => c = k && balanced st' ks | [] => false) else balanced st ks := by
  cases st <;> simp only [balanced] <;> cases closer k <;> rfl

theorem neutral_nil : Neutral [] := fun _ _ => rfl

theorem neutral_append {a b : List K} (ha : Neutral a) (hb : Neutral b) : Neutral (a ++ b) := by
  intro st rest
  rw [List.append_assoc, ha, hb]

theorem neutral_cons {k : K} {a : List K} (hk : plain k = true) (ha : Neutral a) : Neutral (k :: a) := by
  intro st rest
  simp only [plain, Bool.and_eq_true, Option.isNone_iff_eq_none, Bool.not_eq_true'] at hk
  show balanced st (k :: (a ++ rest)) = _
  rw [bal_cons, hk.1]
  simp [hk.2, ha st rest]

theorem neutral_one {k : K} (hk : plain k = true) : Neutral [k] := neutral_cons hk neutral_nil

theorem neutral_paren {a b : List K} (ha : Neutral a) (hb : Neutral b) : Neutral (.pu .parenL :: (a ++ .pu .parenR :: b)) := by
  intro st rest
  have := ha (.pu .parenR :: st) (.pu .parenR :: (b ++ rest))
  simp only [List.cons_append, List.append_assoc]
  rw [bal_cons]
  show balanced (.pu .parenR :: st) (a ++ .pu .parenR :: (b ++ rest)) = _
  rw [this, bal_cons]
  simp [closer, isCloser, hb st rest]

theorem neutral_brack {a b : List K} (ha : Neutral a) (hb : Neutral b) : Neutral (.pu .brackL :: (a ++ .pu .brackR :: b)) := by
  intro st rest
  have := ha (.pu .brackR :: st) (.pu .brackR :: (b ++ rest))
  simp only [List.cons_append, List.append_assoc]
  rw [bal_cons]
  show balanced (.pu .brackR :: st) (a ++ .pu .brackR :: (b ++ rest)) = _
  rw [this, bal_cons]
  simp [closer, isCloser, hb st rest]

theorem neutral_brace {a b : List K} (ha : Neutral a) (hb : Neutral b) : Neutral (.pu .braceL :: (a ++ .pu .braceR :: b)) := by
  intro st rest
  have := ha (.pu .braceR :: st) (.pu .braceR :: (b ++ rest))
  simp only [List.cons_append, List.append_assoc]
  rw [bal_cons]
  show balanced (.pu .braceR :: st) (a ++ .pu .braceR :: (b ++ rest)) = _
  rw [this, bal_cons]
  simp [closer, isCloser, hb st rest]

theorem plain_operand {k : K} (h : isOperand k = true) : plain k = true := by
  cases k <;> first | rfl | cases h

theorem plain_word {k : K} (h : isWord k = true) : plain k = true := by
  cases k <;> first | rfl | cases h

theorem plain_key {k : K} (h : canKey k = true ∨ (∃ s, k = .str s)) : plain k = true := by
  rcases h with h | ⟨s, rfl⟩
  · cases k <;> first | rfl | cases h
  · rfl

theorem plain_pvt {k : K} (h : canKey k = true ∨ (∃ s, k = .pvt s)) : plain k = true := by
  rcases h with h | ⟨s, rfl⟩
  · cases k <;> first | rfl | cases h
  · rfl

theorem plain_unary {k : K} (h : isUnary k = true ∨ k = .cw .await) : plain k = true := by
  rcases h with h | rfl
  · cases k <;> first | rfl | cases h
  · rfl

theorem plain_incDec {k : K} (h : isIncDec k = true) : plain k = true := by
  simp only [isIncDec, Bool.or_eq_true, decide_eq_true_eq] at h
  rcases h with rfl | rfl <;> rfl

theorem plain_yield {k : K} (h : isYield k = true) : plain k = true := by
  simp only [isYield, Bool.or_eq_true, decide_eq_true_eq] at h
  rcases h with rfl | rfl <;> rfl

theorem plain_op {o : BinOp} {k : K} (h : Op o k) : plain k = true := by
  cases h <;> rfl

theorem plain_dec {v k : K} (h : DecWord v k) : plain k = true := by
  cases h <;> rfl

theorem plain_tpl {k : K} {f g : String → K} (hf : ∀ s, plain (f s) = true) (hg : ∀ s, plain (g s) = true)
    (h : (∃ s, k = f s) ∨ ∃ s, k = g s) : plain k = true := by
  rcases h with ⟨s, rfl⟩ | ⟨s, rfl⟩
  · exact hf s
  · exact hg s

theorem neutral_opt {b : Bool} {k : K} (hk : plain k = true) : Neutral (opt b k) := by
  cases b
  · exact neutral_nil
  · exact neutral_one hk

theorem neutral_semi {ks : List K} (h : Semi ks) : Neutral ks := by
  rcases h with rfl | rfl
  · exact neutral_nil
  · exact neutral_one rfl

theorem neutral_accessor {L : Ex → Prop} {i : Nat} {ks : List K} (h : Accessor L i ks) : Neutral ks := by
  cases h <;> first | exact neutral_nil | exact neutral_one rfl

theorem neutral_head {L : Ex → Prop} {ks : List K} (h : AsyncHead L ks) : Neutral ks := by
  cases h with
  | star => exact neutral_cons rfl (neutral_one rfl)
  | starName k _ hk => exact neutral_cons rfl (neutral_cons rfl (neutral_one (plain_word hk)))
  | name k _ hk => exact neutral_cons rfl (neutral_one (plain_word hk))

theorem neutral_for {w x y z : List K} (hw : Neutral w) (hx : Neutral x) (hy : Neutral y) (hz : Neutral z) :
    Neutral (.pu .parenL :: (w ++ .pu .semi :: (x ++ .pu .semi :: (y ++ .pu .parenR :: z)))) := by
  have := neutral_paren (neutral_append hw (neutral_cons (k := .pu .semi) rfl
    (neutral_append hx (neutral_cons (k := .pu .semi) rfl hy)))) hz
  simpa using this

theorem neutral_forIn {x y z : List K} {s : String} (hx : Neutral x) (hy : Neutral y) (hz : Neutral z) :
    Neutral (.pu .parenL :: (x ++ .name s :: (y ++ .pu .parenR :: z))) := by
  have := neutral_paren (neutral_append hx (neutral_cons (k := .name s) rfl hy)) hz
  simpa using this

theorem plain_kw {k : K} (h : isKw k = true) : plain k = true := by
  cases k <;> first | rfl | cases h

theorem plain_wordKw {k : K} (h : isWord k = true ∨ isKw k = true) : plain k = true := h.elim plain_word plain_kw

theorem neutral_impSpec {n : Node} {ks : List K} (h : ImpSpec n ks) : Neutral ks := by
  cases h with
  | name h => exact neutral_one (plain_word h)
  | as_ h h' => exact neutral_cons (plain_wordKw h) (neutral_cons rfl (neutral_one (plain_word h')))

theorem neutral_expSpec {n : Node} {ks : List K} (h : ExpSpec n ks) : Neutral ks := by
  cases h with
  | name h => exact neutral_one (plain_wordKw h)
  | as_ h h' => exact neutral_cons (plain_wordKw h) (neutral_cons rfl (neutral_one (plain_wordKw h')))

theorem neutral_specs {P : Node → List K → Prop} (hP : ∀ n ks, P n ks → Neutral ks) {l : List Node} {ks : List K} (h : Specs P l ks) :
    Neutral ks := by
  induction h with
  | nil => exact neutral_nil
  | one h => exact hP _ _ h
  | cons h _ ih => exact neutral_append (hP _ _ h) (neutral_cons rfl ih)

theorem neutral_loose {P : Node → List K → Prop} (hP : ∀ n ks, P n ks → Neutral ks) {l : List Node} {ks : List K} (h : Loose P l ks) :
    Neutral ks := by
  induction h with
  | nil => exact neutral_nil
  | cons h hc _ ih =>
    refine neutral_append (neutral_append (hP _ _ h) ?_) ih
    rcases hc with rfl | rfl
    · exact neutral_nil
    · exact neutral_one rfl

theorem neutral_impSpecs {l : List Node} {ks : List K} (h : Specs ImpSpec l ks) : Neutral ks := neutral_specs (fun _ _ => neutral_impSpec) h
theorem neutral_expSpecs {l : List Node} {ks : List K} (h : Specs ExpSpec l ks) : Neutral ks := neutral_specs (fun _ _ => neutral_expSpec) h

theorem neutral_group {L : Ex → Prop} {l : List Node} {ks : List K} (h : Group L l ks) : Neutral ks := by
  cases h with
  | named h => exact neutral_brace (neutral_impSpecs h) neutral_nil
  | loose _ h => exact neutral_brace (neutral_loose (fun _ _ => neutral_impSpec) h) neutral_nil
  | ns h => exact neutral_cons rfl (neutral_cons rfl (neutral_one (plain_word h)))

theorem neutral_clause {L : Ex → Prop} {l : List Node} {ks : List K} (h : Clause L l ks) : Neutral ks := by
  cases h with
  | default h => exact neutral_one (plain_word h)
  | group h => exact neutral_group h
  | both h g => exact neutral_cons (plain_word h) (neutral_cons rfl (neutral_group g))
  | two _ g g' => exact neutral_append (neutral_group g) (neutral_cons rfl (neutral_group g'))

macro "pl" : tactic => `(tactic| first
  | rfl
  | exact plain_operand (by assumption)
  | exact plain_word (by assumption)
  | exact plain_key (by assumption)
  | exact plain_pvt (by assumption)
  | exact plain_unary (by assumption)
  | exact plain_incDec (by assumption)
  | exact plain_yield (by assumption)
  | exact plain_op (by assumption)
  | exact plain_dec (by assumption)
  | exact plain_tpl (fun _ => rfl) (fun _ => rfl) (by assumption))

macro "neu" : tactic => `(tactic| (
  try simp only [List.append_assoc, List.cons_append, List.nil_append]
  repeat first
    | assumption
    | exact neutral_nil
    | exact neutral_semi (by assumption)
    | exact neutral_accessor (by assumption)
    | exact neutral_head (by assumption)
    | exact neutral_clause (by assumption)
    | exact neutral_expSpecs (by assumption)
    | exact neutral_opt rfl
    | with_reducible refine neutral_paren ?_ ?_
    | with_reducible refine neutral_for ?_ ?_ ?_ ?_
    | with_reducible refine neutral_forIn ?_ ?_ ?_
    | with_reducible refine neutral_brack ?_ ?_
    | with_reducible refine neutral_brace ?_ ?_
    | (with_reducible refine neutral_cons ?_ ?_
       · pl)
    | with_reducible refine neutral_append ?_ ?_))

set_option maxHeartbeats 1600000 in
theorem stmts_neutral {L : Ex → Prop} {l : List Node} {ks : List K} (h : Stmts L l ks) : Neutral ks := by
  apply Stmts.rec (L := L)
    (motive_1 := fun _ ks _ => Neutral ks)
    (motive_2 := fun _ _ ks _ => Neutral ks)
    (motive_3 := fun _ ks _ => Neutral ks)
    (motive_4 := fun _ ks _ => Neutral ks)
    (motive_5 := fun _ ks _ => Neutral ks)
    (motive_6 := fun _ ks _ => Neutral ks)
    (motive_7 := fun _ ks _ => Neutral ks)
    (motive_8 := fun _ ks _ => Neutral ks)
    (motive_9 := fun _ ks _ => Neutral ks)
    (motive_10 := fun _ ks _ => Neutral ks)
    (motive_11 := fun _ ks _ => Neutral ks)
    (motive_12 := fun _ ks _ => Neutral ks)
    (motive_13 := fun _ ks _ => Neutral ks)
    (motive_14 := fun _ ks _ => Neutral ks)
    (motive_15 := fun _ ks _ => Neutral ks)
    (motive_16 := fun _ ks _ => Neutral ks)
    (motive_17 := fun _ ks _ => Neutral ks)
    (motive_18 := fun _ _ ks _ => Neutral ks)
    (motive_19 := fun _ ks _ => Neutral ks)
    (motive_20 := fun _ _ ks _ => Neutral ks)
  case t => exact h
  all_goals intros
  all_goals neu

set_option maxHeartbeats 1600000 in
theorem list_neutral {L : Ex → Prop} {l : List Node} {ks : List K} (h : List_ L l ks) : Neutral ks := by
  apply List_.rec (L := L)
    (motive_1 := fun _ ks _ => Neutral ks)
    (motive_2 := fun _ _ ks _ => Neutral ks)
    (motive_3 := fun _ ks _ => Neutral ks)
    (motive_4 := fun _ ks _ => Neutral ks)
    (motive_5 := fun _ ks _ => Neutral ks)
    (motive_6 := fun _ ks _ => Neutral ks)
    (motive_7 := fun _ ks _ => Neutral ks)
    (motive_8 := fun _ ks _ => Neutral ks)
    (motive_9 := fun _ ks _ => Neutral ks)
    (motive_10 := fun _ ks _ => Neutral ks)
    (motive_11 := fun _ ks _ => Neutral ks)
    (motive_12 := fun _ ks _ => Neutral ks)
    (motive_13 := fun _ ks _ => Neutral ks)
    (motive_14 := fun _ ks _ => Neutral ks)
    (motive_15 := fun _ ks _ => Neutral ks)
    (motive_16 := fun _ ks _ => Neutral ks)
    (motive_17 := fun _ ks _ => Neutral ks)
    (motive_18 := fun _ _ ks _ => Neutral ks)
    (motive_19 := fun _ ks _ => Neutral ks)
    (motive_20 := fun _ _ ks _ => Neutral ks)
  case t => exact h
  all_goals intros
  all_goals neu

set_option maxHeartbeats 1600000 in
theorem expr_neutral {L : Ex → Prop} {e : Node} {ks : List K} (h : Expr L e ks) : Neutral ks := by
  apply Expr.rec (L := L)
    (motive_1 := fun _ ks _ => Neutral ks)
    (motive_2 := fun _ _ ks _ => Neutral ks)
    (motive_3 := fun _ ks _ => Neutral ks)
    (motive_4 := fun _ ks _ => Neutral ks)
    (motive_5 := fun _ ks _ => Neutral ks)
    (motive_6 := fun _ ks _ => Neutral ks)
    (motive_7 := fun _ ks _ => Neutral ks)
    (motive_8 := fun _ ks _ => Neutral ks)
    (motive_9 := fun _ ks _ => Neutral ks)
    (motive_10 := fun _ ks _ => Neutral ks)
    (motive_11 := fun _ ks _ => Neutral ks)
    (motive_12 := fun _ ks _ => Neutral ks)
    (motive_13 := fun _ ks _ => Neutral ks)
    (motive_14 := fun _ ks _ => Neutral ks)
    (motive_15 := fun _ ks _ => Neutral ks)
    (motive_16 := fun _ ks _ => Neutral ks)
    (motive_17 := fun _ ks _ => Neutral ks)
    (motive_18 := fun _ _ ks _ => Neutral ks)
    (motive_19 := fun _ ks _ => Neutral ks)
    (motive_20 := fun _ _ ks _ => Neutral ks)
  case t => exact h
  all_goals intros
  all_goals neu

set_option maxHeartbeats 1600000 in
theorem members_neutral {L : Ex → Prop} {p : Bool} {l : List Node} {ks : List K} (h : Members L p l ks) : Neutral ks := by
  apply Members.rec (L := L)
    (motive_1 := fun _ ks _ => Neutral ks)
    (motive_2 := fun _ _ ks _ => Neutral ks)
    (motive_3 := fun _ ks _ => Neutral ks)
    (motive_4 := fun _ ks _ => Neutral ks)
    (motive_5 := fun _ ks _ => Neutral ks)
    (motive_6 := fun _ ks _ => Neutral ks)
    (motive_7 := fun _ ks _ => Neutral ks)
    (motive_8 := fun _ ks _ => Neutral ks)
    (motive_9 := fun _ ks _ => Neutral ks)
    (motive_10 := fun _ ks _ => Neutral ks)
    (motive_11 := fun _ ks _ => Neutral ks)
    (motive_12 := fun _ ks _ => Neutral ks)
    (motive_13 := fun _ ks _ => Neutral ks)
    (motive_14 := fun _ ks _ => Neutral ks)
    (motive_15 := fun _ ks _ => Neutral ks)
    (motive_16 := fun _ ks _ => Neutral ks)
    (motive_17 := fun _ ks _ => Neutral ks)
    (motive_18 := fun _ _ ks _ => Neutral ks)
    (motive_19 := fun _ ks _ => Neutral ks)
    (motive_20 := fun _ _ ks _ => Neutral ks)
  case t => exact h
  all_goals intros
  all_goals neu

theorem expr_nonempty {L : Ex → Prop} {e : Node} {ks : List K} (h : Expr L e ks) : ks ≠ [] := by
  apply Expr.rec (L := L)
    (motive_1 := fun _ ks _ => ks ≠ [])
    (motive_2 := fun _ _ ks _ => ks ≠ [])
    (motive_3 := fun _ _ _ => True)
    (motive_4 := fun _ ks _ => ks ≠ [])
    (motive_5 := fun _ _ _ => True)
    (motive_6 := fun _ _ _ => True)
    (motive_7 := fun _ _ _ => True)
    (motive_8 := fun _ _ _ => True)
    (motive_9 := fun _ _ _ => True)
    (motive_10 := fun _ _ _ => True)
    (motive_11 := fun _ _ _ => True)
    (motive_12 := fun _ _ _ => True)
    (motive_13 := fun _ _ _ => True)
    (motive_14 := fun _ _ _ => True)
    (motive_15 := fun _ _ _ => True)
    (motive_16 := fun _ _ _ => True)
    (motive_17 := fun _ _ _ => True)
    (motive_18 := fun _ _ _ _ => True)
    (motive_19 := fun _ _ _ => True)
    (motive_20 := fun _ _ _ _ => True)
  case t => exact h
  all_goals intros
  all_goals first | trivial | simp_all

end Mole.Parser.Prog
