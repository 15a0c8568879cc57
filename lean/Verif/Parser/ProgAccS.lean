import Verif.Parser.ProgAccE
import Verif.Parser.ProgAccM

/-! # The tokens taken are those of the tree: operators, statements, programs (for C76) -/

namespace Mole.Parser.Prog

attribute [local irreducible] peek nl left scope next must chk req fail enter enterFn enterCls pushRet leave scopeRef setKind pushLoop popLoop
  lastLoop opening semi ident target patRest pat patElem patArr param params body blockS methodTail propKey propName patProp patObj
  arrowFn star fnName bodyOrExpr fnKw asyncArgs asyncTail asyncExpr tplRest tpl spread arg args parenE arrRest propData objProp
  objRest primary dot subscript callRest optional memRest newRest memObj newE lhs1 lhs update unary binInner binRest cond yieldE
  assignTail assign seqRest seqTail expr initE decs varDec varDecS exprS head sub ifS whileS doS withS forInit forLeft forRight
  forInTail optE forTail forAwait forS retArg retS throwS jumpLabel brkS contS labelS caseBody cases switchS catchParam catchS
  finallyS tryS asyncStmt otherS stmt stmts classKey memberTail fieldValue fieldTail namedMember memberRest member members className
  heritage classE condTail importMeta importE identKw srcE impSpec optComma impSpecs impGroup impFirst impMore impClause optFrom importS
  expSpec expSpecs nsName exportAll fromOpt exportNamed defaultS exportRest exportS

section
variable {L : Ex → Prop} {o : Chk} {r : Rec}

theorem lhs1_ok (hr : RecOk L r) : Spec L (lhs1 o r) (Expr L) := by
  intro s hG
  unfold lhs1
  w
  refine wp_ite (fun hc => hr.newE s hG hc) (fun _ => ?_)
  ws
  refine wp_spec (primary_ok hr) hG (fun n y s2 h2 h3 _ => ?_)
  ws
  refine wp_spec (hr.callRest _ _ _ _ _ h3 (by simp)) (by assumption) ?_
  rintro ⟨n, b⟩ y s3 h4 h5 _
  dsimp only at h5 ⊢
  w
  exact ⟨_, by rw [h2, h4, ← List.append_assoc], h5⟩

theorem lhs_ok (hr : RecOk L r) : Spec L (lhs o r) (Expr L) := by
  intro s hG
  unfold lhs
  w
  refine wp_spec (lhs1_ok hr) hG (fun n y s2 h2 h3 _ => ?_)
  w
  refine wp_ite (fun hc => ?_) (fun _ => ?_)
  · ws
    refine wp_spec (hr.callRest _ _ _ _ _ h3 (by simp)) (by assumption) ?_
    rintro ⟨n, b⟩ y s3 h4 h5 _
    dsimp only at h5 ⊢
    w
    exact ⟨_, by rw [h2, h4, ← List.append_assoc], h5⟩
  · w
    exact ⟨_, h2, h3⟩

theorem isIncDec_ne {k : K} (h : isIncDec k = true) : k ≠ .eof := by
  rintro rfl
  cases h

theorem isUnary_ne {k : K} (h : isUnary k = true) : k ≠ .eof := by
  rintro rfl
  cases h

theorem update_ok (hr : RecOk L r) : Spec L (update o r) (Expr L) := by
  intro s hG
  unfold update
  w
  refine wp_ite (fun hc => ?_) (fun _ => ?_)
  · ws
    refine wp_next hG rfl (isIncDec_ne hc) (fun s1 h1 _ => ?_)
    ws
    refine wp_spec hr.unary (by assumption) (fun n y s2 h2 h3 _ => ?_)
    w
    exact ⟨s.h :: y, by rw [h1, h2]; rfl, .prefix_ hc h3⟩
  · ws
    refine wp_spec (lhs_ok hr) hG (fun n y s2 h2 h3 _ => ?_)
    w
    refine wp_ite (fun hc => ?_) (fun _ => ?_)
    · simp only [Bool.and_eq_true] at hc
      w
      refine wp_next (by assumption) rfl (isIncDec_ne hc.2) (fun s1 h1 _ => ?_)
      w
      exact ⟨y ++ [s2.h], by rw [h2, h1, List.append_assoc]; rfl, .postfix_ hc.2 h3⟩
    · w
      exact ⟨_, h2, h3⟩

theorem unary_ok (hr : RecOk L r) : Spec L (unary o r) (Expr L) := by
  intro s hG
  unfold unary
  w
  refine wp_ite (fun hc => ?_) (fun _ => wp_ite (fun hc => ?_) (fun _ => update_ok hr s hG))
  · ws
    refine wp_next hG rfl (isUnary_ne hc) (fun s1 h1 _ => ?_)
    ws
    refine wp_spec hr.unary (by assumption) (fun n y s2 h2 h3 _ => ?_)
    w
    exact ⟨s.h :: y, by rw [h1, h2]; rfl, .unary (Or.inl hc) h3⟩
  · w
    refine wp_ite (fun hc => ?_) (fun _ => ?_)
    · w
      exact ⟨_, by simp [*], .leaf rfl⟩
    · w
      refine wp_spec hr.unary (by assumption) (fun n y s2 h2 h3 _ => ?_)
      w
      exact ⟨_, by simp [*], .unary (Or.inr rfl) h3⟩

theorem isBin_op {b : Bool} {k : K} {op : BinOp} (h : isBin b k = some op) : Op op k ∧ k ≠ .eof := by
  unfold isBin at h
  split at h
  · cases h
    exact ⟨.op _, nofun⟩
  · split at h
    · rename_i hs
      cases h
      simp at hs
      rw [hs.1]
      exact ⟨.in_, nofun⟩
    · cases h
  · cases h

theorem binInner_ok (hr : RecOk L r) (e : Node) (p : Nat) (a b : Bool) (x : List K) (he : Expr L e x) :
    Spec L (binInner r e p a b) (fun n y => Expr L n (x ++ y)) := by
  intro s hG
  unfold binInner
  w
  split
  · refine wp_ite (fun hc => ?_) (fun _ => ?_)
    · ws
      refine wp_spec (hr.binRest _ _ _ _ _ he) hG (fun n y s2 h2 h3 _ => ?_)
      refine wp_spec (hr.binInner _ _ _ _ _ h3) (by assumption) (fun n y s3 h4 h5 _ => ?_)
      exact ⟨_, by rw [h2, h4, ← List.append_assoc], by simpa using h5⟩
    · w
      exact ⟨[], rfl, by simpa using he⟩
  · w
    exact ⟨[], rfl, by simpa using he⟩

theorem binRest_ok (hr : RecOk L r) (e : Node) (p : Nat) (a b : Bool) (x : List K) (he : Expr L e x) :
    Spec L (binRest r e p a b) (fun n y => Expr L n (x ++ y)) := by
  intro s hG
  unfold binRest
  w
  split
  · w
    exact ⟨[], rfl, by simpa using he⟩
  · rename_i op ho
    obtain ⟨hop, hne⟩ := isBin_op ho
    refine wp_ite (fun hc => ?_) (fun _ => ?_)
    · w
      exact ⟨[], rfl, by simpa using he⟩
    · ws
      ws
      ws
      refine wp_next hG rfl hne (fun s1 h1 _ => ?_)
      ws
      refine wp_spec hr.unary (by assumption) (fun n y s2 h2 h3 _ => ?_)
      ws
      refine wp_spec (hr.binInner _ _ _ _ _ h3) (by assumption) (fun n z s3 h4 h5 _ => ?_)
      w
      refine wp_spec (hr.binRest _ _ _ _ _ (.bin hop he h5)) (by assumption) (fun n v s4 h6 h7 _ => ?_)
      exact ⟨s.h :: (y ++ z ++ v), by rw [h1, h2, h4, h6]; simp, by simpa using h7⟩

theorem cond_ok (hr : RecOk L r) : Spec L (cond r) (Expr L) := by
  intro s hG
  unfold cond
  ws
  refine wp_spec hr.unary (by assumption) (fun n y s2 h2 h3 _ => ?_)
  refine wp_spec (condTail_ok hr h3) (by assumption) (fun n z s3 h4 h5 _ => ?_)
  exact ⟨_, by rw [h2, h4, ← List.append_assoc], h5⟩

theorem yield_ne {k : K} (h : isYield k = true) : k ≠ .eof := by
  rintro rfl
  exact absurd h (by decide)

theorem yieldE_ok (hr : RecOk L r) {s : S} (hG : Good L s) (hy : isYield s.h = true) :
    WP (yieldE o r) (fun n s' => ∃ x, s.T = x ++ s'.T ∧ Expr L n x) s := by
  unfold yieldE
  ws
  refine wp_next hG rfl (yield_ne hy) (fun s1 h1 _ => ?_)
  w
  refine wp_ite (fun hc => ?_) (fun _ => ?_)
  · w
    exact ⟨[s.h], h1, .yield_ hy⟩
  · ws
    refine wp_spec star_ok (by assumption) ?_
    rintro d _ s2 h2 rfl _
    ws
    refine wp_spec hr.assign (by assumption) (fun b v s5 h8 h9 _ => ?_)
    w
    exact ⟨_, by rw [h1, h2, h8]; simp, .yieldArg hy h9⟩

theorem target_ok {e : Node} {x : List K} (he : Expr L e x) (hs : Sub L x) (s : S) :
    WP (target o e) (fun n s' => s' = s ∧ Expr L n x) s := by
  intro n s' h
  unfold target at h
  split at h
  · rename_i n' hn
    cases h
    exact ⟨rfl, toTarget_ok _ _ _ _ _ hn hs he⟩
  · cases h

theorem Good.sub {s s' : S} {x : List K} (h : Good L s) (e : s.T = x ++ s'.T) : Sub L x :=
  fun y hy => h y (by rw [e]; exact occ_left hy)

theorem assignTail_ok (hr : RecOk L r) {e : Node} {x : List K} (he : Expr L e x) (hs : Sub L x) :
    Spec L (assignTail o r e) (fun n y => Expr L n (x ++ y)) := by
  intro s hG
  unfold assignTail
  w
  split
  · rename_i op hk
    w
    refine wp_spec hr.assign (by assumption) (fun b v s2 h2 h3 _ => ?_)
    ws
    intro n s3 e3
    obtain ⟨rfl, h4⟩ := target_ok he hs _ n s3 e3
    w
    exact ⟨.asg op :: v, by simp [*], .assign h4 h3⟩
  · w
    exact ⟨[], rfl, by simpa using he⟩

theorem assign_ok (hr : RecOk L r) : Spec L (assign o r) (Expr L) := by
  intro s hG
  unfold assign
  w
  refine wp_ite (fun hc => ?_) (fun _ => ?_)
  · simp only [Bool.and_eq_true] at hc
    exact yieldE_ok hr hG hc.2
  · ws
    refine wp_spec (cond_ok hr) (by assumption) (fun n y s2 h2 h3 _ => ?_)
    w
    refine wp_ite (fun hc => ?_) (fun _ => ?_)
    · w
      simp only [Bool.and_eq_true, decide_eq_true_eq] at hc
      refine wp_specAt (arrowFn_ok hr [n]) (by assumption) hc.1.2 ?_
      rintro _ _ s3 h4 ⟨b, z, rfl, rfl, hb⟩ _
      have hT : s.T = (y ++ .pu .arrow :: z) ++ s3.T := by
        rw [h2, h4, ← List.append_assoc]
      have hA : Expr L (.arrow false [n] b) (y ++ .pu .arrow :: z) := Expr.arrow1 (as := false) h3 hb
      refine wp_spec (assignTail_ok hr hA (hG.sub hT)) (by assumption) (fun m v s4 h5 h6 _ => ?_)
      exact ⟨_, by rw [hT, h5, ← List.append_assoc], h6⟩
    · refine wp_spec (assignTail_ok hr h3 (hG.sub h2)) (by assumption) (fun m v s4 h5 h6 _ => ?_)
      exact ⟨_, by rw [h2, h5, ← List.append_assoc], h6⟩

theorem seqRest_ok (hr : RecOk L r) : Spec L (seqRest r) (Tail L) := by
  intro s hG
  unfold seqRest
  w
  refine wp_ite (fun hc => ?_) (fun _ => ?_)
  · w
    refine wp_spec hr.assign (by assumption) (fun b v s2 h2 h3 _ => ?_)
    ws
    refine wp_spec hr.seqRest (by assumption) (fun l u s3 h4 h5 _ => ?_)
    w
    exact ⟨_, by simp [*], .cons h3 h5⟩
  · w
    exact ⟨[], rfl, .nil⟩

theorem seqTail_ok (hr : RecOk L r) {e : Node} {x : List K} (he : Expr L e x) :
    Spec L (seqTail r e) (fun n y => Expr L n (x ++ y)) := by
  intro s hG
  unfold seqTail
  w
  refine wp_ite (fun hc => ?_) (fun _ => ?_)
  · ws
    refine wp_spec hr.seqRest (by assumption) (fun l u s3 h4 h5 _ => ?_)
    w
    exact ⟨_, h4, .seq he h5⟩
  · w
    exact ⟨[], rfl, by simpa using he⟩

theorem expr_ok (hr : RecOk L r) : Spec L (expr o r) (Expr L) := by
  intro s hG
  unfold expr
  ws
  refine wp_spec hr.assign (by assumption) (fun b v s2 h2 h3 _ => ?_)
  w
  refine wp_spec (seqTail_ok hr h3) (by assumption) (fun m v s4 h5 h6 _ => ?_)
  exact ⟨_, by rw [h2, h5, ← List.append_assoc], h6⟩

/-! ## Statements -/

theorem isVarDec_word {ts : List Tok} {v : K} (h : isVarDec o ts = some v) : DecWord v (hd ts) := by
  unfold isVarDec at h
  split at h
  · rename_i hv
    cases h
    rw [hv]
    exact .var
  · have hk : ∀ v', decKind (hd ts) = some v' → DecWord v' (hd ts) := by
      intro v' hv
      unfold decKind at hv
      split at hv
      · rename_i e
        cases hv
        rw [e]
        exact .letW
      · rename_i e
        cases hv
        rw [e]
        exact .constW
      · rename_i e
        split at hv
        · rename_i hs
          cases hv
          rw [e, hs]
          exact .let_
        · split at hv
          · rename_i hs
            cases hv
            rw [e, hs]
            exact .const_
          · cases hv
      · cases hv
    split at h
    · cases h
    · rename_i v' hv
      have hi : ∀ (b : Bool), (if b then some v' else none) = some v → v' = v := by
        intro b hb
        cases b with
        | true => exact Option.some.inj hb
        | false => cases hb
      split at h
      · cases h
        exact hk _ hv
      · exact hi _ h ▸ hk _ hv

theorem DecWord.ne {v k : K} (h : DecWord v k) : k ≠ .eof := by
  cases h <;> nofun

theorem initE_ok (hr : RecOk L r) {e : Node} {x : List K} (he : Expr L e x) : Spec L (initE r) (fun n y => Var L (.dec e n) (x ++ y)) := by
  intro s hG
  unfold initE
  w
  refine wp_ite (fun hc => ?_) (fun _ => ?_)
  · w
    refine wp_spec hr.assign (by assumption) (fun b v s2 h2 h3 _ => ?_)
    exact ⟨.asg .assign :: v, by simp [*], .init he h3⟩
  · w
    exact ⟨[], rfl, by simpa using Var.bare he⟩

theorem decs_ok (hr : RecOk L r) (b : Bool) : Spec L (decs r b) (Decs L) := by
  intro s hG
  unfold decs
  ws
  refine wp_spec hr.pat (by assumption) (fun e x s2 h2 h3 _ => ?_)
  ws
  refine wp_spec (initE_ok hr h3) (by assumption) (fun i y s3 h4 h5 _ => ?_)
  w
  refine wp_ite (fun hc => ?_) (fun _ => ?_)
  · w
    refine wp_spec (hr.decs b) (by assumption) (fun l z s4 h6 h7 _ => ?_)
    w
    exact ⟨_, by simp [*], .cons h5 h7⟩
  · w
    exact ⟨_, by simp [*], .one h5⟩

theorem varDec_ok (hr : RecOk L r) {v : K} {s : S} (hG : Good L s) (hv : DecWord v s.h) :
    WP (varDec o r v) (fun n s' => ∃ x, s.T = x ++ s'.T ∧ Dec L n x) s := by
  unfold varDec
  ws
  refine wp_next hG rfl hv.ne (fun s1 h1 _ => ?_)
  ws
  refine wp_spec (hr.decs _) (by assumption) (fun l z s4 h6 h7 _ => ?_)
  w
  exact ⟨s.h :: z, by rw [h1, h6]; rfl, .dec hv h7⟩

theorem varDecS_ok (hr : RecOk L r) {v : K} {s : S} (hG : Good L s) (hv : DecWord v s.h) :
    WP (varDecS o r v) (fun n s' => ∃ x, s.T = x ++ s'.T ∧ Stmt L n x) s := by
  unfold varDecS
  ws
  intro n s1 e
  obtain ⟨x, h1, h2⟩ := varDec_ok hr hG hv n s1 e
  have g1 := hG.after h1
  w
  refine ⟨_, ?_, .dec h2 ‹_›⟩
  simp [*]

theorem dec_isDecl {d : Node} {x : List K} (h : Dec L d x) : isDecl d = true := by
  cases h
  rfl

theorem varDecS_dec (hr : RecOk L r) {v : K} {s : S} (hG : Good L s) (hv : DecWord v s.h) :
    WP (varDecS o r v) (fun n s' => ∃ x, s.T = x ++ s'.T ∧ Stmt L n x ∧ isDecl n = true) s := by
  unfold varDecS
  ws
  intro n s1 e
  obtain ⟨x, h1, h2⟩ := varDec_ok hr hG hv n s1 e
  have g1 := hG.after h1
  w
  refine ⟨_, ?_, .dec h2 ‹_›, dec_isDecl h2⟩
  simp [*]

theorem exprS_ok (hr : RecOk L r) : Spec L (exprS r) (Stmt L) := by
  intro s hG
  unfold exprS
  ws
  refine wp_spec hr.expr (by assumption) (fun e x s2 h2 h3 _ => ?_)
  w
  refine ⟨_, ?_, .expr h3 ‹_›⟩
  simp [*]

theorem head_ok (hr : RecOk L r) : Spec L (head r) (fun n y => ∃ x, y = .pu .parenL :: x ++ [.pu .parenR] ∧ Expr L n x) := by
  intro s hG
  unfold head
  w
  refine wp_spec hr.expr (by assumption) (fun e x s2 h2 h3 _ => ?_)
  w
  exact ⟨_, by simp [*], _, rfl, h3⟩

theorem sub_ok (hr : RecOk L r) (d : Nat) : Spec L (sub r d) (Stmt L) := by
  intro s hG
  unfold sub
  w
  refine wp_spec hr.stmt (by assumption) (fun e x s2 h2 h3 _ => ?_)
  w
  exact ⟨_, by simp [*], h3⟩

theorem ifS_ok (hr : RecOk L r) : SpecAt L (.kw .if_) (ifS r) (Stmt L) := by
  intro s hG hk
  unfold ifS
  w
  refine wp_spec (head_ok hr) (by assumption) ?_
  rintro t _ s2 h2 ⟨x, rfl, h3⟩ _
  w
  refine wp_spec (sub_ok hr _) (by assumption) (fun c y s3 h4 h5 _ => ?_)
  w
  refine wp_ite (fun hc => ?_) (fun _ => ?_)
  · w
    refine wp_spec (sub_ok hr _) (by assumption) (fun e z s4 h6 h7 _ => ?_)
    w
    exact ⟨_, by simp [*], .ifElse h3 h5 h7⟩
  · w
    exact ⟨_, by simp [*], .if_ h3 h5⟩

theorem whileS_ok (hr : RecOk L r) : SpecAt L (.kw .while_) (whileS r) (Stmt L) := by
  intro s hG hk
  unfold whileS
  w
  refine wp_spec (head_ok hr) (by assumption) ?_
  rintro t _ s2 h2 ⟨x, rfl, h3⟩ _
  w
  refine wp_spec (sub_ok hr _) (by assumption) (fun c y s3 h4 h5 _ => ?_)
  w
  refine ⟨_, ?_, .while_ h3 h5⟩
  simp [*]

theorem doS_ok (hr : RecOk L r) : SpecAt L (.kw .do_) (doS r) (Stmt L) := by
  intro s hG hk
  unfold doS
  w
  refine wp_spec (sub_ok hr _) (by assumption) (fun c y s3 h4 h5 _ => ?_)
  w
  refine wp_spec (head_ok hr) (by assumption) ?_
  rintro t _ s2 h2 ⟨x, rfl, h3⟩ _
  w
  refine ⟨_, ?_, .do_ h5 h3 ‹_›⟩
  simp [*]

theorem withS_ok (hr : RecOk L r) : SpecAt L (.kw .with_) (withS o r) (Stmt L) := by
  intro s hG hk
  unfold withS
  w
  refine wp_spec (head_ok hr) (by assumption) ?_
  rintro t _ s2 h2 ⟨x, rfl, h3⟩ _
  w
  refine wp_spec hr.stmt (by assumption) (fun c y s3 h4 h5 _ => ?_)
  w
  exact ⟨_, by simp [*], .with_ h3 h5⟩

theorem forInit_ok (hr : RecOk L r) : Spec L (forInit o r) (ForInit L) := by
  intro s hG
  unfold forInit
  ws
  refine wp_left (fun ts ht _ => ?_)
  split
  · rename_i v hv
    intro n s' e
    obtain ⟨x, h1, h2⟩ := varDec_ok hr hG (ht ▸ isVarDec_word hv) n s' e
    exact ⟨x, h1, .dec h2⟩
  · refine wp_ite (fun hc => ?_) (fun _ => ?_)
    · w
      exact ⟨[], rfl, .none⟩
    · refine wp_spec hr.expr (by assumption) (fun c y s3 h4 h5 _ => ?_)
      exact ⟨_, h4, .expr h5⟩

theorem forInit_expr {e : Node} {x : List K} (h : ForInit L e x) (hn : e ≠ .nil) (hd : ∀ k l, e ≠ .varDec k l) : Expr L e x := by
  cases h with
  | none => exact absurd rfl hn
  | expr h => exact h
  | dec h =>
    cases h
    exact absurd rfl (hd _ _)

theorem forLeft_ok {e : Node} {x : List K} (he : ForInit L e x) (hs : Sub L x) (s : S) :
    WP (forLeft o e) (fun n s' => s' = s ∧ ForInit L n x) s := by
  unfold forLeft
  split
  · exact wp_fail
  · w
    exact ⟨rfl, he⟩
  · intro n s' h
    obtain ⟨h1, h2⟩ := target_ok (forInit_expr he nofun nofun) hs s n s' h
    exact ⟨h1, .expr h2⟩
  · intro n s' h
    obtain ⟨h1, h2⟩ := target_ok (forInit_expr he nofun nofun) hs s n s' h
    exact ⟨h1, .expr h2⟩
  · w
    exact ⟨rfl, he⟩

theorem forRight_ok (hr : RecOk L r) (b : Bool) : Spec L (forRight r b) (Expr L) := by
  intro s hG
  unfold forRight
  exact wp_ite (fun _ => hr.expr s hG) (fun _ => hr.assign s hG)

theorem forInTail_ok (hr : RecOk L r) (d : Nat) (aw b : Bool) {e : Node} {x : List K} (he : ForInit L e x) (hs : Sub L x) :
    SpecAt L (.name (if b then "in" else "of")) (forInTail o r d aw b e) (fun n y => ∃ l f c u v, n = .forIn aw b l f c ∧
      y = .name (if b then "in" else "of") :: u ++ .pu .parenR :: v ∧ ForInit L l x ∧ Expr L f u ∧ Stmt L c v) := by
  intro s hG hk
  unfold forInTail
  ws
  refine wp_pushLoop hG (fun s1 h1 h1' g1 => ?_)
  ws
  intro n s2 e2
  obtain ⟨rfl, h2⟩ := forLeft_ok he hs _ n s2 e2
  ws
  refine wp_next g1 (h1' ▸ hk) (by nofun) (fun s3 h3 _ => ?_)
  ws
  refine wp_spec (forRight_ok hr b) (by assumption) (fun f u s4 h4 h5 _ => ?_)
  w
  refine wp_spec (sub_ok hr _) (by assumption) (fun c v s5 h6 h7 _ => ?_)
  w
  refine ⟨_, ?_, _, _, _, _, _, rfl, rfl, h2, h5, h7⟩
  clear h1' hk
  simp [*]

theorem optE_ok (hr : RecOk L r) (k : K) : Spec L (optE r k) (Opt L) := by
  intro s hG
  unfold optE
  w
  refine wp_ite (fun hc => ?_) (fun _ => ?_)
  · w
    exact ⟨[], rfl, .none⟩
  · refine wp_spec hr.expr (by assumption) (fun c y s3 h4 h5 _ => ?_)
    exact ⟨_, h4, .some h5⟩

theorem forTail_ok (hr : RecOk L r) (d : Nat) (e : Node) :
    Spec L (forTail r d e) (fun n y => ∃ t u b p q w, n = .forS e t u b ∧
      y = .pu .semi :: p ++ .pu .semi :: q ++ .pu .parenR :: w ∧ Opt L t p ∧ Opt L u q ∧ Stmt L b w) := by
  intro s hG
  unfold forTail
  w
  refine wp_spec (optE_ok hr _) (by assumption) (fun t p s2 h2 h3 _ => ?_)
  w
  refine wp_spec (optE_ok hr _) (by assumption) (fun u q s3 h4 h5 _ => ?_)
  w
  refine wp_spec (sub_ok hr _) (by assumption) (fun c v s5 h6 h7 _ => ?_)
  w
  refine ⟨_, ?_, _, _, _, _, _, _, rfl, rfl, h3, h5, h7⟩
  simp [*]

theorem forAwait_ok : Spec L forAwait (fun b y => y = opt b (.cw .await)) := by
  intro s hG
  unfold forAwait
  w
  refine wp_ite (fun hc => ?_) (fun _ => ?_)
  · have hk : s.h = .cw .await := by
      simp at hc
      exact hc.2
    w
    exact ⟨_, ‹_›, rfl⟩
  · w
    exact ⟨[], rfl, rfl⟩

theorem forS_ok (hr : RecOk L r) : SpecAt L (.kw .for_) (forS o r) (Stmt L) := by
  intro s hG hk
  unfold forS
  w
  refine wp_spec forAwait_ok (by assumption) ?_
  rintro aw _ s2 h2 rfl _
  w
  refine wp_spec (forInit_ok hr) (by assumption) (fun i x s3 h4 h5 _ => ?_)
  have hs : Sub L x := Good.sub (by assumption) h4
  ws
  refine wp_setKind (by assumption) (fun s5 h6 h6' g5 => ?_)
  clear h6'
  w
  refine wp_ite (fun hc => ?_) (fun _ => wp_ite (fun hc => ?_) (fun _ => ?_))
  · w
    refine wp_specAt (forInTail_ok hr _ aw true h5 hs) (by assumption) hc ?_
    rintro _ _ s6 h7 ⟨l, f, c, u, v, rfl, rfl, hl, hf, hc⟩ _
    refine ⟨_, ?_, .forIn hl hf hc⟩
    simp [*]
  · w
    refine wp_specAt (forInTail_ok hr _ aw false h5 hs) (by assumption) hc ?_
    rintro _ _ s6 h7 ⟨l, f, c, u, v, rfl, rfl, hl, hf, hc⟩ _
    refine ⟨_, ?_, .forIn hl hf hc⟩
    simp [*]
  · w
    obtain rfl : aw = false := by simpa using ‹(!aw) = true›
    refine wp_spec (forTail_ok hr _ i) (by assumption) ?_
    rintro _ _ s6 h7 ⟨t, u, b, p, q, w, rfl, rfl, ht, hu, hb⟩ _
    refine ⟨_, ?_, .for_ h5 ht hu hb⟩
    simp [*, opt]

theorem semi_cases {s : S} {raise : Bool} : WP (semi raise) (fun _ s' => s'.T = s.T ∨ s.T = .pu .semi :: s'.T) s := by
  intro u s' e
  unfold semi at e
  split at e
  · cases e
  · cases e
    split
    · rename_i hs
      right
      rw [T_of_h (s := s) hs (by decide)]
      simp [S.T]
    · exact Or.inl rfl

theorem retS_ok (hr : RecOk L r) : SpecAt L (.kw .return_) (retS r) (Stmt L) := by
  intro s hG hk
  unfold retS
  w
  rename_i s1 h1 g1
  have hA : WP (retArg r) (fun n s' => ∃ x, s1.T = x ++ s'.T ∧
      ((n = .nil ∧ x = [.pu .semi, .pu .semi]) ∨ ∃ a y, x = a ++ y ∧ Opt L n a ∧ Semi y)) s1 := by
    unfold retArg
    w
    refine wp_ite (fun hc => ?_) (fun _ => wp_ite (fun hc => ?_) (fun _ => ?_))
    · w
      rename_i hs _
      rcases hs with rfl | rfl
      · exact ⟨[.pu .semi], by simp [*], Or.inr ⟨[], _, rfl, .none, Or.inr rfl⟩⟩
      · exact ⟨[.pu .semi, .pu .semi], by simp [*], Or.inl ⟨rfl, rfl⟩⟩
    · w
      refine ⟨_, ‹_›, Or.inr ⟨[], _, rfl, .none, ‹_›⟩⟩
    · ws
      refine wp_spec hr.expr (by assumption) (fun c y s3 h4 h5 _ => ?_)
      w
      refine ⟨_, ?_, Or.inr ⟨_, _, rfl, .some h5, ‹_›⟩⟩
      simp [*]
  intro n s2 e
  obtain ⟨x, h2, h3⟩ := hA n s2 e
  w
  rcases h3 with ⟨rfl, rfl⟩ | ⟨a, y, rfl, ha, hy⟩
  · refine ⟨_, ?_, .return2 (hG _ ⟨[], _, s2.T, ?_, rfl⟩)⟩ <;> simp [*]
  · exact ⟨_, by simp [*], .return_ ha hy⟩

theorem throwS_ok (hr : RecOk L r) : SpecAt L (.kw .throw_) (throwS r) (Stmt L) := by
  intro s hG hk
  unfold throwS
  w
  refine wp_spec hr.expr (by assumption) (fun c y s3 h4 h5 _ => ?_)
  w
  refine ⟨_, ?_, .throw_ h5 ‹_›⟩
  simp [*]

theorem jumpLabel_ok : Spec L (jumpLabel o) (fun n y => ∃ a s, y = a ++ s ∧ Opt L n a ∧ Semi s) := by
  intro s hG
  unfold jumpLabel
  w
  refine wp_ite (fun hc => ?_) (fun _ => ?_)
  · ws
    refine wp_spec ident_expr hG (fun c y s3 h4 h5 _ => ?_)
    w
    refine ⟨_, ?_, _, _, rfl, .some h5, ‹_›⟩
    simp [*]
  · w
    exact ⟨_, ‹_›, [], _, rfl, .none, ‹_›⟩

theorem brkS_ok : SpecAt L (.kw .break_) (brkS o) (Stmt L) := by
  intro s hG hk
  unfold brkS
  w
  refine wp_spec jumpLabel_ok (by assumption) ?_
  rintro n _ s2 h2 ⟨a, y, rfl, ha, hy⟩ _
  w
  exact ⟨_, by simp [*], .break_ ha hy⟩

theorem contS_ok : SpecAt L (.kw .continue_) (contS o) (Stmt L) := by
  intro s hG hk
  unfold contS
  w
  refine wp_spec jumpLabel_ok (by assumption) ?_
  rintro n _ s2 h2 ⟨a, y, rfl, ha, hy⟩ _
  w
  refine wp_ite (fun hc => ?_) (fun _ => ?_)
  · w
    exact ⟨_, by simp [*], .continue_ ha hy⟩
  · w
    exact ⟨_, by simp [*], .continue_ ha hy⟩

theorem labelS_ok (hr : RecOk L r) : Spec L (labelS o r) (Stmt L) := by
  intro s hG
  unfold labelS
  ws
  refine wp_spec ident_ok hG ?_
  rintro _ _ s1 h1 ⟨k, rfl, rfl, hk⟩ _
  w
  refine wp_spec (sub_ok hr _) (by assumption) (fun c v s5 h6 h7 _ => ?_)
  w
  exact ⟨_, by simp [*], .label hk h7⟩

theorem caseBody_ok (hr : RecOk L r) : Spec L (caseBody r) (Stmts L) := by
  intro s hG
  unfold caseBody
  w
  refine wp_ite (fun hc => ?_) (fun _ => ?_)
  · w
    exact ⟨[], rfl, .nil⟩
  · ws
    refine wp_spec hr.stmt (by assumption) (fun c v s5 h6 h7 _ => ?_)
    ws
    refine wp_spec hr.caseBody (by assumption) (fun l w s6 h8 h9 _ => ?_)
    w
    exact ⟨_, by simp [*], .cons h7 h9⟩

theorem cases_ok (hr : RecOk L r) (b : Bool) : Spec L (cases r b) (fun n y => ∃ z, y = z ++ [.pu .braceR] ∧ Cases L n z) := by
  intro s hG
  unfold cases
  w
  refine wp_ite (fun hc => ?_) (fun _ => wp_ite (fun hc => ?_) (fun _ => ?_))
  · w
    exact ⟨_, by simp [*], _, rfl, .nil⟩
  · w
    refine wp_spec hr.expr (by assumption) (fun t x s2 h2 h3 _ => ?_)
    w
    refine wp_spec hr.caseBody (by assumption) (fun c y s3 h4 h5 _ => ?_)
    ws
    refine wp_spec (hr.cases _) (by assumption) ?_
    rintro l _ s4 h6 ⟨z, rfl, hz⟩ _
    w
    exact ⟨_, by simp [*], _, rfl, .case h3 h5 hz⟩
  · w
    refine wp_spec hr.caseBody (by assumption) (fun c y s3 h4 h5 _ => ?_)
    ws
    refine wp_spec (hr.cases _) (by assumption) ?_
    rintro l _ s4 h6 ⟨z, rfl, hz⟩ _
    w
    exact ⟨_, by simp [*], _, rfl, .default h5 hz⟩

theorem switchS_ok (hr : RecOk L r) : SpecAt L (.kw .switch) (switchS r) (Stmt L) := by
  intro s hG hk
  unfold switchS
  w
  refine wp_spec (head_ok hr) (by assumption) ?_
  rintro t _ s2 h2 ⟨x, rfl, h3⟩ _
  w
  refine wp_spec (hr.cases _) (by assumption) ?_
  rintro l _ s4 h6 ⟨z, rfl, hz⟩ _
  w
  refine ⟨_, ?_, .switch h3 hz⟩
  simp [*]

theorem catchS_ok (hr : RecOk L r) : Spec L (catchS o r) (Catch L) := by
  intro s hG
  unfold catchS
  w
  rename_i s1 h1 _
  have hP : WP (catchParam r) (fun n s' => (n = .nil ∧ s' = s1) ∨ ∃ x, s1.T = .pu .parenL :: x ++ .pu .parenR :: s'.T ∧ Expr L n x) s1 := by
    unfold catchParam
    w
    refine wp_ite (fun hc => ?_) (fun _ => ?_)
    · w
      refine wp_spec hr.pat (by assumption) (fun c y s3 h4 h5 _ => ?_)
      w
      exact Or.inr ⟨_, by simp [*], h5⟩
    · w
      exact Or.inl ⟨rfl, rfl⟩
  intro p s2 e
  rcases hP p s2 e with ⟨rfl, rfl⟩ | ⟨x, h2, h3⟩
  · w
    refine wp_spec (body_ok hr) (by assumption) ?_
    rintro _ _ s3 h3 ⟨b, v, rfl, rfl, hb⟩ _
    w
    refine ⟨_, ?_, .bare (.block hb)⟩
    simp [*]
  · have g2 : Good L s2 := Good.after (s := s1) (x := .pu .parenL :: x ++ [.pu .parenR]) (by assumption) (by simp [h2])
    w
    refine wp_spec (body_ok hr) (by assumption) ?_
    rintro _ _ s3 h3 ⟨b, v, rfl, rfl, hb⟩ _
    w
    refine ⟨_, ?_, .param ‹_› (.block hb)⟩
    simp [*]

theorem finallyS_ok (hr : RecOk L r) : Spec L (finallyS r) (Finally L) := by
  intro s hG
  unfold finallyS
  w
  refine wp_spec (blockS_ok hr _) (by assumption) (fun c y s3 h4 h5 _ => ?_)
  exact ⟨_, by simp [*], .block h5⟩

theorem tryS_ok (hr : RecOk L r) : SpecAt L (.kw .try_) (tryS o r) (Stmt L) := by
  intro s hG hk
  unfold tryS
  w
  refine wp_spec (blockS_ok hr _) (by assumption) (fun b x s3 h4 h5 _ => ?_)
  w
  refine wp_ite (fun hc => ?_) (fun _ => ?_)
  · ws
    refine wp_spec (catchS_ok hr) (by assumption) (fun c y s4 h6 h7 _ => ?_)
    w
    refine wp_ite (fun hc => ?_) (fun _ => ?_)
    · ws
      refine wp_spec (finallyS_ok hr) (by assumption) (fun f z s5 h8 h9 _ => ?_)
      w
      exact ⟨_, by simp [*], .try_ h5 h7 h9⟩
    · w
      exact ⟨_, by simp [*], .try_ h5 h7 .none⟩
  · ws
    refine wp_spec (finallyS_ok hr) (by assumption) (fun f z s5 h8 h9 _ => ?_)
    w
    exact ⟨_, by simp [*], .try_ h5 .none h9⟩

theorem asyncStmt_ok (hr : RecOk L r) (an : Bool) {s : S} (hG : Good L s) (hk : s.h = .name "async") :
    WP (asyncStmt o r an) (fun n s' => ∃ x, s.T = x ++ s'.T ∧ Stmt L n x ∧
      ((IsFn n ∧ Expr L n x) ∨ s.T.tail.head? ≠ some (.kw .func))) s := by
  unfold asyncStmt
  w
  refine wp_ite (fun hc => ?_) (fun hnf => ?_)
  · intro n s' e
    obtain ⟨x, h1, h2, h3⟩ := fnKw_ok (o := o) hr false true an (s0 := s) (by assumption) (by simp [opt, *]) hc n s' e
    have h4 := h3 rfl
    obtain ⟨_, _, _, _, _, rfl⟩ := h4
    exact ⟨x, h1, .fn h2, Or.inl ⟨⟨_, _, _, _, _, rfl⟩, h2⟩⟩
  · rename_i s1 h1 g1
    have hnf' : s.T.tail.head? ≠ some (.kw .func) := by
      rw [h_T] at hnf
      rw [h1]
      intro e
      apply hnf
      rw [List.headD_eq_head?_getD]
      simp only [List.tail_cons] at e
      rw [e]
      rfl
    refine wp_mono (P := fun n s' => ∃ x, s.T = x ++ s'.T ∧ Stmt L n x) ?_ (fun n s' ⟨x, h, h'⟩ => ⟨x, h, h', Or.inr hnf'⟩)
    ws
    intro res s2 e
    obtain ⟨x, hx, hA⟩ := asyncTail_ok (o := o) hr hG h1 res s2 e
    have g2 := hG.after hx
    clear h1
    cases res with
    | arrow n =>
      dsimp only
      w
      refine ⟨_, ?_, .expr hA ‹_›⟩
      simp [*]
    | call n =>
      dsimp only
      ws
      refine wp_spec (hr.binRest _ _ _ _ _ (show Expr L n x from hA)) g2 (fun n y s3 h2 h3 _ => ?_)
      ws
      refine wp_spec (seqTail_ok hr h3) (by assumption) (fun m v s4 h5 h6 _ => ?_)
      w
      refine ⟨_, ?_, .expr h6 ‹_›⟩
      simp [*]
    | fn n =>
      dsimp only
      w
      obtain ⟨_, _, _, _, _, rfl⟩ := hA.2
      exact ⟨x, hx, .fn hA.1⟩

theorem otherS_ok (hr : RecOk L r) : Spec L (otherS o r) (Stmt L) := by
  intro s hG
  unfold otherS
  ws
  refine wp_left (fun ts ht _ => ?_)
  w
  split
  · rename_i v hv
    w
    exact varDecS_ok hr hG (ht ▸ isVarDec_word hv)
  · refine wp_ite (fun hc => ?_) (fun _ => wp_ite (fun hc => ?_) (fun _ => ?_))
    · exact wp_mono (asyncStmt_ok hr false hG (ht ▸ isAsync_h hc)) (fun n s' ⟨x, h, h', _⟩ => ⟨x, h, h'⟩)
    · exact labelS_ok hr s hG
    · exact exprS_ok hr s hG

/-- What is after `async`, if it is taken to begin a function. -/
theorem isAsync_next {c : Ctx} {p : Bool} {ts : List Tok} (h : isAsync c p ts = true) : ∃ k t, ts.map Tok.k = .name "async" :: k :: t := by
  have h1 := isAsync_h h
  cases ts with
  | nil => cases h1
  | cons a ts =>
    cases ts with
    | nil =>
      exfalso
      unfold isAsync at h
      cases a with | mk k n =>
      have : hd (([⟨k, n⟩] : List Tok).tail) = .eof := rfl
      rw [this] at h
      cases p <;> simp [canKey, isKw] at h
    | cons b ts =>
      have : a.k = .name "async" := h1
      exact ⟨b.k, ts.map Tok.k, by simp [this]⟩

theorem exportAsync_ok {s0 s : S} (hG : Good L s0) {k0 : K} (hk0 : k0 = .kw .export_ ∨ k0 = .kw .default) {y : List K}
    (h0 : s0.T = y ++ k0 :: s.T) {c : Ctx} {p : Bool} {ts : List Tok} (ht : ts.map Tok.k = s.T) (h : isAsync c p ts = true)
    (hn : s.T.tail.head? ≠ some (.kw .func)) : L .exportAsync := by
  obtain ⟨k, t, h1⟩ := isAsync_next h
  rw [ht] at h1
  rw [h1] at h0 hn
  exact hG _ ⟨y, [k0, .name "async", k], t, by rw [h0]; simp, k0, k, rfl, hk0, by simpa using hn⟩

theorem defaultS_ok (hr : RecOk L r) {s0 s : S} (hG : Good L s0) (h0 : s0.T = .kw .export_ :: .kw .default :: s.T) :
    WP (defaultS o r) (fun n s' => ∃ x, s0.T = .kw .export_ :: .kw .default :: x ++ s'.T ∧
      Stmt L (.exportDefault n) (.kw .export_ :: .kw .default :: x)) s := by
  have gs : Good L s := hG.after (x := [.kw .export_, .kw .default]) h0
  unfold defaultS
  w
  refine wp_left (fun ts ht htT => wp_ite (fun hc => ?_) (fun _ => wp_ite (fun hc => ?_) (fun _ => wp_ite (fun hc => ?_) (fun _ => ?_))))
  · intro n s' e
    obtain ⟨x, h1, h2, _⟩ := fnKw_ok (o := o) hr false false true (s0 := s) gs (by simp [opt]) hc n s' e
    exact ⟨x, by rw [h0, h1]; rfl, by simpa using Stmt.exportDefault h2 (Or.inl rfl)⟩
  · intro n s' e
    obtain ⟨x, h1, h2, h3⟩ := asyncStmt_ok (o := o) hr true gs (ht ▸ isAsync_h hc) n s' e
    refine ⟨x, by rw [h0, h1]; rfl, ?_⟩
    rcases h3 with ⟨_, h3⟩ | h3
    · simpa using Stmt.exportDefault h3 (Or.inl rfl)
    · exact .exportDefaultX (exportAsync_ok hG (Or.inr rfl) (y := [.kw .export_]) h0 htT hc h3) h2
  · refine wp_specAt (classE_ok hr false) gs hc ?_
    rintro n x s1 h1 ⟨h2, _⟩ _
    exact ⟨x, by rw [h0, h1]; rfl, by simpa using Stmt.exportDefault h2 (Or.inl rfl)⟩
  · ws
    refine wp_spec hr.assign gs (fun e x s1 h1 h2 _ => ?_)
    w
    rename_i m s2 h3 hm _
    exact ⟨x ++ m, by rw [h0, h1, h3]; simp, .exportDefault h2 hm⟩

theorem exportRest_ok (hr : RecOk L r) {s0 s : S} (hG : Good L s0) (h0 : s0.T = .kw .export_ :: s.T) :
    WP (exportRest o r) (fun n s' => ∃ x, s0.T = x ++ s'.T ∧ Stmt L n x) s := by
  have gs : Good L s := hG.after (x := [.kw .export_]) h0
  unfold exportRest
  w
  refine wp_left (fun ts ht htT => wp_ite (fun hc => exportAll_ok gs h0 hc) (fun _ => wp_ite (fun hc => exportNamed_ok hr gs h0 hc) (fun _ => ?_)))
  split
  · rename_i v hv
    ws
    intro d s1 e
    obtain ⟨x, h1, h2, h3⟩ := varDecS_dec hr gs (ht ▸ isVarDec_word hv) d s1 e
    w
    exact ⟨.kw .export_ :: x, by rw [h0, h1]; rfl, .exportDec h2 (Or.inl h3)⟩
  · refine wp_ite (fun hc => ?_) (fun _ => wp_ite (fun hc => ?_) (fun _ => wp_ite (fun hc => ?_) (fun _ => ?_)))
    · ws
      intro d s1 e
      obtain ⟨x, h1, h2, h3⟩ := fnKw_ok (o := o) hr false false false (s0 := s) gs (by simp [opt]) hc d s1 e
      obtain ⟨_, _, _, _, _, rfl⟩ := h3 rfl
      w
      exact ⟨.kw .export_ :: x, by rw [h0, h1]; rfl, .exportDec (.fn h2) (Or.inl rfl)⟩
    · ws
      intro d s1 e
      obtain ⟨x, h1, h2, h3⟩ := asyncStmt_ok (o := o) hr false gs (ht ▸ isAsync_h hc) d s1 e
      w
      refine ⟨.kw .export_ :: x, by rw [h0, h1]; rfl, .exportDec h2 ?_⟩
      rcases h3 with ⟨⟨_, _, _, _, _, rfl⟩, _⟩ | h3
      · exact Or.inl rfl
      · exact Or.inr (exportAsync_ok hG (Or.inl rfl) (y := []) h0 htT hc h3)
    · ws
      refine wp_specAt (classE_ok hr true) gs hc ?_
      rintro _ x s1 h1 ⟨h2, _, _, _, rfl, h3⟩ _
      obtain ⟨_, rfl⟩ := h3 rfl
      w
      exact ⟨.kw .export_ :: x, by rw [h0, h1]; rfl, .exportDec (.class_ h2) (Or.inl rfl)⟩
    · ws
      ws
      rename_i s1 h1 _
      ws
      intro d s2 e
      obtain ⟨x, h2, h3⟩ := defaultS_ok (o := o) hr hG (s := s1) (by rw [h0, h1]) d s2 e
      w
      exact ⟨_, h2, h3⟩

theorem exportS_ok (hr : RecOk L r) : SpecAt L (.kw .export_) (exportS o r) (Stmt L) := by
  intro s hG hk
  unfold exportS
  ws
  ws
  rename_i s1 h1 _
  ws
  intro n s2 e
  obtain ⟨x, h2, h3⟩ := exportRest_ok (o := o) hr hG h1 n s2 e
  w
  exact ⟨x, h2, h3⟩

theorem stmt_ok (hr : RecOk L r) : Spec L (stmt o r) (Stmt L) := by
  intro s hG
  unfold stmt
  w
  split
  · rename_i hk
    exact varDecS_ok hr hG (hk ▸ .var)
  · rename_i hk
    ws
    intro n s' e
    obtain ⟨x, h1, h2, h3⟩ := fnKw_ok (o := o) hr false false false (s0 := s) hG (by simp [opt]) hk n s' e
    obtain ⟨_, _, _, _, _, rfl⟩ := h3 rfl
    ws
    refine wp_left (fun ts ht _ => ?_)
    w
    exact ⟨x, h1, .fn h2⟩
  · exact ifS_ok hr s hG ‹_›
  · exact forS_ok hr s hG ‹_›
  · exact retS_ok hr s hG ‹_›
  · exact whileS_ok hr s hG ‹_›
  · exact brkS_ok s hG ‹_›
  · exact contS_ok s hG ‹_›
  · exact throwS_ok hr s hG ‹_›
  · exact tryS_ok hr s hG ‹_›
  · exact doS_ok hr s hG ‹_›
  · exact switchS_ok hr s hG ‹_›
  · rename_i hk
    w
    refine ⟨_, ?_, .debugger ‹_›⟩
    simp [*]
  · exact withS_ok hr s hG ‹_›
  · exact exprS_ok hr s hG
  · exact exprS_ok hr s hG
  · exact exprS_ok hr s hG
  · rename_i hk
    w
    refine wp_specAt (classE_ok hr true) hG hk ?_
    rintro _ x s1 h1 ⟨h2, _, _, _, rfl, h3⟩ _
    obtain ⟨_, rfl⟩ := h3 rfl
    exact ⟨x, h1, .class_ h2⟩
  · rename_i hk
    ws
    refine wp_left (fun ts _ _ => wp_ite (fun hc => exprS_ok hr s hG) (fun _ => ?_))
    ws
    refine wp_specAt (importS_ok hr) hG hk (fun n x s1 h1 h2 _ => ?_)
    w
    exact ⟨x, h1, h2⟩
  · rename_i hk
    ws
    refine wp_specAt (exportS_ok hr) hG hk (fun n x s1 h1 h2 _ => ?_)
    w
    exact ⟨x, h1, h2⟩
  · exact wp_fail
  · exact blockS_ok hr _ s hG
  · rename_i hk
    w
    exact ⟨[.pu .semi], by simp [*], .empty⟩
  · exact wp_fail
  · exact otherS_ok hr s hG

theorem stmts_ok (hr : RecOk L r) : Spec L (stmts o r true) (fun n y => ∃ z, y = z ++ [.pu .braceR] ∧ Stmts L n z) := by
  intro s hG
  unfold stmts
  w
  refine wp_ite (fun hc => ?_) (fun _ => wp_ite (fun hc => ?_) (fun _ => ?_))
  · have hk : s.h = .pu .braceR := by simpa using hc
    w
    exact ⟨_, by simp [*], _, rfl, .nil⟩
  · w
    rename_i h
    cases h
  · ws
    refine wp_spec hr.stmt (by assumption) (fun c v s5 h6 h7 _ => ?_)
    w
    refine wp_spec hr.stmts (by assumption) ?_
    rintro l _ s6 h8 ⟨z, rfl, hz⟩ _
    w
    exact ⟨_, by simp [*], _, rfl, .cons h7 hz⟩

theorem build_ok (hr : RecOk L r) : RecOk L (build o r) where
  expr := expr_ok hr
  seqRest := seqRest_ok hr
  assign := assign_ok hr
  unary := unary_ok hr
  binRest := binRest_ok hr
  binInner := binInner_ok hr
  newE := newE_ok hr
  newRest := newRest_ok hr
  callRest := callRest_ok hr
  callOpt := callOpt_ok hr
  memRest := memRest_ok hr
  args := args_ok hr
  tplRest := tplRest_ok hr
  arrRest := arrRest_ok hr
  objRest := objRest_ok hr
  params := params_ok hr
  pat := pat_ok hr
  patElem := patElem_ok hr
  patArr := patArr_ok hr
  patObj := patObj_ok hr
  decs := decs_ok hr
  stmt := stmt_ok hr
  stmts := stmts_ok hr
  cases := cases_ok hr
  caseBody := caseBody_ok hr
  lhs := lhs_ok hr
  members := members_ok hr
  impSpecs := impSpecs_ok hr
  expSpecs := expSpecs_ok hr

theorem none_ok : RecOk L Rec.none := by
  constructor <;> intros <;> first | exact wp_fail | exact fun _ _ => wp_fail | exact fun _ _ _ => wp_fail

theorem rec_ok (o : Chk) : ∀ n, RecOk L (rec_ o n)
  | 0 => none_ok
  | n + 1 => build_ok (rec_ok o n)

/-- The statements of a program. -/
theorem prog_stmts (o : Chk) : ∀ (n : Nat) (s : S), Good L s →
    WP ((rec_ o n).stmts false) (fun l s' => ∃ x, s.T = x ++ s'.T ∧ Stmts L l x ∧ s'.h = .eof) s
  | 0, _, _ => wp_fail
  | n + 1, s, hG => by
    show WP (stmts o (rec_ o n) false) _ s
    unfold stmts
    w
    refine wp_ite (fun hc => ?_) (fun _ => wp_ite (fun hc => ?_) (fun _ => ?_))
    · cases hc
    · w
      exact ⟨[], rfl, .nil, hc⟩
    · ws
      refine wp_spec (rec_ok o n).stmt hG (fun c v s5 h6 h7 g5 => ?_)
      w
      intro l s6 e
      obtain ⟨x, h1, h2, h3⟩ := prog_stmts o n s5 g5 l s6 e
      w
      exact ⟨_, by simp [*], .cons h7 h2, h3⟩

end

end Mole.Parser.Prog
