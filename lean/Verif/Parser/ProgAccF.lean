import Verif.Parser.ProgAccT
import Verif.Parser.ProgBal

/-! # The tokens taken are those of the tree: functions (for C76) -/

namespace Mole.Parser.Prog

attribute [local irreducible] peek nl left scope next must chk req fail enter enterFn enterCls pushRet leave scopeRef setKind pushLoop popLoop
  lastLoop opening semi ident target patRest pat patElem patArr param params body blockS methodTail propKey propName patProp patObj
  arrowFn star fnName bodyOrExpr fnKw asyncArgs asyncTail asyncExpr tplRest tpl spread arg args parenE arrRest propData objProp
  objRest primary dot subscript callRest optional memRest newRest memObj newE lhs1 lhs update unary binInner binRest cond yieldE
  assignTail assign seqRest seqTail expr initE decs varDec varDecS exprS head sub ifS whileS doS withS forInit forLeft forRight
  forInTail optE forTail forAwait forS retArg retS throwS jumpLabel brkS contS labelS caseBody cases switchS catchParam catchS
  finallyS tryS asyncStmt otherS stmt stmts classKey memberTail fieldValue fieldTail namedMember memberRest member members className
  heritage classE condTail importMeta importE identKw srcE impSpec optComma impSpecs impGroup impFirst impMore impClause optFrom importS
  expSpec expSpecs nsName exportAll fromOpt exportNamed defaultS exportRest exportS

section
variable {L : Ex → Prop} {o : Chk} {r : Rec}

/-! ## Functions -/

theorem bodyOrExpr_ok (hr : RecOk L r) : Spec L (bodyOrExpr r) (Body L) := by
  intro s hG
  unfold bodyOrExpr
  w
  refine wp_ite (fun hc => ?_) (fun _ => ?_)
  · refine wp_spec (body_ok hr) (by assumption) ?_
    rintro _ _ s3 h3 ⟨b, v, rfl, rfl, hb⟩ _
    exact ⟨_, h3, .block hb⟩
  · refine wp_spec hr.expr (by assumption) (fun e x s1 h1 h2 _ => ?_)
    exact ⟨_, h1, .expr h2⟩

theorem bodyOrExpr_split (hr : RecOk L r) {s : S} (hG : Good L s) :
    WP (bodyOrExpr r) (fun n s' => ∃ x, s.T = x ++ s'.T ∧
      ((∃ l z, n = .block l ∧ x = .pu .braceL :: z ++ [.pu .braceR] ∧ Stmts L l z) ∨ (s.h ≠ .pu .braceL ∧ Expr L n x))) s := by
  unfold bodyOrExpr
  w
  refine wp_ite (fun hc => ?_) (fun hc => ?_)
  · refine wp_spec (body_ok hr) (by assumption) ?_
    rintro _ _ s3 h3 ⟨b, v, rfl, rfl, hb⟩ _
    exact ⟨_, h3, Or.inl ⟨_, _, rfl, rfl, hb⟩⟩
  · refine wp_spec hr.expr (by assumption) (fun e x s1 h1 h2 _ => ?_)
    exact ⟨_, h1, Or.inr ⟨hc, h2⟩⟩

theorem list_balanced {l : List Node} {z : List K} (h : List_ L l z) : balanced [] z = true := by
  have := list_neutral h [] []
  simpa [balanced] using this

theorem arrowFn_ok (hr : RecOk L r) (ps : List Node) :
    SpecAt L (.pu .arrow) (arrowFn o r ps) (fun n y => ∃ b z, n = .arrow false ps b ∧ y = .pu .arrow :: z ∧ Body L b z) := by
  intro s hG hk
  unfold arrowFn
  w
  refine wp_ite (fun hc => ?_) (fun _ => ?_)
  · ws
    refine wp_spec (body_ok hr) (by assumption) ?_
    rintro _ _ s3 h3 ⟨b, v, rfl, rfl, hb⟩ _
    w
    exact ⟨_, by simp [*], _, _, rfl, rfl, .block hb⟩
  · w
    refine wp_spec hr.assign (by assumption) (fun e x s1 h1 h2 _ => ?_)
    w
    exact ⟨_, by simp [*], _, _, rfl, rfl, .expr h2⟩

theorem star_ok : Spec L star (fun b y => y = opt b (.bin .mul)) := by
  intro s hG
  unfold star
  w
  refine wp_ite (fun hc => ?_) (fun _ => ?_)
  · w
    exact ⟨_, ‹_›, rfl⟩
  · w
    exact ⟨[], rfl, rfl⟩

theorem fnName_ok : Spec L (fnName o) (fun n y => (n = .nil ∧ y = []) ∨ ∃ k, n = .leaf k ∧ y = [k] ∧ isWord k = true) := by
  intro s hG
  unfold fnName
  w
  refine wp_ite (fun hc => ?_) (fun _ => ?_)
  · w
    exact ⟨[], rfl, Or.inl ⟨rfl, rfl⟩⟩
  · refine wp_spec ident_ok hG ?_
    rintro _ _ s1 h ⟨k, rfl, rfl, hk⟩ _
    exact ⟨_, h, Or.inr ⟨_, rfl, rfl, hk⟩⟩

theorem name_opt {n : Node} {y : List K} (h : (n = .nil ∧ y = []) ∨ ∃ k, n = .leaf k ∧ y = [k] ∧ isWord k = true) : Opt L n y := by
  rcases h with ⟨rfl, rfl⟩ | ⟨k, rfl, rfl, hk⟩
  · exact .none
  · exact .some (.leaf (isWord_operand hk))

/-- A function. -/
def IsFn (n : Node) : Prop := ∃ as g id ps b, n = .fn as g id ps b

theorem fnKw_ok (hr : RecOk L r) (expr as an : Bool) {s0 s : S} (hG : Good L s) (e0 : s0.T = opt as (.name "async") ++ s.T)
    (hk : s.h = .kw .func) :
    WP (fnKw o r expr as an) (fun n s' => ∃ x, s0.T = x ++ s'.T ∧ Expr L n x ∧ (expr = false → IsFn n)) s := by
  unfold fnKw
  w
  refine wp_spec star_ok (by assumption) ?_
  rintro g _ s2 h2 rfl _
  ws
  refine wp_spec fnName_ok (by assumption) ?_
  intro id x s3 h3 h4 _
  w
  refine wp_spec hr.params (by assumption) ?_
  rintro l _ s5 h5 ⟨z, rfl, hz⟩ _
  w
  rename_i s4 h11 gs4 _
  intro b s6 hb
  obtain ⟨y, h6, h7⟩ := bodyOrExpr_split hr (by assumption) b s6 hb
  have g6 : Good L s6 := Good.after (by assumption) h6
  w
  rename_i s7 h8 _ _
  have hT : s0.T = (opt as (.name "async") ++ .kw .func :: opt g (.bin .mul) ++ x ++ .pu .parenL :: z ++ .pu .parenR :: y) ++ s7.T := by
    simp [*]
  have hF : Expr L (.fn as g id l b)
      (opt as (.name "async") ++ .kw .func :: opt g (.bin .mul) ++ x ++ .pu .parenL :: z ++ .pu .parenR :: y) := by
    rcases h7 with ⟨l', z', rfl, rfl, hst⟩ | ⟨hne, he⟩
    · have := Expr.fn (as := as) (g := g) (name_opt h4) hz hst
      simpa using this
    · refine .fnExpr ?_ (name_opt h4) hz he
      obtain ⟨k, y', rfl⟩ : ∃ k y', y = k :: y' := by
        cases y with
        | nil => exact absurd rfl (expr_nonempty he)
        | cons k y' => exact ⟨_, _, rfl⟩
      have hk' : k ≠ .pu .braceL := by
        rintro rfl
        apply hne
        rw [h_T, h6]
        rfl
      have hT' : s.T = .kw .func :: (opt g (.bin .mul) ++ x) ++ .pu .parenL :: z ++ .pu .parenR :: (k :: y') ++ s7.T := by
        rw [e0] at hT
        simpa using hT
      refine hG _ ⟨[], _, y' ++ s7.T, ?_, opt g (.bin .mul) ++ x, z, k, rfl, ?_, list_balanced hz, hk'⟩
      · rw [hT']
        simp
      · have h1 : (opt g (.bin .mul)).length ≤ 1 := by cases g <;> simp [opt]
        have h2 : x.length ≤ 1 := by
          rcases h4 with ⟨_, rfl⟩ | ⟨_, _, rfl, _⟩ <;> simp
        rw [List.length_append]
        omega
  refine wp_ite (fun hc => ?_) (fun _ => ?_)
  · ws
    refine wp_spec (hr.callRest _ true false false _ hF (by simp)) (by assumption) ?_
    rintro ⟨e, b⟩ y s8 h9 h10 _
    dsimp only at h10 ⊢
    w
    refine ⟨_, by rw [hT, h9, ← List.append_assoc], h10, ?_⟩
    rintro rfl
    simp at hc
  · w
    exact ⟨_, hT, hF, fun _ => ⟨_, _, _, _, _, rfl⟩⟩

theorem wp_nl' {s : S} {Q : Bool → S → Prop} (h : Q (nlB s.ts) s) : WP nl Q s := by
  intro b s' e
  unfold nl at e
  cases e
  exact h

theorem asyncArgs_ok (hr : RecOk L r) {id : Node} {s : S} (hG : Good L s) :
    WP (asyncArgs r id) (fun l s' => (isNil id = false ∧ l = [id] ∧ s' = s ∧ s.h = .pu .arrow ∧ nlB s.ts = false) ∨
      ∃ z, s.T = .pu .parenL :: z ++ .pu .parenR :: s'.T ∧ List_ L l z) s := by
  unfold asyncArgs
  ws
  ws
  ws
  refine wp_nl' ?_
  refine wp_ite (fun hc => ?_) (fun _ => ?_)
  · w
    left
    simp at hc
    exact ⟨by simpa using hc.1.1, rfl, rfl, hc.1.2, hc.2⟩
  · w
    refine wp_spec (hr.args false false) (by assumption) ?_
    rintro ⟨l, tc⟩ _ s2 h2 ⟨z, rfl, hz, _⟩ _
    dsimp only at hz ⊢
    w
    right
    exact ⟨z, by simp [*], hz⟩

/-- What `async` is found to be is written so. -/
def AsyncOk (L : Ex → Prop) (x : List K) : AsyncRes → Prop
  | .arrow n => Expr L n x
  | .fn n => Expr L n x ∧ IsFn n
  | .call n => Expr L n x

theorem AsyncHead.why {x : List K} (h : AsyncHead L x) : L .asyncStar ∨ L .asyncName := by
  cases h with
  | star h => exact Or.inl h
  | starName _ h => exact Or.inl h
  | name _ h => exact Or.inr h

theorem asyncTail_ok (hr : RecOk L r) {s0 s : S} (hG0 : Good L s0) (e0 : s0.T = .name "async" :: s.T) :
    WP (asyncTail o r) (fun n s' => ∃ x, s0.T = x ++ s'.T ∧ AsyncOk L x n) s := by
  have hG : Good L s := hG0.after (x := [_]) e0
  unfold asyncTail
  w
  refine wp_spec star_ok (by assumption) ?_
  rintro g _ s2 h2 rfl _
  ws
  refine wp_spec fnName_ok (by assumption) ?_
  intro id x s3 h3 h4 _
  w
  rename_i s4 h5 _ _
  intro args s5 ha
  have hstar : g = true → L .asyncStar := by
    rintro rfl
    exact hG0 _ ⟨[], _, s2.T, by rw [e0, h2]; rfl, rfl⟩
  rcases asyncArgs_ok hr (by assumption) args s5 ha with ⟨hn, rfl, rfl, hk, hnl⟩ | ⟨z, hz, hl⟩
  · obtain ⟨k, rfl, rfl, hk'⟩ : ∃ k, id = .leaf k ∧ x = [k] ∧ isWord k = true := by
      rcases h4 with ⟨rfl, _⟩ | h
      · cases hn
      · exact h
    ws
    ws
    ws
    refine wp_nl' ?_
    refine wp_ite (fun hc => ?_) (fun hc => ?_)
    · w
      refine wp_spec (bodyOrExpr_ok hr) (by assumption) (fun b y s6 h6 h7 _ => ?_)
      w
      cases g with
      | false =>
        refine ⟨_, ?_, Expr.arrow1 (as := true) (.leaf (isWord_operand hk')) h7⟩
        simp [*, opt]
      | true =>
        refine ⟨_, ?_, Expr.asyncArrow1 (hstar rfl) (.leaf (isWord_operand hk')) h7⟩
        simp [*, opt]
    · rw [hk, hnl] at hc
      simp at hc
  · have g5 : Good L s5 := by
      refine Good.after (s := s4) (x := .pu .parenL :: z ++ [.pu .parenR]) (by assumption) ?_
      rw [hz]
      simp
    have hT : s0.T = .name "async" :: (opt g (.bin .mul) ++ x ++ .pu .parenL :: z ++ .pu .parenR :: s5.T) := by
      simp [*]
    -- the head
    have hH : (g = false ∧ id = .nil ∧ x = []) ∨ AsyncHead L (.name "async" :: (opt g (.bin .mul) ++ x)) := by
      cases g with
      | true =>
        right
        rcases h4 with ⟨rfl, rfl⟩ | ⟨k, rfl, rfl, hk⟩
        · exact .star (hstar rfl)
        · exact .starName k (hstar rfl) hk
      | false =>
        rcases h4 with ⟨rfl, rfl⟩ | ⟨k, rfl, rfl, hk⟩
        · exact Or.inl ⟨rfl, rfl, rfl⟩
        · right
          refine .name k (hG0 _ ⟨[], _, z ++ .pu .parenR :: s5.T, ?_, k, rfl⟩) hk
          rw [hT]
          simp [opt]
    ws
    ws
    ws
    refine wp_nl' ?_
    refine wp_ite (fun hc => ?_) (fun hc => wp_ite (fun hc => ?_) (fun hc' => wp_ite (fun hg => ?_) (fun hg => ?_)))
    · have hk : s5.h = .pu .arrow := by
        simp at hc
        exact hc.1
      w
      refine wp_spec (bodyOrExpr_ok hr) (by assumption) (fun b y s6 h6 h7 _ => ?_)
      w
      rcases hH with ⟨rfl, rfl, rfl⟩ | hH
      · refine ⟨_, ?_, Expr.asyncArrow hl h7⟩
        simp [*, opt]
      · refine ⟨_, ?_, Expr.asyncArrowX hH hl h7⟩
        simp [*]
    · w
      refine wp_spec (body_ok hr) (by assumption) ?_
      rintro _ _ s6 h6 ⟨b, v, rfl, rfl, hb⟩ _
      w
      refine ⟨_, ?_, Expr.fnNoKw (g := g) ?_ (name_opt h4) hl hb, ⟨_, _, _, _, _, rfl⟩⟩
      · simp [*]
      · rcases hH with ⟨rfl, rfl, rfl⟩ | hH
        · left
          refine hG0 _ ⟨[], _, v ++ .pu .braceR :: s6.T, ?_, z, rfl⟩
          rw [hT, h6]
          simp [opt]
        · right
          exact hH.why
    · subst hg
      have hH' : AsyncHead L (.name "async" :: (opt true (.bin .mul) ++ x)) := by
        rcases hH with ⟨h, _⟩ | h
        · cases h
        · exact h
      split
      · exact wp_fail
      · w
        refine ⟨_, ?_, Expr.asyncMul1 hH' hl⟩
        rw [hT]
        simp
      · w
        refine ⟨_, ?_, Expr.asyncMul hH' hl⟩
        rw [hT]
        simp
    · w
      rcases hH with ⟨rfl, rfl, rfl⟩ | hH
      · refine ⟨_, ?_, Expr.call (.leaf rfl) hl⟩
        rw [hT]
        simp [opt]
      · refine ⟨_, ?_, Expr.asyncCall hH hl⟩
        rw [hT]
        simp

theorem asyncExpr_ok (hr : RecOk L r) : SpecAt L (.name "async") (asyncExpr o r) (Expr L) := by
  intro s hG hk
  unfold asyncExpr
  w
  refine wp_ite (fun hc => ?_) (fun _ => ?_)
  · intro n s' e
    obtain ⟨x, h1, h2, _⟩ := fnKw_ok (o := o) hr true true false (s0 := s) (by assumption) (by simp [opt, *]) hc n s' e
    exact ⟨x, h1, h2⟩
  · ws
    rename_i s1 h1 g1 _
    intro res s2 e
    obtain ⟨x, hx, hA⟩ := asyncTail_ok (o := o) hr hG h1 res s2 e
    have g2 := hG.after hx
    cases res with
    | arrow n =>
      dsimp only
      w
      exact ⟨x, hx, hA⟩
    | call n =>
      dsimp only
      w
      exact ⟨x, hx, hA⟩
    | fn n =>
      dsimp only
      w
      refine wp_ite (fun hc => ?_) (fun _ => ?_)
      · ws
        refine wp_spec (hr.callRest _ true false false _ hA.1 (by simp)) (by assumption) ?_
        rintro ⟨e, b⟩ y s8 h9 h10 _
        dsimp only at h10 ⊢
        w
        exact ⟨_, by rw [hx, h9, ← List.append_assoc], h10⟩
      · w
        exact ⟨x, hx, hA.1⟩

end

end Mole.Parser.Prog
