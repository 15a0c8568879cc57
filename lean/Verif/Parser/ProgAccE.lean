import Verif.Parser.ProgAccC

/-! # The tokens taken are those of the tree: expressions (for C76) -/

namespace Mole.Parser.Prog

attribute [local irreducible] peek nl left scope next must chk req fail enter enterFn enterCls pushRet leave scopeRef setKind pushLoop popLoop
  lastLoop opening semi ident target patRest pat patElem patArr param params body blockS methodTail propKey propName patProp patObj
  arrowFn star fnName bodyOrExpr fnKw asyncArgs asyncTail asyncExpr tplRest tpl spread arg args parenE arrRest propData objProp
  objRest primary dot subscript callRest optional memRest newRest memObj newE lhs1 lhs update unary binInner binRest cond yieldE
  assignTail assign seqRest seqTail expr initE decs varDec varDecS exprS head sub ifS whileS doS withS forInit forLeft forRight
  forInTail optE forTail forAwait forS retArg retS throwS jumpLabel brkS contS labelS caseBody cases switchS catchParam catchS
  finallyS tryS asyncStmt otherS stmt stmts classKey memberTail fieldValue fieldTail namedMember memberRest member members className
  heritage classE condTail importMeta importE identKw srcE impSpec optComma impSpecs impGroup impFirst impMore impClause optFrom importS
  expSpec expSpecs nsName exportAll fromOpt exportNamed defaultS exportRest exportS

section
variable {L : Ex → Prop} {o : Chk} {r : Rec}

theorem tplRest_ok (hr : RecOk L r) : Spec L (tplRest o r) (Tpl L) := by
  intro s hG
  unfold tplRest
  w
  split
  · w
    exact ⟨_, by simp [*], .last (Or.inl ⟨_, by assumption⟩)⟩
  · w
    exact ⟨_, by simp [*], .last (Or.inr ⟨_, by assumption⟩)⟩
  · w
    refine wp_spec hr.expr (by assumption) (fun e x s2 h2 h3 _ => ?_)
    ws
    refine wp_spec hr.tplRest (by assumption) (fun l y s3 h4 h5 _ => ?_)
    w
    exact ⟨_, by simp [*], .part (Or.inl ⟨_, by assumption⟩) h3 h5⟩
  · w
    refine wp_spec hr.expr (by assumption) (fun e x s2 h2 h3 _ => ?_)
    ws
    refine wp_spec hr.tplRest (by assumption) (fun l y s3 h4 h5 _ => ?_)
    w
    exact ⟨_, by simp [*], .part (Or.inr ⟨_, by assumption⟩) h3 h5⟩
  · exact wp_fail

theorem tpl_tag (hr : RecOk L r) {t : Node} {x : List K} (ht : Expr L t x) : Spec L (tpl r t) (fun n y => Expr L n (x ++ y)) := by
  intro s hG
  unfold tpl
  w
  refine wp_spec hr.tplRest (by assumption) (fun l y s3 h4 h5 _ => ?_)
  w
  exact ⟨_, h4, .tagged ht h5⟩

theorem tpl_ok (hr : RecOk L r) : Spec L (tpl r .nil) (Expr L) := by
  intro s hG
  unfold tpl
  w
  refine wp_spec hr.tplRest (by assumption) (fun l y s3 h4 h5 _ => ?_)
  w
  exact ⟨_, h4, .tpl h5⟩

theorem spread_ok (hr : RecOk L r) : SpecAt L (.pu .dots) (spread r) (Expr L) := by
  intro s hG hk
  unfold spread
  w
  refine wp_spec hr.assign (by assumption) (fun e x s2 h2 h3 _ => ?_)
  w
  exact ⟨_, by simp [*], .spread h3⟩

theorem arg_ok (hr : RecOk L r) : Spec L (arg r) (Expr L) := by
  intro s hG
  unfold arg
  w
  exact wp_ite (fun hc => spread_ok hr s hG hc) (fun _ => hr.assign s hG)

theorem args_ok (hr : RecOk L r) (a b : Bool) :
    Spec L (args o r a b) (fun n y => ∃ z, y = z ++ [.pu .parenR] ∧ List_ L n.1 z ∧ (n.2 = false → NoTrail L n.1 z)) := by
  intro s hG
  unfold args
  w
  refine wp_ite (fun hc => ?_) (fun _ => ?_)
  · w
    exact ⟨_, by simp [*], _, rfl, .nil, fun _ => Or.inl ⟨rfl, rfl⟩⟩
  · ws
    refine wp_spec (arg_ok hr) (by assumption) (fun e x s1 h1 h2 _ => ?_)
    w
    refine wp_ite (fun hc => ?_) (fun _ => ?_)
    · w
      rename_i s2 h3 _ _
      refine wp_left (fun ts ht _ => ?_)
      w
      refine wp_spec (hr.args a b) (by assumption) ?_
      rintro ⟨l, tc⟩ _ s3 h4 ⟨z, rfl, hz, ht'⟩ _
      dsimp only at hz ht' ⊢
      w
      refine ⟨_, by simp [*], _, rfl, .cons h2 hz, ?_⟩
      intro hq
      simp at hq
      rw [ht] at hq
      rcases ht' hq.2 with ⟨rfl, rfl⟩ | ⟨e', t, a', b', rfl, rfl, he', ht⟩
      · exfalso
        apply hq.1
        rw [h_T, h4]
        rfl
      · exact Or.inr ⟨_, _, x, .pu .comma :: a' ++ b', rfl, by simp, h2, .cons he' ht⟩
    · w
      refine wp_left (fun ts _ _ => ?_)
      w
      exact ⟨_, by simp [*], _, rfl, .one h2, fun _ => Or.inr ⟨_, _, x, [], rfl, by simp, h2, .nil⟩⟩

theorem parenE_ok (hr : RecOk L r) : Spec L (parenE o r) (Expr L) := by
  intro s hG
  unfold parenE
  w
  refine wp_spec (hr.args false false) (by assumption) ?_
  rintro ⟨l, tc⟩ _ s3 h3 ⟨z, rfl, hz, ht⟩ _
  dsimp only at hz ht ⊢
  w
  refine wp_ite (fun hc => ?_) (fun _ => ?_)
  · w
    refine wp_specAt (arrowFn_ok hr l) (by assumption) (by simp at hc; exact hc.1) ?_
    rintro _ _ s4 h4 ⟨b, y, rfl, rfl, hb⟩ _
    exact ⟨_, by simp [*], .arrow hz hb⟩
  · ws
    ws
    rename_i htc
    have ht' := ht (by simpa using htc)
    w
    split
    · exact wp_fail
    · w
      rcases ht' with ⟨h, _⟩ | ⟨e', t, a', b', h, rfl, he', ht⟩
      · cases h
      · cases h
        cases ht
        exact ⟨_, by simp [*], .paren he'⟩
    · w
      rcases ht' with ⟨rfl, _⟩ | ⟨e', t, a', b', rfl, rfl, he', ht⟩
      · contradiction
      · exact ⟨_, by simp [*], .paren (.seq he' ht)⟩

theorem arrRest_ok (hr : RecOk L r) : Spec L (arrRest r) (fun n y => ∃ z, y = z ++ [.pu .brackR] ∧ Elems L n z) := by
  intro s hG
  unfold arrRest
  w
  refine wp_ite (fun hc => ?_) (fun _ => wp_ite (fun hc => ?_) (fun _ => ?_))
  · w
    refine wp_spec hr.arrRest (by assumption) ?_
    rintro l _ s2 h2 ⟨z, rfl, hz⟩ _
    w
    exact ⟨_, by simp [*], _, rfl, .hole hz⟩
  · w
    exact ⟨_, by simp [*], _, rfl, .nil⟩
  · ws
    refine wp_spec (arg_ok hr) (by assumption) (fun e x s1 h1 h2 _ => ?_)
    w
    refine wp_ite (fun hc => ?_) (fun _ => ?_)
    · w
      refine wp_spec hr.arrRest (by assumption) ?_
      rintro l _ s2 h3 ⟨z, rfl, hz⟩ _
      w
      exact ⟨_, by simp [*], _, rfl, .cons h2 hz⟩
    · w
      exact ⟨_, by simp [*], _, rfl, .one h2⟩

theorem propData_ok (hr : RecOk L r) : Spec L (propData o r) (Expr L) := by
  intro s hG
  unfold propData
  w
  refine wp_spec (propName_ok hr) hG ?_
  rintro (⟨key, c⟩ | m) x s1 h1 h2 _
  · dsimp only at h2 ⊢
    w
    refine wp_ite (fun hc => ?_) (fun _ => wp_ite (fun hc => ?_) (fun _ => wp_ite (fun hc => ?_) (fun _ => ?_)))
    · w
      refine wp_spec hr.assign (by assumption) (fun e y s3 h3 h4 _ => ?_)
      w
      exact ⟨_, by simp [*], .prop h2 h4⟩
    · w
      refine wp_spec hr.assign (by assumption) (fun e y s3 h3 h4 _ => ?_)
      w
      exact ⟨_, by simp [*], .init h2 h4⟩
    · w
      refine wp_spec (methodTail_ok hr _ _ _ _ _) (by assumption) ?_
      rintro _ _ s3 h4 ⟨ps, b, u, v, rfl, rfl, hu, hv⟩ _
      exact ⟨_, by simp [*, opt], Expr.method .method h2 hu hv⟩
    · w
      exact ⟨_, h1, .short h2⟩
  · dsimp only at h2 ⊢
    w
    exact ⟨_, h1, h2⟩

theorem isAsync_h {c : Ctx} {p : Bool} {ts : List Tok} (h : isAsync c p ts = true) : hd ts = .name "async" := by
  unfold isAsync at h
  simp only [Bool.and_eq_true, decide_eq_true_eq] at h
  exact h.1.1

theorem objProp_ok (hr : RecOk L r) : Spec L (objProp o r) (Expr L) := by
  intro s hG
  unfold objProp
  w
  refine wp_left (fun ts ht _ => ?_)
  refine wp_ite (fun hc => spread_ok hr s hG hc) (fun _ => wp_ite (fun hc => ?_) (fun _ => wp_ite (fun hc => ?_) (fun _ => ?_)))
  · ws
    refine wp_enterFn hG (fun s1 h1 h1' _ => ?_)
    rw [hc] at h1'
    have hk := h1'.symm
    w
    refine wp_spec (propKey_ok hr) (by assumption) ?_
    rintro ⟨key, c⟩ x s3 h3 h4 _
    dsimp only at h4 ⊢
    refine wp_spec (methodTail_ok hr _ _ _ _ _) (by assumption) ?_
    rintro _ _ s4 h5 ⟨ps, b, u, v, rfl, rfl, hu, hv⟩ _
    refine ⟨_, ?_, Expr.method .method h4 hu hv⟩
    clear hk h1'
    simp [*, opt]
  · have hk := ht ▸ isAsync_h hc
    w
    refine wp_spec star_ok (by assumption) ?_
    rintro g _ s2 h2 rfl _
    w
    refine wp_spec (propKey_ok hr) (by assumption) ?_
    rintro ⟨key, c⟩ x s3 h3 h4 _
    dsimp only at h4 ⊢
    refine wp_spec (methodTail_ok hr _ _ _ _ _) (by assumption) ?_
    rintro _ _ s4 h5 ⟨ps, b, u, v, rfl, rfl, hu, hv⟩ _
    refine ⟨_, ?_, Expr.method .method h4 hu hv⟩
    simp [*, opt]
  · exact propData_ok hr s hG

theorem objRest_ok (hr : RecOk L r) : Spec L (objRest o r) (fun n y => ∃ z, y = z ++ [.pu .braceR] ∧ List_ L n z) := by
  intro s hG
  unfold objRest
  w
  refine wp_ite (fun hc => ?_) (fun _ => ?_)
  · w
    exact ⟨_, by simp [*], _, rfl, .nil⟩
  · ws
    refine wp_spec (objProp_ok hr) (by assumption) (fun e x s1 h1 h2 _ => ?_)
    w
    refine wp_ite (fun hc => ?_) (fun _ => ?_)
    · w
      refine wp_spec hr.objRest (by assumption) ?_
      rintro l _ s2 h3 ⟨z, rfl, hz⟩ _
      w
      exact ⟨_, by simp [*], _, rfl, .cons h2 hz⟩
    · w
      exact ⟨_, by simp [*], _, rfl, .one h2⟩

theorem isAtom_operand {k : K} (h : isAtom k = true) : isOperand k = true ∧ k ≠ .eof := by
  cases k <;> first | exact ⟨rfl, nofun⟩ | cases h | skip
  rename_i k
  cases k <;> first | exact ⟨rfl, nofun⟩ | cases h

theorem primary_ok (hr : RecOk L r) : Spec L (primary o r) (Expr L) := by
  intro s hG
  unfold primary
  w
  refine wp_left (fun ts ht _ => ?_)
  refine wp_ite (fun hc => ?_) (fun _ => wp_ite (fun hc => ?_) (fun _ => wp_ite (fun hc => ?_) (fun _ => wp_ite (fun hc => ?_)
    (fun _ => wp_ite (fun hc => ?_) (fun _ => wp_ite (fun hc => ?_) (fun _ => wp_ite (fun hc => ?_) (fun _ => wp_ite (fun hc => ?_)
    (fun _ => wp_ite (fun hc => ?_) (fun _ => wp_ite (fun hc => ?_) (fun _ => ?_))))))))))
  · w
    have hk := isAtom_operand hc
    refine wp_next hG rfl hk.2 (fun s1 h1 _ => ?_)
    w
    exact ⟨_, h1, .leaf hk.1⟩
  · refine wp_ite (fun hc' => ?_) (fun _ => ?_)
    · exact asyncExpr_ok hr s hG (ht ▸ isAsync_h hc')
    · split at hc
      · rename_i n hk
        w
        rw [hk]
        exact ⟨_, by simp [*], .leaf rfl⟩
      · cases hc
  · intro n s' e
    obtain ⟨x, h1, h2, _⟩ := fnKw_ok (o := o) hr true false false (s0 := s) hG (by simp [opt]) hc n s' e
    exact ⟨x, h1, h2⟩
  · exact wp_specAt (classE_ok hr false) hG hc (fun n x s1 h1 h2 _ => ⟨x, h1, h2.1⟩)
  · exact importE_ok hr s hG hc
  · w
    rw [hc]
    exact ⟨_, by simp [*], .leaf rfl⟩
  · exact parenE_ok hr s hG
  · w
    refine wp_spec hr.arrRest (by assumption) ?_
    rintro l _ s2 h3 ⟨z, rfl, hz⟩ _
    w
    exact ⟨_, by simp [*], .arr hz⟩
  · w
    refine wp_spec hr.objRest (by assumption) ?_
    rintro l _ s2 h3 ⟨z, rfl, hz⟩ _
    w
    exact ⟨_, by simp [*], .obj hz⟩
  · exact tpl_ok hr s hG
  · exact wp_fail

theorem wp_append {m : M α} {P : α → List K → Prop} {f : α → Node} {x : List K} {s0 s : S}
    (hm : Spec L m P) (hG : Good L s) {y : List K} (e0 : s0.T = y ++ s.T) (h : ∀ a z, P a z → Expr L (f a) (x ++ (y ++ z))) :
    WP m (fun a s' => ∃ z, s0.T = z ++ s'.T ∧ Expr L (f a) (x ++ z)) s := by
  intro a s' e
  obtain ⟨z, h1, h2⟩ := hm s hG a s' e
  exact ⟨y ++ z, by simp [e0, h1], h a z h2⟩

theorem canKey_ne {k : K} (h : (!(k matches .num _) && (canKey k || k matches .pvt _)) = true) : k ≠ .eof := by
  rintro rfl
  exact absurd h (by decide)

theorem memKey_ok {k : K} (h : (!(k matches .num _) && (canKey k || k matches .pvt _)) = true) : canKey k = true ∨ ∃ s, k = .pvt s := by
  cases k <;> simp_all

theorem dot_ok {e : Node} {x : List K} (he : Expr L e x) (opt : Bool) :
    Spec L (dot o e opt) (fun n y => Expr L n (x ++ .pu (if opt then .optChain else .dot) :: y)) := by
  intro s hG
  unfold dot
  w
  rename_i hq
  refine wp_next hG rfl (canKey_ne hq) (fun s1 h1 _ => ?_)
  w
  refine ⟨[s.h], h1, ?_⟩
  cases opt with
  | false => exact .member (memKey_ok hq) he
  | true => exact .optMember (memKey_ok hq) he

theorem subscript_ok (hr : RecOk L r) {e : Node} {x : List K} (he : Expr L e x) (b : Bool) :
    SpecAt L (.pu .brackL) (subscript r e b) (fun n y => Expr L n (x ++ opt b (.pu .optChain) ++ y)) := by
  intro s hG hk
  unfold subscript
  w
  refine wp_spec hr.expr (by assumption) (fun i y s2 h2 h3 _ => ?_)
  w
  refine ⟨.pu .brackL :: y ++ [.pu .brackR], by simp [*], ?_⟩
  cases b with
  | false =>
    have := Expr.index he h3
    simpa [opt] using this
  | true =>
    have := Expr.optIndex he h3
    simpa [opt] using this

theorem callRest_ok (hr : RecOk L r) (e : Node) (a d b : Bool) (x : List K) (he : Expr L e x) (hd : d = true → L .optCall) :
    Spec L (callRest o r e a d b) (fun n y => Expr L n.1 (x ++ y)) := by
  intro s hG
  unfold callRest
  w
  refine wp_ite (fun hc => ?_) (fun _ => wp_ite (fun hc => ?_) (fun _ => wp_ite (fun hc => ?_) (fun _ => ?_)))
  · w
    refine wp_spec (hr.args _ _) (by assumption) ?_
    rintro ⟨l, tc⟩ _ s3 h3 ⟨z, rfl, hz, ht⟩ _
    dsimp only at hz ⊢
    w
    have hC : Expr L (.call d e l) (x ++ .pu .parenL :: z ++ [.pu .parenR]) := by
      cases d with
      | false => exact .call he hz
      | true => exact .optCallX (hd rfl) he hz
    refine wp_spec (hr.callRest _ a d b _ hC hd) (by assumption) (fun n y s4 h4 h5 _ => ?_)
    exact ⟨.pu .parenL :: z ++ [.pu .parenR] ++ y, by simp [*], by simpa using h5⟩
  · ws
    refine wp_spec (hr.memRest _ _ _ _ _ he) (by assumption) ?_
    rintro ⟨n, b'⟩ y s2 h2 h3 _
    dsimp only at h3 ⊢
    refine wp_spec (hr.callRest _ a d _ _ h3 hd) (by assumption) (fun n y s4 h4 h5 _ => ?_)
    exact ⟨_, by rw [h2, h4, ← List.append_assoc], by simpa using h5⟩
  · ws
    refine wp_spec (tpl_tag hr he) (by assumption) (fun n y s2 h2 h3 _ => ?_)
    refine wp_spec (hr.callRest _ a d _ _ h3 hd) (by assumption) (fun n y s4 h4 h5 _ => ?_)
    exact ⟨_, by rw [h2, h4, ← List.append_assoc], by simpa using h5⟩
  · w
    refine ⟨[], rfl, ?_⟩
    dsimp only
    rw [List.append_nil]
    split
    · exact .chain he
    · exact he

theorem callOpt_ok (hr : RecOk L r) (e : Node) (a b : Bool) (x : List K) (he : Expr L e x) (hL : L .optCall) :
    SpecAt L (.pu .parenL) (callRest o r e a true b) (fun n y => Expr L n.1 (x ++ .pu .optChain :: y)) := by
  intro s hG hk
  unfold callRest
  w
  refine wp_ite (fun hc => ?_) (fun hc => absurd hk hc)
  w
  refine wp_spec (hr.args _ _) (by assumption) ?_
  rintro ⟨l, tc⟩ _ s3 h3 ⟨z, rfl, hz, ht⟩ _
  dsimp only at hz ⊢
  w
  refine wp_spec (hr.callRest _ a true b _ (.optCall he hz) (fun _ => hL)) (by assumption) (fun n y s4 h4 h5 _ => ?_)
  exact ⟨.pu .parenL :: z ++ [.pu .parenR] ++ y, by simp [*], by simpa using h5⟩

theorem optional_ok (hr : RecOk L r) {e : Node} {x : List K} (he : Expr L e x) {s0 s : S} (hG0 : Good L s0)
    (e0 : s0.T = .pu .optChain :: s.T) :
    WP (optional o r e) (fun n s' => ∃ y, s0.T = y ++ s'.T ∧ Expr L n (x ++ y)) s := by
  have hG : Good L s := hG0.after (x := [_]) e0
  unfold optional
  w
  refine wp_ite (fun hc => ?_) (fun _ => wp_ite (fun hc => ?_) (fun _ => ?_))
  · refine wp_specAt (subscript_ok hr he true) hG hc (fun n y s2 h2 h3 _ => ?_)
    exact ⟨.pu .optChain :: y, by simp [*], by simpa [opt] using h3⟩
  · ws
    have hL : L .optCall := by
      apply hG0
      exact ⟨[], _, s.T.tail, by rw [e0, T_of_h hc nofun]; rfl, rfl⟩
    refine wp_specAt (hr.callOpt e false true x he hL) hG hc ?_
    rintro ⟨n, b⟩ y s2 h2 h3 _
    dsimp only at h3 ⊢
    w
    exact ⟨.pu .optChain :: y, by simp [*], h3⟩
  · refine wp_spec (dot_ok he true) hG (fun n y s2 h2 h3 _ => ?_)
    exact ⟨.pu .optChain :: y, by simp [*], h3⟩

theorem memRest_ok (hr : RecOk L r) (e : Node) (a b c : Bool) (x : List K) (he : Expr L e x) :
    Spec L (memRest o r e a b c) (fun n y => Expr L n.1 (x ++ y)) := by
  intro s hG
  unfold memRest
  w
  refine wp_ite (fun hc => ?_) (fun _ => wp_ite (fun hc => ?_) (fun _ => wp_ite (fun hc => ?_) (fun _ => ?_)))
  · w
    rename_i s1 h1 _
    intro n s2 e
    obtain ⟨y, h2, h3⟩ := optional_ok hr he hG h1 n s2 e
    have g2 := hG.after h2
    refine wp_spec (hr.memRest _ _ _ _ _ h3) g2 (fun n y s4 h4 h5 _ => ?_)
    exact ⟨_, by rw [h2, h4, ← List.append_assoc], by simpa using h5⟩
  · ws
    refine wp_specAt (subscript_ok hr he false) hG hc (fun n y s2 h2 h3 _ => ?_)
    refine wp_spec (hr.memRest _ _ _ _ _ h3) (by assumption) (fun n y s4 h4 h5 _ => ?_)
    exact ⟨_, by rw [h2, h4, ← List.append_assoc], by simpa [opt] using h5⟩
  · w
    refine wp_spec (dot_ok he false) (by assumption) (fun n y s2 h2 h3 _ => ?_)
    refine wp_spec (hr.memRest _ _ _ _ _ h3) (by assumption) (fun n z s4 h4 h5 _ => ?_)
    exact ⟨.pu .dot :: (y ++ z), by simp [*], by simpa using h5⟩
  · w
    refine wp_ite (fun hc => ?_) (fun _ => ?_)
    · exact hr.callRest e b false c x he (by simp) s hG
    · w
      refine ⟨[], rfl, ?_⟩
      dsimp only
      rw [List.append_nil]
      split
      · exact .chain he
      · exact he

theorem newRest_ok (hr : RecOk L r) (e : Node) (a b : Bool) (x : List K) (he : Expr L e x) :
    Spec L (newRest r e a b) (fun n y => Expr L n (x ++ y)) := by
  intro s hG
  unfold newRest
  w
  refine wp_ite (fun hc => ?_) (fun _ => wp_ite (fun hc => ?_) (fun _ => ?_))
  · ws
    refine wp_spec (hr.callRest _ _ _ _ _ he (by simp)) hG ?_
    rintro ⟨n, b⟩ y s2 h2 h3 _
    dsimp only at h3 ⊢
    refine wp_spec (hr.newRest _ _ _ _ h3) (by assumption) (fun n z s4 h4 h5 _ => ?_)
    exact ⟨_, by rw [h2, h4, ← List.append_assoc], by simpa using h5⟩
  · ws
    refine wp_spec (hr.memRest _ _ _ _ _ he) hG ?_
    rintro ⟨n, b⟩ y s2 h2 h3 _
    dsimp only at h3 ⊢
    refine wp_spec (hr.newRest _ _ _ _ h3) (by assumption) (fun n z s4 h4 h5 _ => ?_)
    exact ⟨_, by rw [h2, h4, ← List.append_assoc], by simpa using h5⟩
  · w
    exact ⟨[], rfl, by simpa using he⟩

theorem memObj_ok (hr : RecOk L r) : Spec L (memObj o r) (Expr L) := by
  intro s hG
  unfold memObj
  w
  refine wp_ite (fun hc => hr.newE s hG hc) (fun _ => ?_)
  ws
  refine wp_spec (primary_ok hr) hG (fun n y s2 h2 h3 _ => ?_)
  w
  refine wp_ite (fun hc => ?_) (fun _ => ?_)
  · refine wp_spec (tpl_tag hr h3) (by assumption) (fun n y s3 h4 h5 _ => ?_)
    exact ⟨_, by rw [h2, h4, ← List.append_assoc], h5⟩
  · w
    exact ⟨_, h2, h3⟩

theorem tplHead_ne {k : K} (h : isTplHead k = true) : (∃ s, k = .tplPlain s) ∨ ∃ s, k = .tplHead s := by
  unfold isTplHead at h
  split at h
  · exact Or.inl ⟨_, rfl⟩
  · exact Or.inr ⟨_, rfl⟩
  · cases h

theorem newE_ok (hr : RecOk L r) : SpecAt L (.kw .new_) (newE o r) (Expr L) := by
  intro s hG hk
  unfold newE
  w
  rename_i s1 h1 _
  refine wp_ite (fun hc => ?_) (fun _ => ?_)
  · w
    exact ⟨_, by simp [*], .newTarget⟩
  · ws
    refine wp_spec (memObj_ok hr) (by assumption) (fun e x s2 h2 h3 _ => ?_)
    ws
    refine wp_spec (hr.memRest _ _ _ _ _ h3) (by assumption) ?_
    rintro ⟨n, b⟩ y s3 h4 h5 _
    dsimp only at h5 ⊢
    w
    refine wp_ite (fun hc => ?_) (fun _ => ?_)
    · w
      rename_i s4 h6 _
      refine wp_spec (hr.args _ _) (by assumption) ?_
      rintro ⟨l, tc⟩ _ s5 h7 ⟨z, rfl, hz, ht⟩ g5
      dsimp only at hz ⊢
      w
      refine wp_ite (fun hc => ?_) (fun _ => ?_)
      · simp only [Bool.and_eq_true] at hc
        obtain rfl : l = [] := by
          cases l with
          | nil => rfl
          | cons _ _ => exact absurd hc.1 (by simp)
        obtain rfl : z = [] := by
          cases hz
          rfl
        ws
        intro n' s6 e'
        unfold tpl at e'
        revert e'
        have : WP (do
            req (!isChain n)
            let l ← r.tplRest
            return Node.tpl n l) (fun n' s6 => ∃ l z, n' = .tpl n l ∧ s5.T = z ++ s6.T ∧ Tpl L l z ∧ Good L s6) s5 := by
          w
          refine wp_spec hr.tplRest g5 (fun l z s6 h8 h9 g6 => ?_)
          w
          exact ⟨_, _, rfl, h8, h9, g6⟩
        intro e'
        obtain ⟨l, z, rfl, h8, h9, g6⟩ := this _ _ e'
        have hL : L .newTpl := by
          apply hG
          refine ⟨.kw .new_ :: (x ++ y), _, s5.T.tail, ?_, s5.h, rfl, tplHead_ne hc.2⟩
          have h10 : s5.T = s5.h :: s5.T.tail := T_of_h rfl (by
            rcases tplHead_ne hc.2 with ⟨_, h⟩ | ⟨_, h⟩ <;> rw [h] <;> nofun)
          rw [h1, h2, h4, h6, h7]
          simp
          exact h10
        refine wp_spec (hr.newRest _ _ _ _ (.newTpl hL h5 h9)) g6 (fun n z' s7 h10 h11 _ => ?_)
        exact ⟨.kw .new_ :: (x ++ y ++ .pu .parenL :: .pu .parenR :: z ++ z'), by simp [*], by simpa using h11⟩
      · refine wp_spec (hr.newRest _ _ _ _ (.new_ h5 hz)) g5 (fun n z' s7 h10 h11 _ => ?_)
        exact ⟨.kw .new_ :: (x ++ y ++ .pu .parenL :: z ++ .pu .parenR :: z'), by simp [*], by simpa using h11⟩
    · refine wp_spec (hr.newRest _ _ _ _ (.newBare h5)) (by assumption) (fun n z' s7 h10 h11 _ => ?_)
      exact ⟨.kw .new_ :: (x ++ y ++ z'), by simp [*], by simpa using h11⟩

end

end Mole.Parser.Prog
