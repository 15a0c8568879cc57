import Verif.Parser.ProgWp
import Verif.Parser.ProgBal

/-! # The tokens taken are those of the tree: lemmas (for C76) -/

namespace Mole.Parser.Prog

attribute [local irreducible] peek nl left scope next must chk req fail enter enterFn enterCls pushRet leave scopeRef setKind pushLoop popLoop
  lastLoop opening semi ident target patRest pat patElem patArr param params body blockS methodTail propKey propName patProp patObj
  arrowFn star fnName bodyOrExpr fnKw asyncArgs asyncTail asyncExpr tplRest tpl spread arg args parenE arrRest propData objProp
  objRest primary dot subscript callRest optional memRest newRest memObj newE lhs1 lhs update unary binInner binRest cond yieldE
  assignTail assign seqRest seqTail expr initE decs varDec varDecS exprS head sub ifS whileS doS withS forInit forLeft forRight
  forInTail optE forTail forAwait forS retArg retS throwS jumpLabel brkS contS labelS caseBody cases switchS catchParam catchS
  finallyS tryS asyncStmt otherS stmt stmts classKey memberTail fieldValue fieldTail namedMember memberRest member members className
  heritage classE condTail importMeta importE identKw srcE impSpec optComma impSpecs impGroup impFirst impMore impClause optFrom importS
  expSpec expSpecs nsName exportAll fromOpt exportNamed defaultS exportRest exportS

macro "ws" : tactic => `(tactic| first
  | refine wp_bind ?_
  | refine wp_pure ?_
  | exact wp_fail
  | refine wp_peek ?_
  | refine wp_nl (fun _ => ?_)
  | refine wp_scope (fun _ => ?_)
  | refine wp_scopeRef (fun _ => ?_)
  | refine wp_chk ?_
  | refine wp_opening ?_
  | refine wp_lastLoop ?_
  | refine wp_pushRet ?_
  | refine wp_req (fun _ => ?_)
  | refine wp_must (by assumption) (by first | assumption | nofun) (fun _ _ _ => ?_)
  | refine wp_enter (by assumption) (fun _ _ _ _ => ?_)
  | refine wp_enterFn (by assumption) (fun _ _ _ _ => ?_)
  | refine wp_enterCls (by assumption) (fun _ _ _ _ => ?_)
  | refine wp_setKind (by assumption) (fun _ _ _ _ => ?_)
  | refine wp_pushLoop (by assumption) (fun _ _ _ _ => ?_)
  | refine wp_popLoop (by assumption) (fun _ _ _ _ => ?_)
  | refine wp_leave (by assumption) (fun _ _ _ _ => ?_)
  | refine wp_semi (by assumption) (fun _ _ _ _ _ => ?_)
  | refine wp_next (by assumption) (by assumption) (by first | assumption | nofun) (fun _ _ _ => ?_))

/-- All the steps that need no thought. -/
macro "w" : tactic => `(tactic| repeat ws)

/-- No comma is after the last one. -/
def NoTrail (L : Ex → Prop) (l : List Node) (z : List K) : Prop :=
  (l = [] ∧ z = []) ∨ ∃ e t a b, l = e :: t ∧ z = a ++ b ∧ Expr L e a ∧ Tail L t b

/-- The tokens of a member of a class end so that a method without a name is not taken to be part of it. -/
def Ended (x : List K) (p : Bool) (k : K) : Prop :=
  if p then ∃ c z, x = c ++ .asg .assign :: z
  else k = .pu .parenL → (∃ c, x = c ++ [.pu .semi]) ∨ ∃ c, x = c ++ [.pu .braceR]

/-- These tokens are before the members of a class that are still to come. -/
def Before (q : List K) (p : Bool) (k : K) : Prop :=
  ∃ a b, q = .kw .class_ :: a ++ .pu .braceL :: b ∧ Neutral a ∧ Neutral b ∧ (b = [] ∧ p = false ∨ Ended b p k)

/-- The functions with less fuel take the tokens of their trees. -/
structure RecOk (L : Ex → Prop) (r : Rec) : Prop where
  expr : Spec L r.expr (Expr L)
  seqRest : Spec L r.seqRest (Tail L)
  assign : Spec L r.assign (Expr L)
  unary : Spec L r.unary (Expr L)
  binRest : ∀ e p a b x, Expr L e x → Spec L (r.binRest e p a b) (fun n y => Expr L n (x ++ y))
  binInner : ∀ e p a b x, Expr L e x → Spec L (r.binInner e p a b) (fun n y => Expr L n (x ++ y))
  newE : SpecAt L (.kw .new_) r.newE (Expr L)
  newRest : ∀ e a b x, Expr L e x → Spec L (r.newRest e a b) (fun n y => Expr L n (x ++ y))
  callRest : ∀ e a d b x, Expr L e x → (d = true → L .optCall) → Spec L (r.callRest e a d b) (fun n y => Expr L n.1 (x ++ y))
  callOpt : ∀ e a b x, Expr L e x → L .optCall →
    SpecAt L (.pu .parenL) (r.callRest e a true b) (fun n y => Expr L n.1 (x ++ .pu .optChain :: y))
  memRest : ∀ e a b c x, Expr L e x → Spec L (r.memRest e a b c) (fun n y => Expr L n.1 (x ++ y))
  args : ∀ a b, Spec L (r.args a b) (fun n y => ∃ z, y = z ++ [.pu .parenR] ∧ List_ L n.1 z ∧ (n.2 = false → NoTrail L n.1 z))
  tplRest : Spec L r.tplRest (Tpl L)
  arrRest : Spec L r.arrRest (fun n y => ∃ z, y = z ++ [.pu .brackR] ∧ Elems L n z)
  objRest : Spec L r.objRest (fun n y => ∃ z, y = z ++ [.pu .braceR] ∧ List_ L n z)
  params : Spec L r.params (fun n y => ∃ z, y = z ++ [.pu .parenR] ∧ List_ L n z)
  pat : Spec L r.pat (Expr L)
  patElem : Spec L r.patElem (Expr L)
  patArr : Spec L r.patArr (fun n y => ∃ z, y = z ++ [.pu .brackR] ∧ Elems L n z)
  patObj : Spec L r.patObj (fun n y => ∃ z, y = z ++ [.pu .braceR] ∧ List_ L n z)
  decs : ∀ b, Spec L (r.decs b) (Decs L)
  stmt : Spec L r.stmt (Stmt L)
  stmts : Spec L (r.stmts true) (fun n y => ∃ z, y = z ++ [.pu .braceR] ∧ Stmts L n z)
  cases : ∀ b, Spec L (r.cases b) (fun n y => ∃ z, y = z ++ [.pu .braceR] ∧ Cases L n z)
  caseBody : Spec L r.caseBody (Stmts L)
  lhs : Spec L r.lhs (Expr L)
  members : ∀ q p s, (∀ x, Occ (q ++ s.T) x → L x) → Before q p s.h →
    WP r.members (fun l s' => ∃ z, s.T = z ++ .pu .braceR :: s'.T ∧ Members L p l z) s
  impSpecs : Spec L r.impSpecs (fun l y => ∃ z, y = z ++ [.pu .braceR] ∧ Loose ImpSpec l z ∧ z.all specTok = true ∧
    (Specs ImpSpec l z ∨ commas z = false))
  expSpecs : Spec L r.expSpecs (fun l y => ∃ z, y = z ++ [.pu .braceR] ∧ Specs ExpSpec l z)

section
variable {L : Ex → Prop} {o : Chk} {r : Rec}

theorem isWord_operand {k : K} (h : isWord k = true) : isOperand k = true := by
  cases k <;> first | rfl | cases h

theorem ident_ok : Spec L (ident o) (fun n x => ∃ k, n = .leaf k ∧ x = [k] ∧ isWord k = true) := by
  intro s hG
  unfold ident
  w
  cases e : s.h <;> dsimp only <;> try exact wp_fail
  · w
    rename_i s1 h1 _
    exact ⟨[_], h1, _, rfl, rfl, rfl⟩
  · w
    rename_i s1 h1 _
    exact ⟨[_], h1, _, rfl, rfl, rfl⟩

theorem ident_expr : Spec L (ident o) (Expr L) := by
  intro s hG
  refine wp_spec ident_ok hG ?_
  rintro _ _ s1 h ⟨k, rfl, rfl, hk⟩ _
  exact ⟨_, h, .leaf (isWord_operand hk)⟩

theorem patRest_ok (hr : RecOk L r) (b : Bool) : SpecAt L (.pu .dots) (patRest r b) (Expr L) := by
  intro s hG hk
  unfold patRest
  w
  refine wp_spec hr.pat (by assumption) (fun e x s3 h3 h4 _ => ?_)
  w
  exact ⟨.pu .dots :: x, by simp [*], .spread h4⟩

theorem pat_ok (hr : RecOk L r) : Spec L (pat o r) (Expr L) := by
  intro s hG
  unfold pat
  w
  split
  · rename_i hk
    w
    refine wp_spec hr.patObj (by assumption) ?_
    rintro l _ s3 h3 ⟨z, rfl, hz⟩ _
    w
    exact ⟨_, by simp [*], .obj hz⟩
  · rename_i hk
    w
    refine wp_spec hr.patArr (by assumption) ?_
    rintro l _ s3 h3 ⟨z, rfl, hz⟩ _
    w
    exact ⟨_, by simp [*], .arr hz⟩
  · exact patRest_ok hr true s hG ‹_›
  · exact ident_expr s hG

theorem patElem_ok (hr : RecOk L r) : Spec L (patElem o r) (Expr L) := by
  intro s hG
  unfold patElem
  ws
  refine wp_spec hr.pat (by assumption) (fun e x s1 h1 h2 _ => ?_)
  w
  refine wp_ite (fun hc => ?_) (fun _ => ?_)
  · w
    refine wp_spec hr.assign (by assumption) (fun e x s1 h1 h2 _ => ?_)
    w
    refine ⟨_, ?_, .assign ‹_› h2⟩
    simp [*]
  · w
    exact ⟨_, h1, h2⟩

theorem patArr_ok (hr : RecOk L r) : Spec L (patArr r) (fun n y => ∃ z, y = z ++ [.pu .brackR] ∧ Elems L n z) := by
  intro s hG
  unfold patArr
  w
  refine wp_ite (fun hc => ?_) (fun _ => wp_ite (fun hc => ?_) (fun _ => ?_))
  · w
    refine wp_spec hr.patArr (by assumption) ?_
    rintro l _ s2 h2 ⟨z, rfl, hz⟩ _
    w
    exact ⟨_, by simp [*], _, rfl, .hole hz⟩
  · w
    exact ⟨_, by simp [*], _, rfl, .nil⟩
  · ws
    refine wp_spec hr.patElem (by assumption) (fun e x s1 h1 h2 _ => ?_)
    w
    refine wp_ite (fun hc => ?_) (fun _ => ?_)
    · w
      refine wp_spec hr.patArr (by assumption) ?_
      rintro l _ s2 h2 ⟨z, rfl, hz⟩ _
      w
      refine ⟨_, ?_, _, rfl, .cons ‹_› hz⟩
      simp [*]
    · w
      refine ⟨_, ?_, _, rfl, .one ‹_›⟩
      simp [*]

theorem param_ok (hr : RecOk L r) : Spec L (param o r) (Expr L) := by
  intro s hG
  unfold param
  w
  refine wp_left (fun ts _ _ => wp_ite (fun hc => ?_) (fun _ => ?_))
  · have hk : s.h = .kw .this := by
      simp at hc
      exact hc.1
    w
    exact ⟨_, by simp [*], .leaf rfl⟩
  · ws
    refine wp_spec hr.pat (by assumption) (fun e x s1 h1 h2 _ => ?_)
    w
    refine wp_ite (fun hc => ?_) (fun _ => ?_)
    · w
      refine wp_spec hr.assign (by assumption) (fun e x s1 h1 h2 _ => ?_)
      w
      refine ⟨_, ?_, .assign ‹_› h2⟩
      simp [*]
    · w
      exact ⟨_, h1, h2⟩

theorem params_ok (hr : RecOk L r) : Spec L (params o r) (fun n y => ∃ z, y = z ++ [.pu .parenR] ∧ List_ L n z) := by
  intro s hG
  unfold params
  w
  refine wp_ite (fun hc => ?_) (fun _ => ?_)
  · w
    exact ⟨_, by simp [*], _, rfl, .nil⟩
  · ws
    refine wp_spec (param_ok hr) (by assumption) (fun e x s1 h1 h2 _ => ?_)
    w
    refine wp_ite (fun hc => ?_) (fun _ => ?_)
    · w
      refine wp_spec hr.params (by assumption) ?_
      rintro l _ s2 h2 ⟨z, rfl, hz⟩ _
      w
      refine ⟨_, ?_, _, rfl, .cons ‹_› hz⟩
      simp [*]
    · w
      refine ⟨_, ?_, _, rfl, .one ‹_›⟩
      simp [*]

theorem body_ok (hr : RecOk L r) :
    Spec L (body r) (fun n y => ∃ l z, n = .block l ∧ y = .pu .braceL :: z ++ [.pu .braceR] ∧ Stmts L l z) := by
  intro s hG
  unfold body
  w
  refine wp_spec hr.stmts (by assumption) ?_
  rintro l _ s2 h2 ⟨z, rfl, hz⟩ _
  w
  exact ⟨_, by simp [*], _, _, rfl, rfl, hz⟩

theorem blockS_ok (hr : RecOk L r) (f : Ctx → Ctx) : Spec L (blockS r f) (Stmt L) := by
  intro s hG
  unfold blockS
  w
  refine wp_spec hr.stmts (by assumption) ?_
  rintro l _ s2 h2 ⟨z, rfl, hz⟩ _
  w
  exact ⟨_, by simp [*], .block hz⟩

theorem methodTail_ok (hr : RecOk L r) (i : Nat) (as g c : Bool) (key : Node) :
    Spec L (methodTail o r i as g c key) (fun n y => ∃ ps b u v, n = .method i as g c key ps b ∧
      y = .pu .parenL :: u ++ .pu .parenR :: v ∧ List_ L ps u ∧ Stmt L b v) := by
  intro s hG
  unfold methodTail
  w
  refine wp_spec hr.params (by assumption) ?_
  rintro l _ s2 h2 ⟨z, rfl, hz⟩ _
  ws
  refine wp_spec (body_ok hr) (by assumption) ?_
  rintro _ _ s3 h3 ⟨b, v, rfl, rfl, hb⟩ _
  w
  exact ⟨_, by simp [*], _, _, _, _, rfl, rfl, hz, .block hb⟩

theorem key_ok {k : K} (h : (k matches .str _ || canKey k) = true) : canKey k = true ∨ ∃ s, k = .str s := by
  cases k <;> first | exact Or.inr ⟨_, rfl⟩ | exact Or.inl h

theorem propKey_ok (hr : RecOk L r) : Spec L (propKey o r) (fun p y => Key L p.2 p.1 y) := by
  intro s hG
  unfold propKey
  w
  refine wp_ite (fun hc => ?_) (fun _ => ?_)
  · w
    refine wp_spec hr.assign (by assumption) (fun e x s1 h1 h2 _ => ?_)
    w
    exact ⟨_, by simp [*], .computed h2⟩
  · w
    rename_i hq
    have hk : s.h ≠ .eof := by
      intro e
      rw [e] at hq
      exact absurd hq (by decide)
    refine wp_next hG rfl hk (fun s1 h1 _ => ?_)
    w
    exact ⟨_, h1, .name (key_ok hq)⟩

/-- A key that is a word. -/
theorem propKey_word (hr : RecOk L r) {k : K} (hb : k ≠ .pu .brackL) (he : k ≠ .eof) :
    SpecAt L k (propKey o r) (fun p y => p = (.leaf k, false) ∧ y = [k] ∧ (canKey k = true ∨ ∃ s, k = .str s)) := by
  intro s hG hk
  unfold propKey
  w
  refine wp_ite (fun hc => absurd (hk ▸ hc) hb) (fun _ => ?_)
  w
  rename_i hq _ _ _
  rw [hk] at hq ⊢
  exact ⟨[k], ‹_›, rfl, rfl, key_ok hq⟩

theorem text_eq {k : K} {w : String} (h : text k = w) (hw : w ≠ "") : k = .name w ∨ k = .str w := by
  unfold text at h
  split at h
  · exact Or.inl (by rw [h])
  · exact Or.inr (by rw [h])
  · exact absurd h.symm hw

theorem accessor_ok {s : S} (hG : Good L s) (w : String) (hw : w = "get" ∨ w = "set") {l : List K}
    (hk : s.T = .name w :: l ∨ s.T = .str w :: l) :
    Accessor L (if w = "get" then 1 else 2) [s.h] := by
  have hL : ∀ v, (v = "get" ∨ v = "set") → s.T = .str v :: l → L .accessor := by
    intro v hv e
    apply hG
    exact ⟨[], [.str v], l, by simp [e], by rcases hv with rfl | rfl <;> simp⟩
  rw [h_T]
  rcases hk with hk | hk <;> rw [hk] <;> rcases hw with rfl | rfl <;> simp
  · exact .get
  · exact .set
  · exact .getStr (hL _ (by simp) hk)
  · exact .setStr (hL _ (by simp) hk)

theorem propName_ok (hr : RecOk L r) :
    Spec L (propName o r) (fun p y => match p with | .inl (key, c) => Key L c key y | .inr m => Expr L m y) := by
  intro s hG
  unfold propName
  w
  by_cases hw : text s.h = "get" ∨ text s.h = "set"
  · obtain ⟨w, hw1, hw2⟩ : ∃ w, (w = "get" ∨ w = "set") ∧ text s.h = w := by
      rcases hw with h | h
      · exact ⟨_, Or.inl rfl, h⟩
      · exact ⟨_, Or.inr rfl, h⟩
    have hk : s.h = .name w ∨ s.h = .str w := text_eq hw2 (by rcases hw1 with rfl | rfl <;> decide)
    have hne : s.h ≠ .eof := by rcases hk with e | e <;> rw [e] <;> nofun
    have hnb : s.h ≠ .pu .brackL := by rcases hk with e | e <;> rw [e] <;> nofun
    refine wp_specAt (propKey_word hr hnb hne) hG rfl ?_
    rintro _ _ s1 h1 ⟨rfl, rfl, hkey⟩ g1
    have hA : Accessor L (if w = "get" then 1 else 2) [s.h] :=
      accessor_ok hG w hw1 (l := s1.T) (by rcases hk with e | e <;> rw [h1, e] <;> simp)
    dsimp only
    ws
    refine wp_left (fun ts _ _ => wp_ite (fun hc => ?_) (fun _ => wp_ite (fun hc => ?_) (fun _ => ?_)))
    · w
      exact ⟨_, h1, .name hkey⟩
    · w
      refine wp_spec (propKey_ok hr) (by assumption) ?_
      rintro ⟨key, c⟩ x s2 h2 h3 _
      dsimp only at h3 ⊢
      ws
      refine wp_spec (methodTail_ok hr _ _ _ _ _) (by assumption) ?_
      rintro _ _ s3 h4 ⟨ps, b, u, v, rfl, rfl, hu, hv⟩ _
      w
      refine ⟨_, ?_, Expr.method (by rw [hw2]; exact hA) h3 hu hv⟩
      simp [*, opt]
    · w
      refine wp_spec (methodTail_ok hr _ _ _ _ _) (by assumption) ?_
      rintro _ _ s3 h4 ⟨ps, b, u, v, rfl, rfl, hu, hv⟩ _
      w
      exact ⟨_, by simp [*, opt], Expr.method .method (.name hkey) hu hv⟩
  · refine wp_spec (propKey_ok hr) hG ?_
    rintro ⟨key, c⟩ x s1 h1 h2 _
    dsimp only at h2 ⊢
    ws
    refine wp_left (fun ts _ _ => wp_ite (fun hc => ?_) (fun _ => wp_ite (fun hc => ?_) (fun _ => ?_)))
    · w
      exact ⟨_, h1, h2⟩
    · exfalso
      simp at hc
      exact hw hc.1
    · w
      refine wp_spec (methodTail_ok hr _ _ _ _ _) (by assumption) ?_
      rintro _ _ s3 h4 ⟨ps, b, u, v, rfl, rfl, hu, hv⟩ _
      w
      exact ⟨_, by simp [*, opt], Expr.method .method h2 hu hv⟩

theorem patProp_ok (hr : RecOk L r) : Spec L (patProp o r) (Expr L) := by
  intro s hG
  unfold patProp
  w
  refine wp_ite (fun hc => patRest_ok hr false s hG hc) (fun _ => ?_)
  ws
  refine wp_spec (propName_ok hr) hG ?_
  rintro (⟨key, c⟩ | m) x s1 h1 h2 _
  · have hkey : Key L c key x := h2
    dsimp only at h2 ⊢
    w
    refine wp_ite (fun hc => ?_) (fun _ => wp_ite (fun hc => ?_) (fun _ => ?_))
    · w
      refine wp_spec hr.patElem (by assumption) (fun e x s1 h1 h2 _ => ?_)
      w
      refine ⟨_, ?_, .prop ‹_› h2⟩
      simp [*]
    · w
      refine wp_spec hr.assign (by assumption) (fun e y s3 h3 h4 _ => ?_)
      w
      cases c with
      | false => exact ⟨_, by simp [*], .init hkey h4⟩
      | true =>
        have hL : L .computedInit := by
          apply hG
          cases hkey with
          | computed he => exact ⟨.pu .brackL :: _, _, _, by simp only [*, List.append_assoc]; rfl, rfl⟩
        exact ⟨_, by simp [*], .computedInit hL hkey h4⟩
    · w
      exact ⟨_, h1, .short h2⟩
  · exact wp_fail

theorem patObj_ok (hr : RecOk L r) : Spec L (patObj o r) (fun n y => ∃ z, y = z ++ [.pu .braceR] ∧ List_ L n z) := by
  intro s hG
  unfold patObj
  w
  refine wp_ite (fun hc => ?_) (fun _ => ?_)
  · w
    exact ⟨_, by simp [*], _, rfl, .nil⟩
  · ws
    refine wp_spec (patProp_ok hr) (by assumption) (fun e x s1 h1 h2 _ => ?_)
    w
    refine wp_ite (fun hc => ?_) (fun _ => ?_)
    · w
      refine wp_spec hr.patObj (by assumption) ?_
      rintro l _ s2 h2 ⟨z, rfl, hz⟩ _
      w
      refine ⟨_, ?_, _, rfl, .cons ‹_› hz⟩
      simp [*]
    · w
      refine ⟨_, ?_, _, rfl, .one ‹_›⟩
      simp [*]

end

end Mole.Parser.Prog
