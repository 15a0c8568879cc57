import Verif.Parser.ProgEndsR

/-! # How deep the calls of the parser are: expressions (for C78) -/

namespace Mole.Parser.Prog

attribute [local irreducible] peek nl left scope next must chk req fail enter enterFn enterCls pushRet leave scopeRef setKind pushLoop popLoop
  lastLoop opening semi ident target patRest pat patElem patArr param params body blockS methodTail propKey propName patProp patObj
  arrowFn star fnName bodyOrExpr fnKw asyncArgs asyncTail asyncExpr tplRest tpl spread arg args parenE arrRest propData objProp
  objRest primary dot subscript callRest optional memRest newRest memObj newE lhs1 lhs update unary binInner binRest cond yieldE
  assignTail assign seqRest seqTail expr initE decs varDec varDecS exprS head sub ifS whileS doS withS forInit forLeft forRight
  forInTail optE forTail forAwait forS retArg retS throwS jumpLabel brkS contS labelS caseBody cases switchS catchParam catchS
  finallyS tryS asyncStmt otherS stmt stmts classKey memberTail fieldValue fieldTail namedMember memberRest member members className
  heritage classE condTail importMeta importE identKw srcE impSpec optComma impSpecs impGroup impFirst impMore impClause optFrom importS
  expSpec expSpecs nsName exportAll fromOpt exportNamed defaultS exportRest exportS

/-- Both sets of functions end in the same way where `N` is enough, and they take tokens. -/
structure Both (P : Prop) (N : Nat) (r r' : Rec) : Prop where
  expr : ∀ s : S, (P → 16 * s.ts.length + 5 ≤ N) → E P r.expr r'.expr s s.ts.length
  seqRest : ∀ s : S, (P → 16 * s.ts.length + 1 ≤ N) → E P r.seqRest r'.seqRest s (s.ts.length + 1)
  assign : ∀ s : S, (P → 16 * s.ts.length + 4 ≤ N) → E P r.assign r'.assign s s.ts.length
  unary : ∀ s : S, (P → 16 * s.ts.length + 3 ≤ N) → E P r.unary r'.unary s s.ts.length
  binRest : ∀ a b c d (s : S), (P → 16 * s.ts.length + 1 ≤ N) → E P (r.binRest a b c d) (r'.binRest a b c d) s (s.ts.length + 1)
  binInner : ∀ a b c d (s : S), (P → 16 * s.ts.length + 2 ≤ N) → E P (r.binInner a b c d) (r'.binInner a b c d) s (s.ts.length + 1)
  newE : ∀ s : S, hd s.ts = .kw .new_ → (P → 16 * s.ts.length + 1 ≤ N) → E P r.newE r'.newE s s.ts.length
  newRest : ∀ a b c (s : S), (P → 16 * s.ts.length + 5 ≤ N) → E P (r.newRest a b c) (r'.newRest a b c) s (s.ts.length + 1)
  callRest : ∀ a b c d (s : S), (P → 16 * s.ts.length + 4 ≤ N) → E P (r.callRest a b c d) (r'.callRest a b c d) s (s.ts.length + 1)
  memRest : ∀ a b c d (s : S), (P → 16 * s.ts.length + 2 ≤ N) → E P (r.memRest a b c d) (r'.memRest a b c d) s (s.ts.length + 1)
  args : ∀ a b (s : S), (P → 16 * s.ts.length + 5 ≤ N) → E P (r.args a b) (r'.args a b) s s.ts.length
  tplRest : ∀ s : S, (P → 16 * s.ts.length + 1 ≤ N) → E P r.tplRest r'.tplRest s s.ts.length
  arrRest : ∀ s : S, (P → 16 * s.ts.length + 5 ≤ N) → E P r.arrRest r'.arrRest s s.ts.length
  objRest : ∀ s : S, (P → 16 * s.ts.length + 1 ≤ N) → E P r.objRest r'.objRest s s.ts.length
  params : ∀ s : S, (P → 16 * s.ts.length + 2 ≤ N) → E P r.params r'.params s s.ts.length
  pat : ∀ s : S, (P → 16 * s.ts.length + 1 ≤ N) → E P r.pat r'.pat s s.ts.length
  patElem : ∀ s : S, (P → 16 * s.ts.length + 2 ≤ N) → E P r.patElem r'.patElem s s.ts.length
  patArr : ∀ s : S, (P → 16 * s.ts.length + 3 ≤ N) → E P r.patArr r'.patArr s s.ts.length
  patObj : ∀ s : S, (P → 16 * s.ts.length + 1 ≤ N) → E P r.patObj r'.patObj s s.ts.length
  decs : ∀ a (s : S), (P → 16 * s.ts.length + 2 ≤ N) → E P (r.decs a) (r'.decs a) s s.ts.length
  stmt : ∀ s : S, (P → 16 * s.ts.length + 6 ≤ N) → E P r.stmt r'.stmt s s.ts.length
  stmts : ∀ a (s : S), (P → 16 * s.ts.length + 7 ≤ N) → E P (r.stmts a) (r'.stmts a) s (s.ts.length + 1)
  cases : ∀ a (s : S), (P → 16 * s.ts.length + 1 ≤ N) → E P (r.cases a) (r'.cases a) s s.ts.length
  caseBody : ∀ s : S, (P → 16 * s.ts.length + 7 ≤ N) → E P r.caseBody r'.caseBody s (s.ts.length + 1)
  lhs : ∀ s : S, (P → 16 * s.ts.length + 2 ≤ N) → E P r.lhs r'.lhs s s.ts.length
  members : ∀ s : S, (P → 16 * s.ts.length + 1 ≤ N) → E P r.members r'.members s s.ts.length
  impSpecs : ∀ s : S, (P → 16 * s.ts.length + 1 ≤ N) → E P r.impSpecs r'.impSpecs s s.ts.length
  expSpecs : ∀ s : S, (P → 16 * s.ts.length + 1 ≤ N) → E P r.expSpecs r'.expSpecs s s.ts.length
  seqHead : ∀ s : S, hd s.ts = .pu .comma → (P → 16 * s.ts.length + 1 ≤ N) → E P r.seqRest r'.seqRest s s.ts.length
  memHead : ∀ a b c d (s : S), (hd s.ts = .pu .brackL || hd s.ts = .pu .dot || hd s.ts = .pu .optChain) = true →
    (P → 16 * s.ts.length + 2 ≤ N) → E P (r.memRest a b c d) (r'.memRest a b c d) s s.ts.length
  callPar : ∀ a b c d (s : S), hd s.ts = .pu .parenL →
    (P → 16 * s.ts.length + 1 ≤ N) → E P (r.callRest a b c d) (r'.callRest a b c d) s s.ts.length
  binHead : ∀ a p c d op (s : S), isBin s.cur.notIn (hd s.ts) = some op → ¬pcd op < p →
    (P → 16 * s.ts.length + 1 ≤ N) → E P (r.binRest a p c d) (r'.binRest a p c d) s s.ts.length

set_option hygiene false in
/-- The supply is enough. -/
macro "pb" : tactic => `(tactic| first | assumption | (intro hp; have hq := hP hp; omega))

theorem isAsync_ne {c : Ctx} {p : Bool} {ts : List Tok} (h : isAsync c p ts = true) : hd ts ≠ .eof := by
  intro e
  simp [isAsync, e] at h

theorem isAsyncMember_ne {c : Ctx} {ts : List Tok} (h : isAsyncMember c ts = true) : hd ts ≠ .eof := by
  intro e
  simp [isAsyncMember, isAsync, e] at h

theorem isVarDec_ne {o : Chk} {ts : List Tok} {k : K} (h : isVarDec o ts = some k) : hd ts ≠ .eof := by
  intro e
  simp [isVarDec, e, decKind] at h

/-- The next token is not the end. -/
macro "nee" : tactic => `(tactic| first
  | assumption
  | exact isAsync_ne (by assumption)
  | exact isAsyncMember_ne (by assumption)
  | exact isVarDec_ne (by assumption)
  | (simp_all; done)
  | (intro h0; simp_all [isUnary, isIncDec, isYield, isTplHead, isAtom, canKey, isKw, isBin]; done))

/-- What is known of a call. -/
syntax "ek" : tactic
macro_rules | `(tactic| ek) => `(tactic| fail "no rule")

/-- One step. -/
macro "e1" : tactic => `(tactic| first
  | exact e_fail
  | (refine e_pure ?_; omega)
  | refine e_peek ?_
  | refine e_nl ?_
  | refine e_left ?_
  | refine e_scope ?_
  | (refine e_scopeRef ?_; intro _)
  | (refine e_next ?_ ?_; (focus nee); intro _ _)
  | (refine e_must ?_ ?_; (focus nofun); intro _ _)
  | (refine e_req ?_; intro _)
  | refine e_chk ?_
  | refine e_opening ?_
  | (refine e_semi ?_; intro _ _)
  | (refine e_enter ?_; intro _ _ _)
  | (refine e_enterFn ?_; intro _ _ _)
  | (refine e_setKind ?_; intro _ _ _)
  | (refine e_pushLoop ?_; intro _ _ _)
  | (refine e_leave ?_; intro _ _ _)
  | (refine e_popLoop ?_; intro _ _ _)
  | refine e_lastLoop ?_
  | refine e_pushRet ?_
  | (refine e_enterCls ?_; intro _ _ _)
  | (refine e_ite ?_ ?_ <;> intro _)
  | (apply e_call2; (focus ek); intro _ _ _ _; dsimp only)
  | (apply e_call; (focus ek); intro _ _ _)
  | (apply e_last; (focus ek); omega))

macro "ego" : tactic => `(tactic| repeat' e1)

set_option hygiene false in
macro_rules | `(tactic| ek) => `(tactic| (refine Both.expr hr _ ?_; pb))
set_option hygiene false in
macro_rules | `(tactic| ek) => `(tactic| (refine Both.seqRest hr _ ?_; pb))
set_option hygiene false in
macro_rules | `(tactic| ek) => `(tactic| (refine Both.assign hr _ ?_; pb))
set_option hygiene false in
macro_rules | `(tactic| ek) => `(tactic| (refine Both.unary hr _ ?_; pb))
set_option hygiene false in
macro_rules | `(tactic| ek) => `(tactic| (refine Both.binRest hr _ _ _ _ _ ?_; pb))
set_option hygiene false in
macro_rules | `(tactic| ek) => `(tactic| (refine Both.binInner hr _ _ _ _ _ ?_; pb))
set_option hygiene false in
macro_rules | `(tactic| ek) => `(tactic| (refine Both.newE hr _ ?_ ?_; (focus (simp_all; done)); pb))
set_option hygiene false in
macro_rules | `(tactic| ek) => `(tactic| (refine Both.newRest hr _ _ _ _ ?_; pb))
set_option hygiene false in
macro_rules | `(tactic| ek) => `(tactic| (refine Both.callRest hr _ _ _ _ _ ?_; pb))
set_option hygiene false in
macro_rules | `(tactic| ek) => `(tactic| (refine Both.memRest hr _ _ _ _ _ ?_; pb))
set_option hygiene false in
macro_rules | `(tactic| ek) => `(tactic| (refine Both.args hr _ _ _ ?_; pb))
set_option hygiene false in
macro_rules | `(tactic| ek) => `(tactic| (refine Both.tplRest hr _ ?_; pb))
set_option hygiene false in
macro_rules | `(tactic| ek) => `(tactic| (refine Both.arrRest hr _ ?_; pb))
set_option hygiene false in
macro_rules | `(tactic| ek) => `(tactic| (refine Both.objRest hr _ ?_; pb))
set_option hygiene false in
macro_rules | `(tactic| ek) => `(tactic| (refine Both.params hr _ ?_; pb))
set_option hygiene false in
macro_rules | `(tactic| ek) => `(tactic| (refine Both.pat hr _ ?_; pb))
set_option hygiene false in
macro_rules | `(tactic| ek) => `(tactic| (refine Both.patElem hr _ ?_; pb))
set_option hygiene false in
macro_rules | `(tactic| ek) => `(tactic| (refine Both.patArr hr _ ?_; pb))
set_option hygiene false in
macro_rules | `(tactic| ek) => `(tactic| (refine Both.patObj hr _ ?_; pb))
set_option hygiene false in
macro_rules | `(tactic| ek) => `(tactic| (refine Both.decs hr _ _ ?_; pb))
set_option hygiene false in
macro_rules | `(tactic| ek) => `(tactic| (refine Both.stmt hr _ ?_; pb))
set_option hygiene false in
macro_rules | `(tactic| ek) => `(tactic| (refine Both.stmts hr _ _ ?_; pb))
set_option hygiene false in
macro_rules | `(tactic| ek) => `(tactic| (refine Both.cases hr _ _ ?_; pb))
set_option hygiene false in
macro_rules | `(tactic| ek) => `(tactic| (refine Both.caseBody hr _ ?_; pb))
set_option hygiene false in
macro_rules | `(tactic| ek) => `(tactic| (refine Both.lhs hr _ ?_; pb))
set_option hygiene false in
macro_rules | `(tactic| ek) => `(tactic| (refine Both.members hr _ ?_; pb))
set_option hygiene false in
macro_rules | `(tactic| ek) => `(tactic| (refine Both.impSpecs hr _ ?_; pb))
set_option hygiene false in
macro_rules | `(tactic| ek) => `(tactic| (refine Both.expSpecs hr _ ?_; pb))
set_option hygiene false in
macro_rules | `(tactic| ek) => `(tactic| (refine Both.seqHead hr _ ?_ ?_; (focus (simp_all; done)); pb))
set_option hygiene false in
macro_rules | `(tactic| ek) => `(tactic| (refine Both.memHead hr _ _ _ _ _ ?_ ?_; assumption; pb))
set_option hygiene false in
macro_rules | `(tactic| ek) => `(tactic| (refine Both.callPar hr _ _ _ _ _ ?_ ?_; (focus (simp_all; done)); pb))

macro_rules | `(tactic| ek) => `(tactic| exact target_e)

section
variable {P : Prop} {N : Nat} {o : Chk} {r r' : Rec} {s : S}

theorem ident_e :
    E P (ident o) (ident o) s s.ts.length := by
  unfold ident
  refine e_peek ?_
  split
  all_goals ego
macro_rules | `(tactic| ek) => `(tactic| exact ident_e)

theorem patRest_e {b} (hr : Both P N r r') (hP : P → 16 * s.ts.length + 0 ≤ N) (hk : hd s.ts ≠ .eof) :
    E P (patRest r b) (patRest r' b) s s.ts.length := by
  unfold patRest
  ego
set_option hygiene false in
macro_rules | `(tactic| ek) => `(tactic| (refine patRest_e hr ?_ ?_; pb; nee))

theorem pat_e (hr : Both P N r r') (hP : P → 16 * s.ts.length + 0 ≤ N) :
    E P (pat o r) (pat o r') s s.ts.length := by
  unfold pat
  refine e_peek ?_
  split
  all_goals ego
set_option hygiene false in
macro_rules | `(tactic| ek) => `(tactic| (refine pat_e hr ?_; pb))

theorem patElem_e (hr : Both P N r r') (hP : P → 16 * s.ts.length + 1 ≤ N) :
    E P (patElem o r) (patElem o r') s s.ts.length := by
  unfold patElem
  ego
set_option hygiene false in
macro_rules | `(tactic| ek) => `(tactic| (refine patElem_e hr ?_; pb))

theorem patArr_e (hr : Both P N r r') (hP : P → 16 * s.ts.length + 2 ≤ N) :
    E P (patArr r) (patArr r') s s.ts.length := by
  unfold patArr
  ego
set_option hygiene false in
macro_rules | `(tactic| ek) => `(tactic| (refine patArr_e hr ?_; pb))

theorem param_e (hr : Both P N r r') (hP : P → 16 * s.ts.length + 1 ≤ N) :
    E P (param o r) (param o r') s s.ts.length := by
  unfold param
  ego
set_option hygiene false in
macro_rules | `(tactic| ek) => `(tactic| (refine param_e hr ?_; pb))

theorem params_e (hr : Both P N r r') (hP : P → 16 * s.ts.length + 1 ≤ N) :
    E P (params o r) (params o r') s s.ts.length := by
  unfold params
  ego
set_option hygiene false in
macro_rules | `(tactic| ek) => `(tactic| (refine params_e hr ?_; pb))

theorem body_e (hr : Both P N r r') (hP : P → 16 * s.ts.length + 0 ≤ N) :
    E P (body r) (body r') s s.ts.length := by
  unfold body
  ego
set_option hygiene false in
macro_rules | `(tactic| ek) => `(tactic| (refine body_e hr ?_; pb))

theorem blockS_e {f} (hr : Both P N r r') (hP : P → 16 * s.ts.length + 0 ≤ N) :
    E P (blockS r f) (blockS r' f) s s.ts.length := by
  unfold blockS
  ego
set_option hygiene false in
macro_rules | `(tactic| ek) => `(tactic| (refine blockS_e hr ?_; pb))

theorem methodTail_e {k} {a} {b} {c} {d} (hr : Both P N r r') (hP : P → 16 * s.ts.length + 0 ≤ N) :
    E P (methodTail o r k a b c d) (methodTail o r' k a b c d) s s.ts.length := by
  unfold methodTail
  ego
set_option hygiene false in
macro_rules | `(tactic| ek) => `(tactic| (refine methodTail_e hr ?_; pb))

theorem propKey_e (hr : Both P N r r') (hP : P → 16 * s.ts.length + 0 ≤ N) :
    E P (propKey o r) (propKey o r') s s.ts.length := by
  unfold propKey
  ego
set_option hygiene false in
macro_rules | `(tactic| ek) => `(tactic| (refine propKey_e hr ?_; pb))

theorem propName_e (hr : Both P N r r') (hP : P → 16 * s.ts.length + 0 ≤ N) :
    E P (propName o r) (propName o r') s s.ts.length := by
  unfold propName
  ego
set_option hygiene false in
macro_rules | `(tactic| ek) => `(tactic| (refine propName_e hr ?_; pb))

theorem patProp_e (hr : Both P N r r') (hP : P → 16 * s.ts.length + 0 ≤ N) :
    E P (patProp o r) (patProp o r') s s.ts.length := by
  unfold patProp
  refine e_peek ?_
  refine e_ite ?_ ?_ <;> intro _
  · ego
  refine e_call (propName_e hr hP) ?_
  rintro (⟨_, _⟩ | _) _ _
  · ego
  · ego
set_option hygiene false in
macro_rules | `(tactic| ek) => `(tactic| (refine patProp_e hr ?_; pb))

theorem patObj_e (hr : Both P N r r') (hP : P → 16 * s.ts.length + 0 ≤ N) :
    E P (patObj o r) (patObj o r') s s.ts.length := by
  unfold patObj
  ego
set_option hygiene false in
macro_rules | `(tactic| ek) => `(tactic| (refine patObj_e hr ?_; pb))

theorem arrowFn_e {l} (hr : Both P N r r') (hP : P → 16 * s.ts.length + 0 ≤ N) (hk : hd s.ts ≠ .eof) :
    E P (arrowFn o r l) (arrowFn o r' l) s s.ts.length := by
  unfold arrowFn
  ego
set_option hygiene false in
macro_rules | `(tactic| ek) => `(tactic| (refine arrowFn_e hr ?_ ?_; pb; nee))

theorem star_e :
    E P (star) (star) s (s.ts.length + 1) := by
  unfold star
  ego
macro_rules | `(tactic| ek) => `(tactic| exact star_e)

theorem fnName_e :
    E P (fnName o) (fnName o) s (s.ts.length + 1) := by
  unfold fnName
  ego
macro_rules | `(tactic| ek) => `(tactic| exact fnName_e)

theorem bodyOrExpr_e (hr : Both P N r r') (hP : P → 16 * s.ts.length + 5 ≤ N) :
    E P (bodyOrExpr r) (bodyOrExpr r') s s.ts.length := by
  unfold bodyOrExpr
  ego
set_option hygiene false in
macro_rules | `(tactic| ek) => `(tactic| (refine bodyOrExpr_e hr ?_; pb))

theorem fnKw_e {a} {b} {c} (hr : Both P N r r') (hP : P → 16 * s.ts.length + 0 ≤ N) (hk : hd s.ts ≠ .eof) :
    E P (fnKw o r a b c) (fnKw o r' a b c) s s.ts.length := by
  unfold fnKw
  ego
set_option hygiene false in
macro_rules | `(tactic| ek) => `(tactic| (refine fnKw_e hr ?_ ?_; pb; nee))

theorem asyncArgs_e {a} (hr : Both P N r r') (hP : P → 16 * s.ts.length + 0 ≤ N) :
    E P (asyncArgs r a) (asyncArgs r' a) s (s.ts.length + 1) := by
  unfold asyncArgs
  ego
set_option hygiene false in
macro_rules | `(tactic| ek) => `(tactic| (refine asyncArgs_e hr ?_; pb))

theorem asyncTail_e (hr : Both P N r r') (hP : P → 16 * s.ts.length + 0 ≤ N) :
    E P (asyncTail o r) (asyncTail o r') s (s.ts.length + 1) := by
  unfold asyncTail
  ego
  split <;> ego
set_option hygiene false in
macro_rules | `(tactic| ek) => `(tactic| (refine asyncTail_e hr ?_; pb))

theorem asyncExpr_e (hr : Both P N r r') (hP : P → 16 * s.ts.length + 0 ≤ N) (hk : hd s.ts ≠ .eof) :
    E P (asyncExpr o r) (asyncExpr o r') s s.ts.length := by
  unfold asyncExpr
  ego
  split <;> ego
set_option hygiene false in
macro_rules | `(tactic| ek) => `(tactic| (refine asyncExpr_e hr ?_ ?_; pb; nee))

theorem tplRest_e (hr : Both P N r r') (hP : P → 16 * s.ts.length + 0 ≤ N) :
    E P (tplRest o r) (tplRest o r') s s.ts.length := by
  unfold tplRest
  refine e_peek ?_
  split
  all_goals ego
set_option hygiene false in
macro_rules | `(tactic| ek) => `(tactic| (refine tplRest_e hr ?_; pb))

theorem tpl_e {t} (hr : Both P N r r') (hP : P → 16 * s.ts.length + 1 ≤ N) :
    E P (tpl r t) (tpl r' t) s s.ts.length := by
  unfold tpl
  ego
set_option hygiene false in
macro_rules | `(tactic| ek) => `(tactic| (refine tpl_e hr ?_; pb))

theorem spread_e (hr : Both P N r r') (hP : P → 16 * s.ts.length + 0 ≤ N) (hk : hd s.ts ≠ .eof) :
    E P (spread r) (spread r') s s.ts.length := by
  unfold spread
  ego
set_option hygiene false in
macro_rules | `(tactic| ek) => `(tactic| (refine spread_e hr ?_ ?_; pb; nee))

theorem arg_e (hr : Both P N r r') (hP : P → 16 * s.ts.length + 4 ≤ N) :
    E P (arg r) (arg r') s s.ts.length := by
  unfold arg
  ego
set_option hygiene false in
macro_rules | `(tactic| ek) => `(tactic| (refine arg_e hr ?_; pb))

theorem args_e {a} {b} (hr : Both P N r r') (hP : P → 16 * s.ts.length + 4 ≤ N) :
    E P (args o r a b) (args o r' a b) s s.ts.length := by
  unfold args
  ego
set_option hygiene false in
macro_rules | `(tactic| ek) => `(tactic| (refine args_e hr ?_; pb))

theorem parenE_e (hr : Both P N r r') (hP : P → 16 * s.ts.length + 0 ≤ N) :
    E P (parenE o r) (parenE o r') s s.ts.length := by
  unfold parenE
  ego
  split <;> ego
set_option hygiene false in
macro_rules | `(tactic| ek) => `(tactic| (refine parenE_e hr ?_; pb))

theorem arrRest_e (hr : Both P N r r') (hP : P → 16 * s.ts.length + 4 ≤ N) :
    E P (arrRest r) (arrRest r') s s.ts.length := by
  unfold arrRest
  ego
set_option hygiene false in
macro_rules | `(tactic| ek) => `(tactic| (refine arrRest_e hr ?_; pb))

theorem propData_e (hr : Both P N r r') (hP : P → 16 * s.ts.length + 0 ≤ N) :
    E P (propData o r) (propData o r') s s.ts.length := by
  unfold propData
  refine e_call (propName_e hr hP) ?_
  rintro (⟨_, _⟩ | _) _ _
  · ego
  · ego
set_option hygiene false in
macro_rules | `(tactic| ek) => `(tactic| (refine propData_e hr ?_; pb))

theorem objProp_e (hr : Both P N r r') (hP : P → 16 * s.ts.length + 0 ≤ N) :
    E P (objProp o r) (objProp o r') s s.ts.length := by
  unfold objProp
  ego
set_option hygiene false in
macro_rules | `(tactic| ek) => `(tactic| (refine objProp_e hr ?_; pb))

theorem objRest_e (hr : Both P N r r') (hP : P → 16 * s.ts.length + 0 ≤ N) :
    E P (objRest o r) (objRest o r') s s.ts.length := by
  unfold objRest
  ego
set_option hygiene false in
macro_rules | `(tactic| ek) => `(tactic| (refine objRest_e hr ?_; pb))

theorem classKey_e (hr : Both P N r r') (hP : P → 16 * s.ts.length + 0 ≤ N) :
    E P (classKey o r) (classKey o r') s s.ts.length := by
  unfold classKey
  ego
set_option hygiene false in
macro_rules | `(tactic| ek) => `(tactic| (refine classKey_e hr ?_; pb))

theorem memberTail_e {a} {b} {c} {d} {e} {f} (hr : Both P N r r') (hP : P → 16 * s.ts.length + 0 ≤ N) :
    E P (memberTail o r a b c d e f) (memberTail o r' a b c d e f) s s.ts.length := by
  unfold memberTail
  ego
set_option hygiene false in
macro_rules | `(tactic| ek) => `(tactic| (refine memberTail_e hr ?_; pb))

theorem fieldValue_e (hr : Both P N r r') (hP : P → 16 * s.ts.length + 0 ≤ N) :
    E P (fieldValue r) (fieldValue r') s (s.ts.length + 1) := by
  unfold fieldValue
  ego
set_option hygiene false in
macro_rules | `(tactic| ek) => `(tactic| (refine fieldValue_e hr ?_; pb))

theorem fieldTail_e {a} {b} {c} (hr : Both P N r r') (hP : P → 16 * s.ts.length + 0 ≤ N) :
    E P (fieldTail o r a b c) (fieldTail o r' a b c) s (s.ts.length + 1) := by
  unfold fieldTail
  ego
set_option hygiene false in
macro_rules | `(tactic| ek) => `(tactic| (refine fieldTail_e hr ?_; pb))

theorem namedMember_e {a} {b} (hr : Both P N r r') (hP : P → 16 * s.ts.length + 0 ≤ N) (hk : hd s.ts ≠ .eof) :
    E P (namedMember o r a b) (namedMember o r' a b) s s.ts.length := by
  unfold namedMember
  ego
set_option hygiene false in
macro_rules | `(tactic| ek) => `(tactic| (refine namedMember_e hr ?_ ?_; pb; nee))

theorem memberRest_e {a} (hr : Both P N r r') (hP : P → 16 * s.ts.length + 0 ≤ N) :
    E P (memberRest o r a) (memberRest o r' a) s s.ts.length := by
  unfold memberRest
  ego
set_option hygiene false in
macro_rules | `(tactic| ek) => `(tactic| (refine memberRest_e hr ?_; pb))

theorem member_e (hr : Both P N r r') (hP : P → 16 * s.ts.length + 0 ≤ N) :
    E P (member o r) (member o r') s s.ts.length := by
  unfold member
  ego
set_option hygiene false in
macro_rules | `(tactic| ek) => `(tactic| (refine member_e hr ?_; pb))

theorem members_e (hr : Both P N r r') (hP : P → 16 * s.ts.length + 0 ≤ N) :
    E P (members o r) (members o r') s s.ts.length := by
  unfold members
  ego
set_option hygiene false in
macro_rules | `(tactic| ek) => `(tactic| (refine members_e hr ?_; pb))

theorem className_e :
    E P (className o) (className o) s (s.ts.length + 1) := by
  unfold className
  ego
macro_rules | `(tactic| ek) => `(tactic| exact className_e)

theorem heritage_e (hr : Both P N r r') (hP : P → 16 * s.ts.length + 0 ≤ N) :
    E P (heritage o r) (heritage o r') s (s.ts.length + 1) := by
  unfold heritage
  ego
set_option hygiene false in
macro_rules | `(tactic| ek) => `(tactic| (refine heritage_e hr ?_; pb))

theorem classE_e {a} (hr : Both P N r r') (hP : P → 16 * s.ts.length + 0 ≤ N) (hk : hd s.ts ≠ .eof) :
    E P (classE o r a) (classE o r' a) s s.ts.length := by
  unfold classE
  ego
set_option hygiene false in
macro_rules | `(tactic| ek) => `(tactic| (refine classE_e hr ?_ ?_; pb; nee))

theorem condTail_e {u} (hr : Both P N r r') (hP : P → 16 * s.ts.length + 1 ≤ N) :
    E P (condTail r u) (condTail r' u) s (s.ts.length + 1) := by
  unfold condTail
  ego
set_option hygiene false in
macro_rules | `(tactic| ek) => `(tactic| (refine condTail_e hr ?_; pb))

theorem importMeta_e (hr : Both P N r r') (hP : P → 16 * s.ts.length + 0 ≤ N) (hk : hd s.ts ≠ .eof) :
    E P (importMeta r) (importMeta r') s s.ts.length := by
  unfold importMeta
  ego
set_option hygiene false in
macro_rules | `(tactic| ek) => `(tactic| (refine importMeta_e hr ?_ ?_; pb; nee))

theorem importE_e (hr : Both P N r r') (hP : P → 16 * s.ts.length + 0 ≤ N) (hk : hd s.ts ≠ .eof) :
    E P (importE r) (importE r') s s.ts.length := by
  unfold importE
  ego
set_option hygiene false in
macro_rules | `(tactic| ek) => `(tactic| (refine importE_e hr ?_ ?_; pb; nee))

theorem primary_e (hr : Both P N r r') (hP : P → 16 * s.ts.length + 1 ≤ N) :
    E P (primary o r) (primary o r') s s.ts.length := by
  unfold primary
  ego
set_option hygiene false in
macro_rules | `(tactic| ek) => `(tactic| (refine primary_e hr ?_; pb))

theorem dot_e {a} {b} :
    E P (dot o a b) (dot o a b) s s.ts.length := by
  unfold dot
  ego
macro_rules | `(tactic| ek) => `(tactic| exact dot_e)

theorem subscript_e {a} {b} (hr : Both P N r r') (hP : P → 16 * s.ts.length + 0 ≤ N) (hk : hd s.ts ≠ .eof) :
    E P (subscript r a b) (subscript r' a b) s s.ts.length := by
  unfold subscript
  ego
set_option hygiene false in
macro_rules | `(tactic| ek) => `(tactic| (refine subscript_e hr ?_ ?_; pb; nee))

theorem callRest_e {a} {b} {c} {d} (hr : Both P N r r') (hP : P → 16 * s.ts.length + 3 ≤ N) :
    E P (callRest o r a b c d) (callRest o r' a b c d) s (s.ts.length + 1) := by
  unfold callRest
  ego
set_option hygiene false in
macro_rules | `(tactic| ek) => `(tactic| (refine callRest_e hr ?_; pb))

theorem optional_e {a} (hr : Both P N r r') (hP : P → 16 * s.ts.length + 1 ≤ N) :
    E P (optional o r a) (optional o r' a) s s.ts.length := by
  unfold optional
  ego
set_option hygiene false in
macro_rules | `(tactic| ek) => `(tactic| (refine optional_e hr ?_; pb))

theorem memRest_e {a} {b} {c} {d} (hr : Both P N r r') (hP : P → 16 * s.ts.length + 1 ≤ N) :
    E P (memRest o r a b c d) (memRest o r' a b c d) s (s.ts.length + 1) := by
  unfold memRest
  ego
set_option hygiene false in
macro_rules | `(tactic| ek) => `(tactic| (refine memRest_e hr ?_; pb))

theorem newRest_e {a} {b} {c} (hr : Both P N r r') (hP : P → 16 * s.ts.length + 4 ≤ N) :
    E P (newRest r a b c) (newRest r' a b c) s (s.ts.length + 1) := by
  unfold newRest
  ego
set_option hygiene false in
macro_rules | `(tactic| ek) => `(tactic| (refine newRest_e hr ?_; pb))

theorem memObj_e (hr : Both P N r r') (hP : P → 16 * s.ts.length + 1 ≤ N) :
    E P (memObj o r) (memObj o r') s s.ts.length := by
  unfold memObj
  ego
set_option hygiene false in
macro_rules | `(tactic| ek) => `(tactic| (refine memObj_e hr ?_; pb))

theorem newE_e (hr : Both P N r r') (hP : P → 16 * s.ts.length + 0 ≤ N) (hk : hd s.ts ≠ .eof) :
    E P (newE o r) (newE o r') s s.ts.length := by
  unfold newE
  ego
set_option hygiene false in
macro_rules | `(tactic| ek) => `(tactic| (refine newE_e hr ?_ ?_; pb; nee))

theorem lhs1_e (hr : Both P N r r') (hP : P → 16 * s.ts.length + 1 ≤ N) :
    E P (lhs1 o r) (lhs1 o r') s s.ts.length := by
  unfold lhs1
  ego
set_option hygiene false in
macro_rules | `(tactic| ek) => `(tactic| (refine lhs1_e hr ?_; pb))

theorem lhs_e (hr : Both P N r r') (hP : P → 16 * s.ts.length + 1 ≤ N) :
    E P (lhs o r) (lhs o r') s s.ts.length := by
  unfold lhs
  ego
set_option hygiene false in
macro_rules | `(tactic| ek) => `(tactic| (refine lhs_e hr ?_; pb))

theorem update_e (hr : Both P N r r') (hP : P → 16 * s.ts.length + 1 ≤ N) :
    E P (update o r) (update o r') s s.ts.length := by
  unfold update
  ego
set_option hygiene false in
macro_rules | `(tactic| ek) => `(tactic| (refine update_e hr ?_; pb))

theorem unary_e (hr : Both P N r r') (hP : P → 16 * s.ts.length + 2 ≤ N) :
    E P (unary o r) (unary o r') s s.ts.length := by
  unfold unary
  ego
set_option hygiene false in
macro_rules | `(tactic| ek) => `(tactic| (refine unary_e hr ?_; pb))

theorem binInner_e {a} {b} {c} {d} (hr : Both P N r r') (hP : P → 16 * s.ts.length + 1 ≤ N) :
    E P (binInner r a b c d) (binInner r' a b c d) s (s.ts.length + 1) := by
  unfold binInner
  refine e_scope ?_
  refine e_peek ?_
  split
  · refine e_ite ?_ ?_ <;> intro _
    · refine e_call (hr.binHead _ _ _ _ _ _ (by assumption) (Nat.lt_irrefl _) hP) ?_
      intro _ _ _
      ego
    · ego
  · ego
set_option hygiene false in
macro_rules | `(tactic| ek) => `(tactic| (refine binInner_e hr ?_; pb))

theorem binRest_e {a} {b} {c} {d} (hr : Both P N r r') (hP : P → 16 * s.ts.length + 0 ≤ N) :
    E P (binRest r a b c d) (binRest r' a b c d) s (s.ts.length + 1) := by
  unfold binRest
  refine e_scope ?_
  refine e_peek ?_
  split
  all_goals ego
set_option hygiene false in
macro_rules | `(tactic| ek) => `(tactic| (refine binRest_e hr ?_; pb))

theorem cond_e (hr : Both P N r r') (hP : P → 16 * s.ts.length + 3 ≤ N) :
    E P (cond r) (cond r') s s.ts.length := by
  unfold cond
  ego
set_option hygiene false in
macro_rules | `(tactic| ek) => `(tactic| (refine cond_e hr ?_; pb))

theorem yieldE_e (hr : Both P N r r') (hP : P → 16 * s.ts.length + 0 ≤ N) (hk : hd s.ts ≠ .eof) :
    E P (yieldE o r) (yieldE o r') s s.ts.length := by
  unfold yieldE
  ego
set_option hygiene false in
macro_rules | `(tactic| ek) => `(tactic| (refine yieldE_e hr ?_ ?_; pb; nee))

theorem assignTail_e {l} (hr : Both P N r r') (hP : P → 16 * s.ts.length + 0 ≤ N) :
    E P (assignTail o r l) (assignTail o r' l) s (s.ts.length + 1) := by
  unfold assignTail
  refine e_peek ?_
  split
  all_goals ego
set_option hygiene false in
macro_rules | `(tactic| ek) => `(tactic| (refine assignTail_e hr ?_; pb))

theorem assign_e (hr : Both P N r r') (hP : P → 16 * s.ts.length + 3 ≤ N) :
    E P (assign o r) (assign o r') s s.ts.length := by
  unfold assign
  ego
set_option hygiene false in
macro_rules | `(tactic| ek) => `(tactic| (refine assign_e hr ?_; pb))

theorem seqRest_e (hr : Both P N r r') (hP : P → 16 * s.ts.length + 0 ≤ N) :
    E P (seqRest r) (seqRest r') s (s.ts.length + 1) := by
  unfold seqRest
  ego
set_option hygiene false in
macro_rules | `(tactic| ek) => `(tactic| (refine seqRest_e hr ?_; pb))

theorem seqTail_e {e} (hr : Both P N r r') (hP : P → 16 * s.ts.length + 1 ≤ N) :
    E P (seqTail r e) (seqTail r' e) s (s.ts.length + 1) := by
  unfold seqTail
  ego
set_option hygiene false in
macro_rules | `(tactic| ek) => `(tactic| (refine seqTail_e hr ?_; pb))

theorem expr_e (hr : Both P N r r') (hP : P → 16 * s.ts.length + 4 ≤ N) :
    E P (expr o r) (expr o r') s s.ts.length := by
  unfold expr
  ego
set_option hygiene false in
macro_rules | `(tactic| ek) => `(tactic| (refine expr_e hr ?_; pb))

/-! The first token is taken. -/

theorem seqRest_h (hr : Both P N r r') (hP : P → 16 * s.ts.length + 0 ≤ N) (hk : hd s.ts = .pu .comma) :
    E P (seqRest r) (seqRest r') s s.ts.length := by
  unfold seqRest
  ego
  contradiction

theorem callRest_h {a b c d} (hr : Both P N r r') (hP : P → 16 * s.ts.length + 0 ≤ N) (hk : hd s.ts = .pu .parenL) :
    E P (callRest o r a b c d) (callRest o r' a b c d) s s.ts.length := by
  unfold callRest
  refine e_peek ?_
  refine e_ite ?_ ?_ <;> intro _
  · ego
  · contradiction

theorem memRest_h {a b c d} (hr : Both P N r r') (hP : P → 16 * s.ts.length + 1 ≤ N)
    (hk : (hd s.ts = .pu .brackL || hd s.ts = .pu .dot || hd s.ts = .pu .optChain) = true) :
    E P (memRest o r a b c d) (memRest o r' a b c d) s s.ts.length := by
  unfold memRest
  refine e_peek ?_
  refine e_ite ?_ ?_ <;> intro _
  · ego
  refine e_ite ?_ ?_ <;> intro _
  · ego
  refine e_ite ?_ ?_ <;> intro _
  · ego
  · simp_all

theorem binRest_h {a p c d op} (hr : Both P N r r') (hP : P → 16 * s.ts.length + 0 ≤ N)
    (hk : isBin s.cur.notIn (hd s.ts) = some op) (hp : ¬pcd op < p) :
    E P (binRest r a p c d) (binRest r' a p c d) s s.ts.length := by
  unfold binRest
  refine e_scope ?_
  refine e_peek ?_
  simp only [hk, hp, if_false]
  ego

end

end Mole.Parser.Prog
