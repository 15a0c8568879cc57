import Verif.Parser.ProgEndsE

/-! # How deep the calls of the parser are: statements (for C78) -/

namespace Mole.Parser.Prog

attribute [local irreducible] peek nl left scope next must chk req fail enter enterFn enterCls pushRet leave scopeRef setKind pushLoop popLoop
  lastLoop opening semi ident target patRest pat patElem patArr param params body blockS methodTail propKey propName patProp patObj
  arrowFn star fnName bodyOrExpr fnKw asyncArgs asyncTail asyncExpr tplRest tpl spread arg args parenE arrRest propData objProp
  objRest primary dot subscript callRest optional memRest newRest memObj newE lhs1 lhs update unary binInner binRest cond yieldE
  assignTail assign seqRest seqTail expr initE decs varDec varDecS exprS head sub ifS whileS doS withS forInit forLeft forRight
  forInTail optE forTail forAwait forS retArg retS throwS jumpLabel brkS contS labelS caseBody cases switchS catchParam catchS
  finallyS tryS asyncStmt otherS stmt stmts classKey memberTail fieldValue fieldTail namedMember memberRest member members className
  heritage classE condTail importMeta importE identKw srcE impSpec optComma impSpecs impGroup impFirst impMore impClause optFrom importS
  expSpec expSpecs nsName exportAll fromOpt exportNamed defaultS exportRest exportS

section
variable {P : Prop} {N : Nat} {o : Chk} {r r' : Rec} {s : S}

theorem initE_e (hr : Both P N r r') (hP : P → 16 * s.ts.length + 0 ≤ N) :
    E P (initE r) (initE r') s (s.ts.length + 1) := by
  unfold initE
  ego
set_option hygiene false in
macro_rules | `(tactic| ek) => `(tactic| (refine initE_e hr ?_; pb))

theorem decs_e {a} (hr : Both P N r r') (hP : P → 16 * s.ts.length + 1 ≤ N) :
    E P (decs r a) (decs r' a) s s.ts.length := by
  unfold decs
  ego
set_option hygiene false in
macro_rules | `(tactic| ek) => `(tactic| (refine decs_e hr ?_; pb))

theorem varDec_e {k} (hr : Both P N r r') (hP : P → 16 * s.ts.length + 0 ≤ N) (hk : hd s.ts ≠ .eof) :
    E P (varDec o r k) (varDec o r' k) s s.ts.length := by
  unfold varDec
  ego
set_option hygiene false in
macro_rules | `(tactic| ek) => `(tactic| (refine varDec_e hr ?_ ?_; pb; nee))

theorem varDecS_e {k} (hr : Both P N r r') (hP : P → 16 * s.ts.length + 0 ≤ N) (hk : hd s.ts ≠ .eof) :
    E P (varDecS o r k) (varDecS o r' k) s s.ts.length := by
  unfold varDecS
  ego
set_option hygiene false in
macro_rules | `(tactic| ek) => `(tactic| (refine varDecS_e hr ?_ ?_; pb; nee))

theorem exprS_e (hr : Both P N r r') (hP : P → 16 * s.ts.length + 5 ≤ N) :
    E P (exprS r) (exprS r') s s.ts.length := by
  unfold exprS
  ego
set_option hygiene false in
macro_rules | `(tactic| ek) => `(tactic| (refine exprS_e hr ?_; pb))

theorem head_e (hr : Both P N r r') (hP : P → 16 * s.ts.length + 0 ≤ N) :
    E P (head r) (head r') s s.ts.length := by
  unfold head
  ego
set_option hygiene false in
macro_rules | `(tactic| ek) => `(tactic| (refine head_e hr ?_; pb))

theorem sub_e {d} (hr : Both P N r r') (hP : P → 16 * s.ts.length + 6 ≤ N) :
    E P (sub r d) (sub r' d) s s.ts.length := by
  unfold sub
  ego
set_option hygiene false in
macro_rules | `(tactic| ek) => `(tactic| (refine sub_e hr ?_; pb))

theorem ifS_e (hr : Both P N r r') (hP : P → 16 * s.ts.length + 0 ≤ N) (hk : hd s.ts ≠ .eof) :
    E P (ifS r) (ifS r') s s.ts.length := by
  unfold ifS
  ego
set_option hygiene false in
macro_rules | `(tactic| ek) => `(tactic| (refine ifS_e hr ?_ ?_; pb; nee))

theorem whileS_e (hr : Both P N r r') (hP : P → 16 * s.ts.length + 0 ≤ N) (hk : hd s.ts ≠ .eof) :
    E P (whileS r) (whileS r') s s.ts.length := by
  unfold whileS
  ego
set_option hygiene false in
macro_rules | `(tactic| ek) => `(tactic| (refine whileS_e hr ?_ ?_; pb; nee))

theorem doS_e (hr : Both P N r r') (hP : P → 16 * s.ts.length + 0 ≤ N) (hk : hd s.ts ≠ .eof) :
    E P (doS r) (doS r') s s.ts.length := by
  unfold doS
  ego
set_option hygiene false in
macro_rules | `(tactic| ek) => `(tactic| (refine doS_e hr ?_ ?_; pb; nee))

theorem withS_e (hr : Both P N r r') (hP : P → 16 * s.ts.length + 0 ≤ N) (hk : hd s.ts ≠ .eof) :
    E P (withS o r) (withS o r') s s.ts.length := by
  unfold withS
  ego
set_option hygiene false in
macro_rules | `(tactic| ek) => `(tactic| (refine withS_e hr ?_ ?_; pb; nee))

theorem forInit_e (hr : Both P N r r') (hP : P → 16 * s.ts.length + 5 ≤ N) :
    E P (forInit o r) (forInit o r') s (s.ts.length + 1) := by
  unfold forInit
  refine e_left ?_
  cases h : isVarDec o s.ts with
  | some kind =>
    dsimp only
    ego
  | none =>
    dsimp only
    ego
set_option hygiene false in
macro_rules | `(tactic| ek) => `(tactic| (refine forInit_e hr ?_; pb))

theorem forRight_e {b} (hr : Both P N r r') (hP : P → 16 * s.ts.length + 5 ≤ N) :
    E P (forRight r b) (forRight r' b) s s.ts.length := by
  unfold forRight
  ego
set_option hygiene false in
macro_rules | `(tactic| ek) => `(tactic| (refine forRight_e hr ?_; pb))

theorem forInTail_e {d} {a} {b} {i} (hr : Both P N r r') (hP : P → 16 * s.ts.length + 0 ≤ N) (hk : hd s.ts ≠ .eof) :
    E P (forInTail o r d a b i) (forInTail o r' d a b i) s s.ts.length := by
  unfold forInTail
  refine e_pushLoop ?_; intro _ _ _
  refine e_forLeft ?_; intro _
  ego
set_option hygiene false in
macro_rules | `(tactic| ek) => `(tactic| (refine forInTail_e hr ?_ ?_; pb; nee))

theorem optE_e {k} (hr : Both P N r r') (hP : P → 16 * s.ts.length + 5 ≤ N) :
    E P (optE r k) (optE r' k) s (s.ts.length + 1) := by
  unfold optE
  ego
set_option hygiene false in
macro_rules | `(tactic| ek) => `(tactic| (refine optE_e hr ?_; pb))

theorem forTail_e {d} {i} (hr : Both P N r r') (hP : P → 16 * s.ts.length + 0 ≤ N) :
    E P (forTail r d i) (forTail r' d i) s s.ts.length := by
  unfold forTail
  ego
set_option hygiene false in
macro_rules | `(tactic| ek) => `(tactic| (refine forTail_e hr ?_; pb))

theorem forAwait_e :
    E P (forAwait) (forAwait) s (s.ts.length + 1) := by
  unfold forAwait
  ego
macro_rules | `(tactic| ek) => `(tactic| exact forAwait_e)

theorem ne_of_hd {ts : List Tok} {k : String} (h : hd ts = .name k) : hd ts ≠ .eof := by rw [h]; nofun

theorem forS_e (hr : Both P N r r') (hP : P → 16 * s.ts.length + 0 ≤ N) (hk : hd s.ts ≠ .eof) :
    E P (forS o r) (forS o r') s s.ts.length := by
  unfold forS
  ego
  · refine e_last (forInTail_e hr ?_ (ne_of_hd (by assumption))) ?_
    · pb
    · omega
  · refine e_last (forInTail_e hr ?_ (ne_of_hd (by assumption))) ?_
    · pb
    · omega
set_option hygiene false in
macro_rules | `(tactic| ek) => `(tactic| (refine forS_e hr ?_ ?_; pb; nee))

theorem retArg_e (hr : Both P N r r') (hP : P → 16 * s.ts.length + 5 ≤ N) :
    E P (retArg r) (retArg r') s (s.ts.length + 1) := by
  unfold retArg
  ego
set_option hygiene false in
macro_rules | `(tactic| ek) => `(tactic| (refine retArg_e hr ?_; pb))

theorem retS_e (hr : Both P N r r') (hP : P → 16 * s.ts.length + 0 ≤ N) (hk : hd s.ts ≠ .eof) :
    E P (retS r) (retS r') s s.ts.length := by
  unfold retS
  ego
set_option hygiene false in
macro_rules | `(tactic| ek) => `(tactic| (refine retS_e hr ?_ ?_; pb; nee))

theorem throwS_e (hr : Both P N r r') (hP : P → 16 * s.ts.length + 0 ≤ N) (hk : hd s.ts ≠ .eof) :
    E P (throwS r) (throwS r') s s.ts.length := by
  unfold throwS
  ego
set_option hygiene false in
macro_rules | `(tactic| ek) => `(tactic| (refine throwS_e hr ?_ ?_; pb; nee))

theorem jumpLabel_e :
    E P (jumpLabel o) (jumpLabel o) s (s.ts.length + 1) := by
  unfold jumpLabel
  ego
macro_rules | `(tactic| ek) => `(tactic| exact jumpLabel_e)

theorem brkS_e (hk : hd s.ts ≠ .eof) :
    E P (brkS o) (brkS o) s s.ts.length := by
  unfold brkS
  ego
set_option hygiene false in
macro_rules | `(tactic| ek) => `(tactic| (refine brkS_e ?_; nee))

theorem contS_e (hk : hd s.ts ≠ .eof) :
    E P (contS o) (contS o) s s.ts.length := by
  unfold contS
  ego
set_option hygiene false in
macro_rules | `(tactic| ek) => `(tactic| (refine contS_e ?_; nee))

theorem labelS_e (hr : Both P N r r') (hP : P → 16 * s.ts.length + 0 ≤ N) :
    E P (labelS o r) (labelS o r') s s.ts.length := by
  unfold labelS
  ego
set_option hygiene false in
macro_rules | `(tactic| ek) => `(tactic| (refine labelS_e hr ?_; pb))

theorem caseBody_e (hr : Both P N r r') (hP : P → 16 * s.ts.length + 6 ≤ N) :
    E P (caseBody r) (caseBody r') s (s.ts.length + 1) := by
  unfold caseBody
  ego
set_option hygiene false in
macro_rules | `(tactic| ek) => `(tactic| (refine caseBody_e hr ?_; pb))

theorem cases_e {a} (hr : Both P N r r') (hP : P → 16 * s.ts.length + 0 ≤ N) :
    E P (cases r a) (cases r' a) s s.ts.length := by
  unfold cases
  ego
set_option hygiene false in
macro_rules | `(tactic| ek) => `(tactic| (refine cases_e hr ?_; pb))

theorem switchS_e (hr : Both P N r r') (hP : P → 16 * s.ts.length + 0 ≤ N) (hk : hd s.ts ≠ .eof) :
    E P (switchS r) (switchS r') s s.ts.length := by
  unfold switchS
  ego
set_option hygiene false in
macro_rules | `(tactic| ek) => `(tactic| (refine switchS_e hr ?_ ?_; pb; nee))

theorem catchParam_e (hr : Both P N r r') (hP : P → 16 * s.ts.length + 0 ≤ N) :
    E P (catchParam r) (catchParam r') s (s.ts.length + 1) := by
  unfold catchParam
  ego
set_option hygiene false in
macro_rules | `(tactic| ek) => `(tactic| (refine catchParam_e hr ?_; pb))

theorem catchS_e (hr : Both P N r r') (hP : P → 16 * s.ts.length + 0 ≤ N) :
    E P (catchS o r) (catchS o r') s s.ts.length := by
  unfold catchS
  ego
set_option hygiene false in
macro_rules | `(tactic| ek) => `(tactic| (refine catchS_e hr ?_; pb))

theorem finallyS_e (hr : Both P N r r') (hP : P → 16 * s.ts.length + 0 ≤ N) :
    E P (finallyS r) (finallyS r') s s.ts.length := by
  unfold finallyS
  ego
set_option hygiene false in
macro_rules | `(tactic| ek) => `(tactic| (refine finallyS_e hr ?_; pb))

theorem tryS_e (hr : Both P N r r') (hP : P → 16 * s.ts.length + 0 ≤ N) (hk : hd s.ts ≠ .eof) :
    E P (tryS o r) (tryS o r') s s.ts.length := by
  unfold tryS
  ego
set_option hygiene false in
macro_rules | `(tactic| ek) => `(tactic| (refine tryS_e hr ?_ ?_; pb; nee))

theorem asyncStmt_e {a} (hr : Both P N r r') (hP : P → 16 * s.ts.length + 0 ≤ N) (hk : hd s.ts ≠ .eof) :
    E P (asyncStmt o r a) (asyncStmt o r' a) s s.ts.length := by
  unfold asyncStmt
  ego
  split <;> ego
set_option hygiene false in
macro_rules | `(tactic| ek) => `(tactic| (refine asyncStmt_e hr ?_ ?_; pb; nee))

theorem identKw_e :
    E P (identKw o) (identKw o) s s.ts.length := by
  unfold identKw
  ego
macro_rules | `(tactic| ek) => `(tactic| exact identKw_e)

theorem srcE_e :
    E P (srcE) (srcE) s s.ts.length := by
  unfold srcE
  ego
macro_rules | `(tactic| ek) => `(tactic| exact srcE_e)

theorem impSpec_e :
    E P (impSpec o) (impSpec o) s s.ts.length := by
  unfold impSpec
  ego
macro_rules | `(tactic| ek) => `(tactic| exact impSpec_e)

theorem optComma_e :
    E P (optComma) (optComma) s (s.ts.length + 1) := by
  unfold optComma
  ego
  exact next_e
macro_rules | `(tactic| ek) => `(tactic| exact optComma_e)

theorem impSpecs_e (hr : Both P N r r') (hP : P → 16 * s.ts.length + 0 ≤ N) :
    E P (impSpecs o r) (impSpecs o r') s s.ts.length := by
  unfold impSpecs
  ego
set_option hygiene false in
macro_rules | `(tactic| ek) => `(tactic| (refine impSpecs_e hr ?_; pb))

theorem impGroup_e (hr : Both P N r r') (hP : P → 16 * s.ts.length + 0 ≤ N) :
    E P (impGroup o r) (impGroup o r') s s.ts.length := by
  unfold impGroup
  ego
set_option hygiene false in
macro_rules | `(tactic| ek) => `(tactic| (refine impGroup_e hr ?_; pb))

theorem impFirst_e (hr : Both P N r r') (hP : P → 16 * s.ts.length + 0 ≤ N) :
    E P (impFirst o r) (impFirst o r') s s.ts.length := by
  unfold impFirst
  ego
set_option hygiene false in
macro_rules | `(tactic| ek) => `(tactic| (refine impFirst_e hr ?_; pb))

theorem impMore_e (hr : Both P N r r') (hP : P → 16 * s.ts.length + 0 ≤ N) :
    E P (impMore o r) (impMore o r') s (s.ts.length + 1) := by
  unfold impMore
  ego
set_option hygiene false in
macro_rules | `(tactic| ek) => `(tactic| (refine impMore_e hr ?_; pb))

theorem impClause_e (hr : Both P N r r') (hP : P → 16 * s.ts.length + 0 ≤ N) :
    E P (impClause o r) (impClause o r') s (s.ts.length + 1) := by
  unfold impClause
  ego
set_option hygiene false in
macro_rules | `(tactic| ek) => `(tactic| (refine impClause_e hr ?_; pb))

theorem optFrom_e :
    E P (optFrom) (optFrom) s (s.ts.length + 1) := by
  unfold optFrom
  ego
  exact next_e
macro_rules | `(tactic| ek) => `(tactic| exact optFrom_e)

theorem importS_e (hr : Both P N r r') (hP : P → 16 * s.ts.length + 0 ≤ N) (hk : hd s.ts ≠ .eof) :
    E P (importS o r) (importS o r') s s.ts.length := by
  unfold importS
  ego
set_option hygiene false in
macro_rules | `(tactic| ek) => `(tactic| (refine importS_e hr ?_ ?_; pb; nee))

theorem expSpec_e :
    E P (expSpec o) (expSpec o) s s.ts.length := by
  unfold expSpec
  ego
macro_rules | `(tactic| ek) => `(tactic| exact expSpec_e)

theorem expSpecs_e (hr : Both P N r r') (hP : P → 16 * s.ts.length + 0 ≤ N) :
    E P (expSpecs o r) (expSpecs o r') s s.ts.length := by
  unfold expSpecs
  ego
set_option hygiene false in
macro_rules | `(tactic| ek) => `(tactic| (refine expSpecs_e hr ?_; pb))

theorem nsName_e :
    E P (nsName o) (nsName o) s (s.ts.length + 1) := by
  unfold nsName
  ego
macro_rules | `(tactic| ek) => `(tactic| exact nsName_e)

theorem exportAll_e (hk : hd s.ts ≠ .eof) :
    E P (exportAll o) (exportAll o) s s.ts.length := by
  unfold exportAll
  ego
set_option hygiene false in
macro_rules | `(tactic| ek) => `(tactic| (refine exportAll_e ?_; nee))

theorem fromOpt_e {l} :
    E P (fromOpt l) (fromOpt l) s (s.ts.length + 1) := by
  unfold fromOpt
  ego
macro_rules | `(tactic| ek) => `(tactic| exact fromOpt_e)

theorem exportNamed_e (hr : Both P N r r') (hP : P → 16 * s.ts.length + 0 ≤ N) (hk : hd s.ts ≠ .eof) :
    E P (exportNamed r) (exportNamed r') s s.ts.length := by
  unfold exportNamed
  ego
set_option hygiene false in
macro_rules | `(tactic| ek) => `(tactic| (refine exportNamed_e hr ?_ ?_; pb; nee))

theorem defaultS_e (hr : Both P N r r') (hP : P → 16 * s.ts.length + 4 ≤ N) :
    E P (defaultS o r) (defaultS o r') s s.ts.length := by
  unfold defaultS
  ego
set_option hygiene false in
macro_rules | `(tactic| ek) => `(tactic| (refine defaultS_e hr ?_; pb))

theorem exportRest_e (hr : Both P N r r') (hP : P → 16 * s.ts.length + 4 ≤ N) :
    E P (exportRest o r) (exportRest o r') s s.ts.length := by
  unfold exportRest
  refine e_peek ?_
  refine e_scope ?_
  refine e_left ?_
  refine e_ite ?_ ?_ <;> intro _
  · ego
  refine e_ite ?_ ?_ <;> intro _
  · ego
  cases h : isVarDec o s.ts with
  | some kind =>
    dsimp only
    ego
  | none =>
    dsimp only
    ego
set_option hygiene false in
macro_rules | `(tactic| ek) => `(tactic| (refine exportRest_e hr ?_; pb))

theorem exportS_e (hr : Both P N r r') (hP : P → 16 * s.ts.length + 0 ≤ N) (hk : hd s.ts ≠ .eof) :
    E P (exportS o r) (exportS o r') s s.ts.length := by
  unfold exportS
  ego
set_option hygiene false in
macro_rules | `(tactic| ek) => `(tactic| (refine exportS_e hr ?_ ?_; pb; nee))

theorem otherS_e (hr : Both P N r r') (hP : P → 16 * s.ts.length + 5 ≤ N) :
    E P (otherS o r) (otherS o r') s s.ts.length := by
  unfold otherS
  refine e_left ?_
  refine e_scope ?_
  cases h : isVarDec o s.ts with
  | some kind =>
    dsimp only
    ego
  | none =>
    dsimp only
    ego
set_option hygiene false in
macro_rules | `(tactic| ek) => `(tactic| (refine otherS_e hr ?_; pb))

theorem stmt_e (hr : Both P N r r') (hP : P → 16 * s.ts.length + 5 ≤ N) :
    E P (stmt o r) (stmt o r') s s.ts.length := by
  unfold stmt
  refine e_scope ?_
  refine e_peek ?_
  split
  all_goals ego
set_option hygiene false in
macro_rules | `(tactic| ek) => `(tactic| (refine stmt_e hr ?_; pb))

theorem stmts_e {a} (hr : Both P N r r') (hP : P → 16 * s.ts.length + 6 ≤ N) :
    E P (stmts o r a) (stmts o r' a) s (s.ts.length + 1) := by
  unfold stmts
  ego
set_option hygiene false in
macro_rules | `(tactic| ek) => `(tactic| (refine stmts_e hr ?_; pb))

theorem lower {k n N m : Nat} (h : P → 16 * n + k ≤ N + 1) (hm : m + 1 ≤ k) : P → 16 * n + m ≤ N := by
  intro hp
  have := h hp
  omega

theorem build_e (hr : Both P N r r') : Both P (N + 1) (build o r) (build o r') where
  expr _ hP := expr_e hr (lower hP (by decide))
  seqRest _ hP := seqRest_e hr (lower hP (by decide))
  assign _ hP := assign_e hr (lower hP (by decide))
  unary _ hP := unary_e hr (lower hP (by decide))
  binRest _ _ _ _ _ hP := binRest_e hr (lower hP (by decide))
  binInner _ _ _ _ _ hP := binInner_e hr (lower hP (by decide))
  newE _ hk hP := newE_e hr (lower hP (by decide)) (by rw [hk]; nofun)
  newRest _ _ _ _ hP := newRest_e hr (lower hP (by decide))
  callRest _ _ _ _ _ hP := callRest_e hr (lower hP (by decide))
  memRest _ _ _ _ _ hP := memRest_e hr (lower hP (by decide))
  args _ _ _ hP := args_e hr (lower hP (by decide))
  tplRest _ hP := tplRest_e hr (lower hP (by decide))
  arrRest _ hP := arrRest_e hr (lower hP (by decide))
  objRest _ hP := objRest_e hr (lower hP (by decide))
  params _ hP := params_e hr (lower hP (by decide))
  pat _ hP := pat_e hr (lower hP (by decide))
  patElem _ hP := patElem_e hr (lower hP (by decide))
  patArr _ hP := patArr_e hr (lower hP (by decide))
  patObj _ hP := patObj_e hr (lower hP (by decide))
  decs _ _ hP := decs_e hr (lower hP (by decide))
  stmt _ hP := stmt_e hr (lower hP (by decide))
  stmts _ _ hP := stmts_e hr (lower hP (by decide))
  cases _ _ hP := cases_e hr (lower hP (by decide))
  caseBody _ hP := caseBody_e hr (lower hP (by decide))
  lhs _ hP := lhs_e hr (lower hP (by decide))
  members _ hP := members_e hr (lower hP (by decide))
  impSpecs _ hP := impSpecs_e hr (lower hP (by decide))
  expSpecs _ hP := expSpecs_e hr (lower hP (by decide))
  seqHead _ hk hP := seqRest_h hr (lower hP (by decide)) hk
  memHead _ _ _ _ _ hk hP := memRest_h hr (lower hP (by decide)) hk
  callPar _ _ _ _ _ hk hP := callRest_h hr (lower hP (by decide)) hk
  binHead _ _ _ _ _ _ hk hp hP := binRest_h hr (lower hP (by decide)) hk hp

theorem none_e' {α : Type} {m : M α} {k n j : Nat} (hP : P → 16 * k + (j + 1) ≤ 0) : E P fail m s n :=
  ⟨fun hp => absurd (hP hp) (by omega), (@e_fail P α s n).2⟩

theorem none_e (r0 : Rec) : Both P 0 Rec.none r0 where
  expr _ hP := none_e' hP
  seqRest _ hP := none_e' hP
  assign _ hP := none_e' hP
  unary _ hP := none_e' hP
  binRest _ _ _ _ _ hP := none_e' hP
  binInner _ _ _ _ _ hP := none_e' hP
  newE _ _ hP := none_e' hP
  newRest _ _ _ _ hP := none_e' hP
  callRest _ _ _ _ _ hP := none_e' hP
  memRest _ _ _ _ _ hP := none_e' hP
  args _ _ _ hP := none_e' hP
  tplRest _ hP := none_e' hP
  arrRest _ hP := none_e' hP
  objRest _ hP := none_e' hP
  params _ hP := none_e' hP
  pat _ hP := none_e' hP
  patElem _ hP := none_e' hP
  patArr _ hP := none_e' hP
  patObj _ hP := none_e' hP
  decs _ _ hP := none_e' hP
  stmt _ hP := none_e' hP
  stmts _ _ hP := none_e' hP
  cases _ _ hP := none_e' hP
  caseBody _ hP := none_e' hP
  lhs _ hP := none_e' hP
  members _ hP := none_e' hP
  impSpecs _ hP := none_e' hP
  expSpecs _ hP := none_e' hP
  seqHead _ _ hP := none_e' hP
  memHead _ _ _ _ _ _ hP := none_e' hP
  callPar _ _ _ _ _ _ hP := none_e' hP
  binHead _ _ _ _ _ _ _ _ hP := none_e' hP

end

/-- With so much of a supply, it does not matter what is called when nothing is left. -/
theorem rec_e (P : Prop) (o : Chk) (r0 : Rec) : ∀ n, Both P n (rec_ o n) (recFrom o r0 n)
  | 0 => none_e r0
  | n + 1 => build_e (rec_e P o r0 n)

end Mole.Parser.Prog
