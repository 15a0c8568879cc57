import Verif.Parser.ProgPlaceE

/-! # Scopes are left as they were found, and what is returned is in its place: statements (for C77) -/

namespace Mole.Parser.Prog

attribute [local irreducible] peek nl left scope next must chk req fail enter enterFn enterCls pushRet leave scopeRef setKind pushLoop popLoop
  lastLoop opening semi ident target patRest pat patElem patArr param params body blockS methodTail propKey propName patProp patObj
  arrowFn star fnName bodyOrExpr fnKw asyncArgs asyncTail asyncExpr tplRest tpl spread arg args parenE arrRest propData objProp
  objRest primary dot subscript callRest optional memRest newRest memObj newE lhs1 lhs update unary binInner binRest cond yieldE
  assignTail assign seqRest seqTail expr initE decs varDec varDecS exprS head sub ifS whileS doS withS forInit forLeft forRight
  forInTail optE forTail forAwait forS retArg retS throwS jumpLabel brkS contS labelS caseBody cases switchS catchParam catchS
  finallyS tryS asyncStmt otherS stmt stmts classKey memberTail fieldValue fieldTail namedMember memberRest member members className
  heritage classE condTail importMeta importE identKw srcE impSpec optComma impSpecs impGroup impFirst impMore impClause optFrom importS
  expSpec expSpecs nsName exportAll fromOpt exportNamed defaultS exportRest exportS

section
variable {o : Chk} {r : Rec} {A : Env}

theorem initE_pl (hr : RecPl r) : Tr A (initE r) A (EP A) := by
  unfold initE
  tgo

macro_rules | `(tactic| tk) => `(tactic| exact initE_pl ‹_›)

theorem decs_pl (hr : RecPl r) (b : Bool) : Tr A (decs r b) A (LP A) := by
  unfold decs
  tgo

theorem varDec_pl (hr : RecPl r) {k : K} : Tr A (varDec o r k) A (EP A) := by
  unfold varDec
  tgo

macro_rules | `(tactic| tk) => `(tactic| exact varDec_pl ‹_›)

theorem varDecS_pl (hr : RecPl r) {k : K} : Tr A (varDecS o r k) A (EP A) := by
  unfold varDecS
  tgo

theorem exprS_pl (hr : RecPl r) : Tr A (exprS r) A (EP A) := by
  unfold exprS
  tgo

theorem head_pl (hr : RecPl r) : Tr A (head r) A (EP A) := by
  unfold head
  tgo

macro_rules | `(tactic| tk) => `(tactic| exact head_pl ‹_›)

theorem sub_pl (hr : RecPl r) (hI : A.Inv) {d : Nat} : Tr A (sub r d) A (EP A) := by
  unfold sub
  apply tr_bind tr_interim
  intro _ _
  apply tr_bind (hr.stmt A hI)
  intro _ _
  tgo

theorem inv_push {f : Ctx → Ctx} (h : A.Inv) (hf : (f (sub1 A.c)).fn = A.c.fn ∧ (f (sub1 A.c)).rets = A.c.rets) : (A.push.enter f).Inv :=
  ⟨fun _ => Nat.succ_pos _, fun h' => by
    show (f (sub1 A.c)).rets = true ∨ A.nr = true
    rw [hf.2]
    exact h.2 (hf.1 ▸ h')⟩
theorem inv_push' {f : Ctx → Ctx} {b : Bool} (h : A.Inv) (hf : (f (sub1 A.c)).fn = A.c.fn ∧ (f (sub1 A.c)).rets = A.c.rets) :
    ((A.enter f).notIn b).push.Inv :=
  ⟨fun _ => Nat.succ_pos _, fun h' => by
    show (f (sub1 A.c)).rets = true ∨ A.nr = true
    rw [hf.2]
    exact h.2 (hf.1 ▸ h')⟩

macro_rules | `(tactic| tk) => `(tactic| first
  | exact sub_pl ‹_› (inv_push ‹_› ⟨rfl, rfl⟩) | exact sub_pl ‹_› (inv_push' ‹_› ⟨rfl, rfl⟩) | exact sub_pl ‹_› ‹_› | exact RecPl.stmt ‹_› _ ‹_›
  | exact RecPl.stmts ‹_› _ _ ‹_› | exact RecPl.cases ‹_› _ _ ‹_› | exact RecPl.caseBody ‹_› _ ‹_›)

theorem ifS_pl (hr : RecPl r) (hI : A.Inv) : Tr A (ifS r) A (EP A) := by
  unfold ifS
  tgo

theorem pl_loop (A : Env) : pl (A.push.enter (fun c => { c with loop := true })) = (pl A).inLoop := rfl
theorem pl_loopN (A : Env) : pl (A.enter (fun c => { c with loop := true, notIn := true })) = (pl A).inLoop := rfl

theorem whileS_pl (hr : RecPl r) (hI : A.Inv) : Tr A (whileS r) A (EP A) := by
  unfold whileS
  tgo
  refine tr_pure ?_
  simp_all [EP, placed, pl_push, pl_loop]

theorem doS_pl (hr : RecPl r) (hI : A.Inv) : Tr A (doS r) A (EP A) := by
  unfold doS
  tgo
  refine tr_pure ?_
  simp_all [EP, placed, pl_push, pl_loop]

theorem withS_pl (hr : RecPl r) (hI : A.Inv) : Tr A (withS o r) A (EP A) := by
  unfold withS
  tgo

theorem forInit_pl (hr : RecPl r) : Tr A (forInit o r) A (EP A) := by
  unfold forInit
  refine tr_left (fun ts => tr_at ?_)
  split <;> tgo

macro_rules | `(tactic| tk) => `(tactic| exact forInit_pl ‹_›)

theorem forLeft_pl {e : Node} (he : EP A e) : Tr A (forLeft o e) A (EP A) := by
  unfold forLeft
  split <;> tgo

macro_rules | `(tactic| tk) => `(tactic| (refine forLeft_pl ?_; ps))

theorem forRight_pl (hr : RecPl r) {b : Bool} : Tr A (forRight r b) A (EP A) := by
  unfold forRight
  tgo

macro_rules | `(tactic| tk) => `(tactic| exact forRight_pl ‹_›)

/-- The scope of a loop with a head. -/
abbrev Env.inFor (A : Env) : Env := (A.enter (fun c => { c with loop := true, notIn := true })).notIn false

theorem pl_for (A : Env) : pl A.inFor = (pl A).inLoop := rfl

theorem forInTail_pl (hr : RecPl r) (hI : A.Inv) {d : Nat} {a b : Bool} {e : Node} (he : EP A.inFor e) : Tr A.inFor (forInTail o r d a b e) A (EP A) := by
  unfold forInTail
  tgo
  apply tr_bind (tr_leave (A := A.push))
  intro _ _
  apply tr_bind tr_popLoop
  intro _ _
  refine tr_pure ?_
  simp_all [EP, placed, pl_push, pl_for]

theorem optE_pl (hr : RecPl r) {k : K} : Tr A (optE r k) A (EP A) := by
  unfold optE
  tgo

macro_rules | `(tactic| tk) => `(tactic| exact optE_pl ‹_›)

theorem forTail_pl (hr : RecPl r) (hI : A.Inv) {d : Nat} {e : Node} (he : EP A.inFor e) : Tr A.inFor (forTail r d e) A (EP A) := by
  unfold forTail
  tgo
  apply tr_bind (tr_leave (A := A.push))
  intro _ _
  apply tr_bind tr_popLoop
  intro _ _
  refine tr_pure ?_
  simp_all [EP, placed, pl_push, pl_for]

theorem forAwait_pl : Tr A forAwait A (fun _ => True) := by
  unfold forAwait
  tgo

macro_rules | `(tactic| tk) => `(tactic| exact forAwait_pl)
macro_rules | `(tactic| tk) => `(tactic| first | (refine forInTail_pl ‹_› ‹_› ?_; ps) | (refine forTail_pl ‹_› ‹_› ?_; ps))

theorem forS_pl (hr : RecPl r) (hI : A.Inv) : Tr A (forS o r) A (EP A) := by
  unfold forS
  tgo

theorem retArg_pl (hr : RecPl r) : Tr A (retArg r) A (EP A) := by
  unfold retArg
  tgo

/-- The tokens account for a return statement where `retsStk` is empty. -/
theorem retS_post (hr : RecPl r) {N : Prop} {s : S} {nr : Bool} (hA : s.env nr = A) (hN : NoOdd s.ts) (h : Lone nr s.ts → N) (hn : N) :
    Post N (retS r s) (fun a s' => s'.env nr = A ∧ s'.ts <:+ s.ts ∧ EP A a) := by
  unfold retS
  refine post_bind (post_imp (post_lone (post_tr tr_next hA hN (List.suffix_refl _)) h) ?_)
  rintro _ s1 ⟨e1, f1, _⟩
  refine post_bind (post_imp (post_lone (post_tr (retArg_pl hr) e1 (suffix_noOdd f1 hN) f1) h) ?_)
  rintro a s2 ⟨e2, f2, p2⟩
  have f2' := f2.trans f1
  refine post_bind (post_imp (post_lone (post_tr tr_scope e2 (suffix_noOdd f2' hN) f2') h) ?_)
  rintro c s3 ⟨e3, f3, hc⟩
  have f3' := f3.trans f2'
  refine post_bind (post_imp (post_lone (post_tr tr_req e3 (suffix_noOdd f3' hN) f3') h) ?_)
  rintro _ s4 ⟨e4, f4, hf⟩
  have f4' := f4.trans f3'
  have hfn : (pl A).fn = true := by show A.c.fn = true; rw [← hc]; exact hf
  refine post_bind (Q := fun a s' => s'.env nr = A ∧ s'.ts <:+ s.ts ∧ EP A a) ?_
  have hp : EP A (.ret a) := by ps
  unfold pushRet
  by_cases hrs : s4.cur.rets = true
  · simp only [hrs, if_true]
    exact ⟨e4, f4', hp⟩
  · simp only [hrs, if_false]
    exact hn

theorem retS_pl (hr : RecPl r) (hI : A.Inv) {ts : List Tok} (hts : hd ts = .kw .return_) : TrAt ts A (retS r) A (EP A) := by
  by_cases hn : A.nr = true
  · intro s nr hs hA hN
    subst hs
    obtain ⟨t, h0, ht⟩ := hd_cons hts nofun
    have hnr : nr = true := by rw [← hn, ← hA]; rfl
    have : Lone nr s.ts := Or.inr ⟨hnr, t, by rw [h0]; exact List.mem_cons_self, ht⟩
    exact retS_post hr hA hN id this
  · refine tr_at ?_
    unfold retS
    apply tr_bind tr_next
    intro _ _
    apply tr_bind (retArg_pl hr)
    intro _ _
    apply tr_bind tr_scope
    intro c hc
    apply tr_bind tr_req
    intro _ hf
    have hf' : A.c.fn = true := by rw [← hc]; exact hf
    have : (pl A).fn = true := hf'
    apply tr_bind (tr_pushRet ((hI.2 hf').resolve_right hn))
    intro _ _
    tgo

theorem throwS_pl (hr : RecPl r) : Tr A (throwS r) A (EP A) := by
  unfold throwS
  tgo

theorem jumpLabel_pl : Tr A (jumpLabel o) A (fun n => n = .nil ∨ isName n = true) := by
  unfold jumpLabel
  apply tr_bind tr_peek
  intro _ _
  apply tr_bind tr_nl
  intro _ _
  refine tr_ite (fun _ => ?_) (fun _ => ?_)
  · apply tr_bind ident_tr
    intro l hl
    apply tr_bind tr_semi
    intro _ _
    exact tr_pure (Or.inr hl)
  · apply tr_bind tr_semi
    intro _ _
    exact tr_pure (Or.inl rfl)

theorem name_jump {n : Node} (h : isName n = true) (p : Place) : placed p (.brk n) = true ∧ placed p (.cont n) = true := by
  unfold isName at h
  split at h <;> first | exact ⟨rfl, rfl⟩ | cases h

theorem brkS_pl : Tr A (brkS o) A (EP A) := by
  unfold brkS
  apply tr_bind tr_next
  intro _ _
  apply tr_bind jumpLabel_pl
  intro l hl
  apply tr_bind tr_scope
  intro c hc
  apply tr_bind tr_chk
  intro _ _
  apply tr_bind tr_req
  intro _ hq
  refine tr_pure ?_
  rcases hl with rfl | hl
  · have : (c.loop || c.sw) = true := by simpa [isNil] using hq
    show (A.c.loop || A.c.sw) = true
    rw [← hc]
    exact this
  · exact (name_jump hl _).1

theorem contS_pl (hI : A.Inv) : Tr A (contS o) A (EP A) := by
  unfold contS
  apply tr_bind tr_next
  intro _ _
  apply tr_bind jumpLabel_pl
  intro l hl
  apply tr_bind tr_scope
  intro c hc
  apply tr_bind tr_chk
  intro _ _
  refine tr_ite (fun hn => ?_) (fun hn => ?_)
  · apply tr_bind tr_req
    intro _ hq
    have : A.c.loop = true := by rw [← hc]; exact hq
    apply tr_bind (tr_lastLoop (hI.1 this))
    intro _ _
    refine tr_pure ?_
    rcases hl with rfl | hl
    · exact this
    · exact (name_jump hl _).2
  · refine tr_pure ?_
    rcases hl with rfl | hl
    · exact absurd rfl hn
    · exact (name_jump hl _).2

theorem labelS_pl (hr : RecPl r) (hI : A.Inv) : Tr A (labelS o r) A (EP A) := by
  unfold labelS
  tgo

theorem caseBody_pl (hr : RecPl r) (hI : A.Inv) : Tr A (caseBody r) A (LP A) := by
  unfold caseBody
  tgo

theorem cases_pl (hr : RecPl r) (hI : A.Inv) (b : Bool) : Tr A (cases r b) A (LP A) := by
  unfold cases
  tgo

theorem pl_sw (A : Env) : pl (A.enter (fun c => { c with sw := true })) = { (pl A).inner with sw := true } := rfl
theorem pl_try (A : Env) : pl (A.enter (fun c => { c with try_ := true })) = { (pl A).inner with try_ := true } := rfl

theorem inv_enter {f : Ctx → Ctx} (h : A.Inv) (h1 : (f (sub1 A.c)).loop = A.c.loop)
    (h2 : (f (sub1 A.c)).fn = A.c.fn ∧ (f (sub1 A.c)).rets = A.c.rets) : (A.enter f).Inv :=
  ⟨fun h' => h.1 (h1 ▸ h'), fun h' => by
    show (f (sub1 A.c)).rets = true ∨ A.nr = true
    rw [h2.2]
    exact h.2 (h2.1 ▸ h')⟩

theorem switchS_pl (hr : RecPl r) (hI : A.Inv) : Tr A (switchS r) A (EP A) := by
  unfold switchS
  apply tr_bind tr_next
  intro _ _
  apply tr_bind (head_pl hr)
  intro _ _
  apply tr_bind tr_must
  intro _ _
  apply tr_bind (tr_enter (fun _ => rfl))
  intro _ _
  apply tr_bind (hr.cases _ _ (inv_enter hI rfl ⟨rfl, rfl⟩))
  intro _ _
  apply tr_bind tr_leave
  intro _ _
  refine tr_pure ?_
  simp_all [EP, LP, placed, pl_sw]

theorem catchParam_pl (hr : RecPl r) : Tr A (catchParam r) A (EP A) := by
  unfold catchParam
  tgo

theorem catchS_pl (hr : RecPl r) (hI : A.Inv) : Tr A (catchS o r) A (EP A) := by
  unfold catchS
  apply tr_bind tr_must
  intro _ _
  apply tr_bind (catchParam_pl hr)
  intro _ _
  apply tr_bind tr_chk
  intro _ _
  apply tr_bind (tr_enter (fun _ => rfl))
  intro _ _
  apply tr_bind (body_pl hr (inv_enter hI rfl ⟨rfl, rfl⟩) rfl rfl)
  intro _ _
  tgo

theorem blockS_pl (hr : RecPl r) {f : Ctx → Ctx} (hf : ∀ c, core (f (sub1 c)) = f (sub1 (core c))) (hI : (A.enter f).Inv) :
    Tr A (blockS r f) A (fun n => ∃ l, n = .block l ∧ LP (A.enter f) l) := by
  unfold blockS
  apply tr_bind tr_must
  intro _ _
  apply tr_bind (tr_enter hf)
  intro _ _
  apply tr_bind (hr.stmts _ _ hI)
  intro l hl
  apply tr_bind tr_leave
  intro _ _
  exact tr_pure ⟨l, rfl, hl⟩

theorem block_pl (hr : RecPl r) (hI : A.Inv) : Tr A (blockS r id) A (EP A) := by
  refine tr_imp (blockS_pl hr (fun _ => rfl) (inv_enter hI rfl ⟨rfl, rfl⟩)) ?_
  rintro _ ⟨l, rfl, h⟩
  simp_all [EP, LP, placed, pl_id]

theorem finallyS_pl (hr : RecPl r) (hI : A.Inv) : Tr A (finallyS r) A (EP A) := by
  unfold finallyS
  apply tr_bind tr_must
  intro _ _
  exact block_pl hr hI

theorem tryS_pl (hr : RecPl r) (hI : A.Inv) : Tr A (tryS o r) A (EP A) := by
  unfold tryS
  apply tr_bind tr_next
  intro _ _
  apply tr_bind (blockS_pl hr (fun _ => rfl) (inv_enter hI rfl ⟨rfl, rfl⟩))
  rintro _ ⟨l, rfl, h⟩
  have hl : placedL { (pl A).inner with try_ := true } l = true := h
  apply tr_bind tr_peek
  intro _ _
  refine tr_ite (fun _ => ?_) (fun _ => ?_)
  · apply tr_bind (catchS_pl hr hI)
    intro _ _
    apply tr_bind tr_peek
    intro _ _
    refine tr_ite (fun _ => ?_) (fun _ => ?_)
    · apply tr_bind (finallyS_pl hr hI)
      intro _ _
      tgo
    · tgo
  · apply tr_bind (finallyS_pl hr hI)
    intro _ _
    tgo

theorem asyncStmt_pl (hr : RecPl r) {an : Bool} {ts : List Tok} (hts : hd ts = .name "async") : TrAt ts A (asyncStmt o r an) A (EP A) := by
  unfold asyncStmt
  refine async_pl hr hts (by tk) ?_
  intro a ha
  cases a with
  | arrow n =>
    have : EP A n := ha
    dsimp only
    tgo
  | call n =>
    have : EP A n := ha
    dsimp only
    tgo
  | fn n => exact tr_pure ha

/-! ## Modules -/

theorem identKw_pl : Tr A (identKw o) A (EP A) := by
  unfold identKw
  tgo

macro_rules | `(tactic| tk) => `(tactic| exact identKw_pl)

theorem srcE_pl : Tr A srcE A (EP A) := by
  unfold srcE
  tgo

macro_rules | `(tactic| tk) => `(tactic| exact srcE_pl)

theorem impSpec_pl : Tr A (impSpec o) A (EP A) := by
  unfold impSpec
  tgo

macro_rules | `(tactic| tk) => `(tactic| exact impSpec_pl)

theorem optComma_pl : Tr A optComma A (fun _ => True) := by
  unfold optComma
  tgo

macro_rules | `(tactic| tk) => `(tactic| exact optComma_pl)

theorem impSpecs_pl (hr : RecPl r) : Tr A (impSpecs o r) A (LP A) := by
  unfold impSpecs
  tgo

theorem impGroup_pl (hr : RecPl r) : Tr A (impGroup o r) A (LP A) := by
  unfold impGroup
  tgo

macro_rules | `(tactic| tk) => `(tactic| exact impGroup_pl ‹_›)

theorem impFirst_pl (hr : RecPl r) : Tr A (impFirst o r) A (LP A) := by
  unfold impFirst
  tgo

macro_rules | `(tactic| tk) => `(tactic| exact impFirst_pl ‹_›)

theorem impMore_pl (hr : RecPl r) : Tr A (impMore o r) A (LP A) := by
  unfold impMore
  tgo

macro_rules | `(tactic| tk) => `(tactic| exact impMore_pl ‹_›)

theorem placedL_append {p : Place} {l m : List Node} (hl : placedL p l = true) (hm : placedL p m = true) : placedL p (l ++ m) = true := by
  induction l with
  | nil => exact hm
  | cons a l ih => simp_all [placedL]

theorem impClause_pl (hr : RecPl r) : Tr A (impClause o r) A (LP A) := by
  unfold impClause
  tgo
  exact tr_pure (placedL_append ‹_› ‹_›)

macro_rules | `(tactic| tk) => `(tactic| exact impClause_pl ‹_›)

theorem optFrom_pl : Tr A optFrom A (fun _ => True) := by
  unfold optFrom
  tgo

macro_rules | `(tactic| tk) => `(tactic| exact optFrom_pl)

theorem importS_pl (hr : RecPl r) : Tr A (importS o r) A (EP A) := by
  unfold importS
  tgo

macro_rules | `(tactic| tk) => `(tactic| exact importS_pl ‹_›)

theorem expSpec_pl : Tr A (expSpec o) A (EP A) := by
  unfold expSpec
  tgo

macro_rules | `(tactic| tk) => `(tactic| exact expSpec_pl)

theorem expSpecs_pl (hr : RecPl r) : Tr A (expSpecs o r) A (LP A) := by
  unfold expSpecs
  tgo

theorem nsName_pl : Tr A (nsName o) A (EP A) := by
  unfold nsName
  tgo

macro_rules | `(tactic| tk) => `(tactic| exact nsName_pl)

/-- What is exported is in its place, if this is the outermost scope. -/
abbrev XP (A : Env) (n : Node) : Prop := A.u = [] → EP A n

theorem exportAll_pl : Tr A (exportAll o) A (XP A) := by
  unfold exportAll
  tgo
  exact tr_pure (fun h => by have : (pl A).top = true := by simp [pl, h]
                             ps)

theorem fromOpt_pl {l : List Node} : Tr A (fromOpt l) A (EP A) := by
  unfold fromOpt
  tgo

macro_rules | `(tactic| tk) => `(tactic| exact fromOpt_pl)

theorem exportNamed_pl (hr : RecPl r) : Tr A (exportNamed r) A (XP A) := by
  unfold exportNamed
  tgo
  exact tr_pure (fun h => by have : (pl A).top = true := by simp [pl, h]
                             ps)

theorem defaultS_pl (hr : RecPl r) : Tr A (defaultS o r) A (EP A) := by
  unfold defaultS
  apply tr_bind tr_peek
  intro k _
  apply tr_bind tr_scope
  intro c _
  refine tr_left (fun ts => ?_)
  refine trAt_ite (fun _ => tr_at ?_) (fun _ => ?_)
  · tgo
  refine trAt_ite (fun h => asyncStmt_pl hr (isAsync_hd h)) (fun _ => tr_at ?_)
  tgo

theorem export_pl {n : Node} (hn : EP A n) : XP A (.exportDec n) ∧ XP A (.exportDefault n) := by
  constructor <;>
  · intro h
    have : (pl A).top = true := by simp [pl, h]
    ps

theorem exportRest_pl (hr : RecPl r) : Tr A (exportRest o r) A (XP A) := by
  unfold exportRest
  apply tr_bind tr_peek
  intro k _
  apply tr_bind tr_scope
  intro c _
  refine tr_left (fun ts => ?_)
  refine trAt_ite (fun _ => tr_at exportAll_pl) (fun _ => ?_)
  refine trAt_ite (fun _ => tr_at (exportNamed_pl hr)) (fun _ => ?_)
  split
  · exact trAt_bind (tr_at (varDecS_pl hr)) (fun _ h => tr_pure (export_pl h).1)
  · refine trAt_ite (fun _ => trAt_bind (tr_at (fnKw_pl hr)) (fun _ h => tr_pure (export_pl h).1)) (fun _ => ?_)
    refine trAt_ite (fun h => trAt_bind (asyncStmt_pl hr (isAsync_hd h)) (fun _ h => tr_pure (export_pl h).1)) (fun _ => ?_)
    refine trAt_ite (fun _ => trAt_bind (tr_at (classE_pl hr)) (fun _ h => tr_pure (export_pl h).1)) (fun _ => ?_)
    exact tr_at (tr_bind tr_must (fun _ _ => tr_bind (defaultS_pl hr) (fun _ h => tr_pure (export_pl h).2)))

theorem exportS_pl (hr : RecPl r) : Tr A (exportS o r) A (EP A) := by
  unfold exportS
  apply tr_bind tr_next
  intro _ _
  apply tr_bind (exportRest_pl hr)
  intro n hn
  apply tr_bind tr_scopeRef
  intro d hd
  apply tr_bind tr_req
  intro _ h0
  apply tr_bind tr_chk
  intro _ _
  refine tr_pure (hn ?_)
  have h0 : d = 0 := by simpa using h0
  exact List.length_eq_zero_iff.mp (hd ▸ h0)

macro_rules | `(tactic| tk) => `(tactic| exact exportS_pl ‹_›)

theorem otherS_pl (hr : RecPl r) (hI : A.Inv) : Tr A (otherS o r) A (EP A) := by
  unfold otherS
  refine tr_left (fun ts => ?_)
  intro s nr hs hA hN
  change Post (Lone nr s.ts) _ _
  refine post_bind (post_imp (post_wp (post_tr tr_scope hA hN (List.suffix_refl _)) (wp_scope (Q := fun _ s' => s' = s) (fun _ => rfl))) ?_)
  rintro c s1 ⟨_, h1⟩
  subst h1
  cases isVarDec o ts with
  | some kind =>
    refine post_tr (A := A) ?_ hA hN (List.suffix_refl _)
    apply tr_bind tr_req
    intro _ _
    exact varDecS_pl hr
  | none =>
    dsimp only
    split
    · rename_i h
      exact asyncStmt_pl hr (isAsync_hd h) s1 nr hs hA hN
    · split
      · exact post_tr (labelS_pl hr hI) hA hN (List.suffix_refl _)
      · exact post_tr (exprS_pl hr) hA hN (List.suffix_refl _)

theorem stmt_pl (hr : RecPl r) (hI : A.Inv) : Tr A (stmt o r) A (EP A) := by
  unfold stmt
  apply tr_bind tr_scope
  intro c _
  refine tr_peekAt (fun ts => ?_)
  generalize hk : hd ts = k
  split
  · exact tr_at (varDecS_pl hr)
  · exact tr_at (by tgo)
  · exact tr_at (ifS_pl hr hI)
  · exact tr_at (forS_pl hr hI)
  · exact retS_pl hr hI hk
  · exact tr_at (whileS_pl hr hI)
  · exact tr_at (brkS_pl)
  · exact tr_at (contS_pl hI)
  · exact tr_at (throwS_pl hr)
  · exact tr_at (tryS_pl hr hI)
  · exact tr_at (doS_pl hr hI)
  · exact tr_at (switchS_pl hr hI)
  · exact tr_at (by tgo)
  · exact tr_at (withS_pl hr hI)
  · exact tr_at (exprS_pl hr)
  · exact tr_at (exprS_pl hr)
  · exact tr_at (exprS_pl hr)
  · exact tr_at (by tgo)
  · refine tr_at (tr_left (fun _ => tr_at (tr_ite (fun _ => exprS_pl hr) (fun _ => ?_))))
    tgo
  · exact tr_at (by tgo)
  · exact tr_at (tr_fail)
  · exact tr_at (block_pl hr hI)
  · exact tr_at (by tgo)
  · exact tr_at (tr_fail)
  · exact tr_at (otherS_pl hr hI)

theorem stmts_pl (hr : RecPl r) (hI : A.Inv) (b : Bool) : Tr A (stmts o r b) A (LP A) := by
  unfold stmts
  tgo

theorem build_pl (hr : RecPl r) : RecPl (build o r) where
  acc := build_ok hr.acc
  expr _ := expr_pl hr
  seqRest _ := seqRest_pl hr
  assign _ := assign_pl hr
  unary _ := unary_pl hr
  binRest _ _ p a b he := binRest_pl hr p a b he
  binInner _ _ p a b he := binInner_pl hr p a b he
  newE _ := newE_pl hr
  newRest _ _ a b he := newRest_pl hr a b he
  callRest _ _ a b c he := callRest_pl hr a b c he
  memRest _ _ a b c he := memRest_pl hr a b c he
  args _ a b := args_pl hr a b
  tplRest _ := tplRest_pl hr
  arrRest _ := arrRest_pl hr
  objRest _ := objRest_pl hr
  params _ := params_pl hr
  pat _ := pat_pl hr
  patElem _ := patElem_pl hr
  patArr _ := patArr_pl hr
  patObj _ := patObj_pl hr
  decs _ b := decs_pl hr b
  stmt _ hI := stmt_pl hr hI
  stmts _ b hI := stmts_pl hr hI b
  cases _ b hI := cases_pl hr hI b
  caseBody _ hI := caseBody_pl hr hI
  lhs _ := lhs_pl hr
  members _ := members_pl hr
  impSpecs _ := impSpecs_pl hr
  expSpecs _ := expSpecs_pl hr

end

theorem none_pl : RecPl Rec.none where
  acc := none_ok
  expr _ := tr_fail
  seqRest _ := tr_fail
  assign _ := tr_fail
  unary _ := tr_fail
  binRest _ _ _ _ _ _ := tr_fail
  binInner _ _ _ _ _ _ := tr_fail
  newE _ := tr_fail
  newRest _ _ _ _ _ := tr_fail
  callRest _ _ _ _ _ _ := tr_fail
  memRest _ _ _ _ _ _ := tr_fail
  args _ _ _ := tr_fail
  tplRest _ := tr_fail
  arrRest _ := tr_fail
  objRest _ := tr_fail
  params _ := tr_fail
  pat _ := tr_fail
  patElem _ := tr_fail
  patArr _ := tr_fail
  patObj _ := tr_fail
  decs _ _ := tr_fail
  stmt _ _ := tr_fail
  stmts _ _ _ := tr_fail
  cases _ _ _ := tr_fail
  caseBody _ _ := tr_fail
  lhs _ := tr_fail
  members _ := tr_fail
  impSpecs _ := tr_fail
  expSpecs _ := tr_fail

theorem rec_pl (o : Chk) : ∀ n, RecPl (rec_ o n)
  | 0 => none_pl
  | n + 1 => build_pl (rec_pl o n)

/-- A program as a whole. -/
theorem prog_pl (o : Chk) (n : Nat) (ts : List Tok) (hN : NoOdd ts) :
    Post (ReturnAfterStatic ts) (prog o n ts) (fun t s' => s'.env false = (start ts).env false ∧ ∃ l, t = .prog l ∧ placedL { top := true } l = true) := by
  refine post_imp (post_lone (post_tr (A := (start ts).env false) (tr_bind ((rec_pl o n).stmts _ _ ⟨fun h => (by cases h), fun h => (by cases h)⟩)
    (fun l hl => tr_pure (P := fun t : Node => ∃ l, t = .prog l ∧ placedL { top := true } l = true) ⟨l, rfl, hl⟩)) rfl hN
    (List.suffix_refl _)) ?_) ?_
  · rintro (h | ⟨h, _⟩)
    · exact h
    · cases h
  · exact fun _ _ h => ⟨h.1, h.2.2⟩

end Mole.Parser.Prog
