import Verif.Parser.ProgTr

/-! # Scopes are left as they were found, and what is returned is in its place: expressions (for C77) -/

namespace Mole.Parser.Prog

attribute [local irreducible] peek nl left scope next must chk req fail enter enterFn enterCls pushRet leave scopeRef setKind pushLoop popLoop
  lastLoop opening semi ident target patRest pat patElem patArr param params body blockS methodTail propKey propName patProp patObj
  arrowFn star fnName bodyOrExpr fnKw asyncArgs asyncTail asyncExpr tplRest tpl spread arg args parenE arrRest propData objProp
  objRest primary dot subscript callRest optional memRest newRest memObj newE lhs1 lhs update unary binInner binRest cond yieldE
  assignTail assign seqRest seqTail expr initE decs varDec varDecS exprS head sub ifS whileS doS withS forInit forLeft forRight
  forInTail optE forTail forAwait forS retArg retS throwS jumpLabel brkS contS labelS caseBody cases switchS catchParam catchS
  finallyS tryS asyncStmt otherS stmt stmts classKey memberTail fieldValue fieldTail namedMember memberRest member members className
  heritage classE condTail importMeta importE identKw srcE impSpec optComma impSpecs impGroup impFirst impMore impClause optFrom importS
  expSpec expSpecs nsName exportAll fromOpt exportNamed defaultS exportRest exportS


/-- The place of a scope. -/
def pl (A : Env) : Place := ⟨A.c.gen, A.c.async, A.c.fn, A.c.loop, A.c.sw, A.c.try_, A.u.isEmpty⟩

theorem pl_id (A : Env) : pl (A.enter id) = (pl A).inner := rfl
theorem pl_fn (A : Env) (a g n : Bool) : pl (A.enterFn a g n) = .inFn g a := rfl
theorem pl_cls (A : Env) : pl A.enterCls = .inFn false false := rfl
theorem pl_push (A : Env) : pl A.push = pl A := rfl
theorem pl_notIn (A : Env) (b : Bool) : pl (A.notIn b) = pl A := rfl

/-- A loop around is on the stack, and so is a list for return statements, or else there is something to account for it. -/
def Env.Inv (A : Env) : Prop := (A.c.loop = true → 0 < A.n) ∧ (A.c.fn = true → A.c.rets = true ∨ A.nr = true)

/-- An expression in its place. -/
abbrev EP (A : Env) (e : Node) : Prop := placed (pl A) e = true
abbrev LP (A : Env) (l : List Node) : Prop := placedL (pl A) l = true

/-- The functions with less fuel do so. -/
structure RecPl (r : Rec) : Prop where
  acc : RecOk (fun _ => True) r
  expr : ∀ A, Tr A r.expr A (EP A)
  seqRest : ∀ A, Tr A r.seqRest A (LP A)
  assign : ∀ A, Tr A r.assign A (EP A)
  unary : ∀ A, Tr A r.unary A (EP A)
  binRest : ∀ A e p a b, EP A e → Tr A (r.binRest e p a b) A (EP A)
  binInner : ∀ A e p a b, EP A e → Tr A (r.binInner e p a b) A (EP A)
  newE : ∀ A, Tr A r.newE A (EP A)
  newRest : ∀ A e a b, EP A e → Tr A (r.newRest e a b) A (EP A)
  callRest : ∀ A e a d b, EP A e → Tr A (r.callRest e a d b) A (fun n => EP A n.1)
  memRest : ∀ A e a b c, EP A e → Tr A (r.memRest e a b c) A (fun n => EP A n.1)
  args : ∀ A a b, Tr A (r.args a b) A (fun n => LP A n.1)
  tplRest : ∀ A, Tr A r.tplRest A (LP A)
  arrRest : ∀ A, Tr A r.arrRest A (LP A)
  objRest : ∀ A, Tr A r.objRest A (LP A)
  params : ∀ A, Tr A r.params A (LP A)
  pat : ∀ A, Tr A r.pat A (EP A)
  patElem : ∀ A, Tr A r.patElem A (EP A)
  patArr : ∀ A, Tr A r.patArr A (LP A)
  patObj : ∀ A, Tr A r.patObj A (LP A)
  decs : ∀ A b, Tr A (r.decs b) A (LP A)
  stmt : ∀ A, A.Inv → Tr A r.stmt A (EP A)
  stmts : ∀ A b, A.Inv → Tr A (r.stmts b) A (LP A)
  cases : ∀ A b, A.Inv → Tr A (r.cases b) A (LP A)
  caseBody : ∀ A, A.Inv → Tr A r.caseBody A (LP A)
  lhs : ∀ A, Tr A r.lhs A (EP A)
  members : ∀ A : Env, Tr A.enterCls r.members A.enterCls (LP A.enterCls)
  impSpecs : ∀ A, Tr A r.impSpecs A (LP A)
  expSpecs : ∀ A, Tr A r.expSpecs A (LP A)

/-- What is known of a call. -/
syntax "tk" : tactic
/-- The same for calls with two results. -/
syntax "tkp" : tactic

macro "ps" : tactic => `(tactic| first | assumption | (simp_all [EP, LP, placed, placedL, pl_id, pl_fn, pl_cls, pl_push, pl_notIn]; done))

macro_rules | `(tactic| tk) => `(tactic| first
  | exact tr_peek | exact tr_nl | exact tr_scope | exact tr_scopeRef | exact tr_next | exact tr_must | exact tr_req | exact tr_chk
  | exact tr_opening | exact tr_semi | exact tr_enterFn | exact tr_enterCls | exact tr_enter (fun _ => rfl) | exact tr_leave | exact tr_pushLoop
  | exact tr_popLoop | exact tr_interim | exact tr_fail)
macro_rules | `(tactic| tk) => `(tactic| first
  | exact RecPl.expr ‹_› _ | exact RecPl.seqRest ‹_› _ | exact RecPl.assign ‹_› _ | exact RecPl.unary ‹_› _
  | (refine RecPl.binRest ‹_› _ _ _ _ _ ?_; ps) | (refine RecPl.binInner ‹_› _ _ _ _ _ ?_; ps) | exact RecPl.newE ‹_› _
  | (refine RecPl.newRest ‹_› _ _ _ _ ?_; ps) | exact RecPl.tplRest ‹_› _ | exact RecPl.arrRest ‹_› _ | exact RecPl.objRest ‹_› _
  | exact RecPl.params ‹_› _ | exact RecPl.pat ‹_› _ | exact RecPl.patElem ‹_› _ | exact RecPl.patArr ‹_› _
  | exact RecPl.patObj ‹_› _ | exact RecPl.decs ‹_› _ _ | exact RecPl.lhs ‹_› _ | exact RecPl.members ‹_› _
  | exact RecPl.impSpecs ‹_› _ | exact RecPl.expSpecs ‹_› _)
macro_rules | `(tactic| tkp) => `(tactic| first
  | (refine RecPl.callRest ‹_› _ _ _ _ _ ?_; ps) | (refine RecPl.memRest ‹_› _ _ _ _ _ ?_; ps) | exact RecPl.args ‹_› _ _ _)

/-- One step. -/
macro "t1" : tactic => `(tactic| first
  | exact tr_fail
  | (refine tr_pure ?_; ps)
  | tk
  | tkp
  | (refine tr_ite (fun _ => ?_) (fun _ => ?_))
  | (apply tr_bind; (focus tkp); rintro ⟨_, _⟩ _; dsimp only at *)
  | (apply tr_bind; (focus tk); intro _ _)
  | (refine tr_left (fun _ => tr_at ?_)))

/-- All steps. -/
macro "tgo" : tactic => `(tactic| repeat' t1)

section
variable {o : Chk} {r : Rec} {A : Env}

theorem ident_tr : Tr A (ident o) A (fun n => isName n = true) := by
  unfold ident
  apply tr_bind tr_peek
  intro k _
  split <;> repeat' first | exact tr_pure rfl | t1

theorem isName_placed {n : Node} (h : isName n = true) (p : Place) : placed p n = true := by
  unfold isName at h
  split at h <;> first | rfl | cases h

theorem ident_pl : Tr A (ident o) A (EP A) := tr_imp ident_tr (fun _ h => isName_placed h _)

macro_rules | `(tactic| tk) => `(tactic| exact ident_pl)

theorem patRest_pl (hr : RecPl r) (b : Bool) : Tr A (patRest r b) A (EP A) := by
  unfold patRest
  tgo

theorem pat_pl (hr : RecPl r) : Tr A (pat o r) A (EP A) := by
  unfold pat
  apply tr_bind tr_peek
  intro k _
  split
  · tgo
  · tgo
  · exact patRest_pl hr _
  · tgo

theorem patElem_pl (hr : RecPl r) : Tr A (patElem o r) A (EP A) := by
  unfold patElem
  tgo

theorem patArr_pl (hr : RecPl r) : Tr A (patArr r) A (LP A) := by
  unfold patArr
  tgo

theorem toTarget_pl (f : Node → Bool) :
    (∀ p n, ∀ q n', toTarget f p n = some n' → placed q n = true → placed q n' = true) ∧
    (∀ p l, ∀ q l', toTargets f p l = some l' → placedL q l = true → placedL q l' = true) := by
  apply toTarget.mutual_induct (o := f)
    (motive_1 := fun p n => ∀ q n', toTarget f p n = some n' → placed q n = true → placed q n' = true)
    (motive_2 := fun p l => ∀ q l', toTargets f p l = some l' → placedL q l = true → placedL q l' = true)
  all_goals intros
  all_goals try (simp_all [toTarget, toTargets, placed, placedL]; done)
  all_goals
    rename_i h hp
    simp [toTarget, toTargets, *] at h
  all_goals
    rename_i h hp
    try obtain ⟨l', h1, rfl⟩ := h
    try subst h
    first
    | (simp_all [placed, placedL]; done)
    | (simp_all [placed, placedL, isName_placed]; done)

theorem target_pl {n : Node} (hn : EP A n) : Tr A (target o n) A (EP A) := by
  intro ts s nr _ hA _
  unfold target
  cases h : toTarget (fun n => o 4928 n s.ts) false n with
  | none => trivial
  | some n' => exact ⟨hA, List.suffix_refl _, (toTarget_pl _).1 _ _ _ _ h hn⟩

macro_rules | `(tactic| tk) => `(tactic| (refine target_pl ?_; ps))
macro_rules | `(tactic| tk) => `(tactic| exact patRest_pl ‹_› _)

theorem param_pl (hr : RecPl r) : Tr A (param o r) A (EP A) := by
  unfold param
  tgo

macro_rules | `(tactic| tk) => `(tactic| exact param_pl ‹_›)

theorem params_pl (hr : RecPl r) : Tr A (params o r) A (LP A) := by
  unfold params
  tgo

/-! ## Functions -/

/-- In a function there is no loop yet. -/
theorem inv_fn {a g n : Bool} : (A.enterFn a g n).Inv := ⟨fun h => (by cases h), fun _ => .inl rfl⟩

theorem block_placed {p : Place} (h : p.try_ = false) (hu : p.top = false) (l : List Node) : placed p (.block l) = placedL p l := by
  cases p
  cases h
  cases hu
  simp [placed, Place.inner]

theorem body_pl (hr : RecPl r) (hI : A.Inv) (ht : A.c.try_ = false) (hu : A.u.isEmpty = false) : Tr A (body r) A (EP A) := by
  unfold body
  apply tr_bind tr_must
  intro _ _
  apply tr_bind (hr.stmts A true hI)
  intro l hl
  refine tr_pure ?_
  rw [EP, block_placed (p := pl A) ht hu]
  exact hl

macro_rules | `(tactic| tk) => `(tactic| exact body_pl ‹_› inv_fn rfl rfl)

theorem methodTail_pl (hr : RecPl r) {i : Nat} {a g c n : Bool} {k : Node} (hk : placed ((pl A).key i g a) k = true) :
    Tr (A.enterFn a g n) (methodTail o r i a g c k) A (EP A) := by
  unfold methodTail
  tgo

theorem propKey_pl (hr : RecPl r) : Tr A (propKey o r) A (fun n => EP A n.1) := by
  unfold propKey
  tgo

macro_rules | `(tactic| tkp) => `(tactic| exact propKey_pl ‹_›)
macro_rules | `(tactic| tk) => `(tactic| (refine methodTail_pl ‹_› ?_; ps))

/-- A key, or a method. -/
def PropP (A : Env) : Node × Bool ⊕ Node → Prop
  | .inl k => EP A k.1
  | .inr m => EP A m

theorem propName_pl (hr : RecPl r) : Tr A (propName o r) A (PropP A) := by
  unfold propName
  tgo
  apply tr_bind
  · refine methodTail_pl hr ?_
    split
    · assumption
    · assumption
  · intro m hm
    exact tr_pure hm

theorem patProp_pl (hr : RecPl r) : Tr A (patProp o r) A (EP A) := by
  unfold patProp
  tgo
  apply tr_bind (propName_pl hr)
  rintro (⟨k, c⟩ | m) hk
  · have : EP A k := hk
    dsimp only
    tgo
  · exact tr_fail

macro_rules | `(tactic| tk) => `(tactic| exact patProp_pl ‹_›)

theorem patObj_pl (hr : RecPl r) : Tr A (patObj o r) A (LP A) := by
  unfold patObj
  tgo

theorem inv_notIn {b : Bool} (h : A.Inv) : (A.notIn b).Inv := h

macro_rules | `(tactic| tk) => `(tactic| (refine tr_notIn ?_; assumption))

theorem arrowFn_pl (hr : RecPl r) {ps : List Node} (hp : placedL (pl A).inner ps = true) : Tr A (arrowFn o r ps) A (EP A) := by
  unfold arrowFn
  tgo

theorem star_pl : Tr A star A (fun _ => True) := by
  unfold star
  tgo

macro_rules | `(tactic| tk) => `(tactic| exact star_pl)

theorem fnName_pl : Tr A (fnName o) A (fun n => ∀ p, placed p n = true) := by
  unfold fnName
  tgo
  exact tr_imp ident_tr (fun _ h => isName_placed h)

macro_rules | `(tactic| tk) => `(tactic| exact fnName_pl)

theorem bodyOrExpr_pl (hr : RecPl r) (hI : A.Inv) (ht : A.c.try_ = false) (hu : A.u.isEmpty = false) : Tr A (bodyOrExpr r) A (EP A) := by
  unfold bodyOrExpr
  apply tr_bind tr_peek
  intro _ _
  exact tr_ite (fun _ => body_pl hr hI ht hu) (fun _ => hr.expr A)

macro_rules | `(tactic| tk) => `(tactic| exact bodyOrExpr_pl ‹_› inv_fn rfl rfl)

theorem fnKw_pl (hr : RecPl r) {e a n : Bool} : Tr A (fnKw o r e a n) A (EP A) := by
  unfold fnKw
  tgo

macro_rules | `(tactic| tk) => `(tactic| exact fnKw_pl ‹_›)

/-! ## `async` -/

/-- No panic but the one that is accounted for by `N`, and this holds if it ends without an error. -/
def Post (N : Prop) {α : Type} (x : Out α) (Q : α → S → Prop) : Prop :=
  match x with
  | .ok a s' => Q a s'
  | .err => True
  | .panic => False
  | .noRets => N

theorem post_bind {N : Prop} {α β : Type} {m : M α} {f : α → M β} {s : S} {Q : β → S → Prop} (h : Post N (m s) (fun a s1 => Post N (f a s1) Q)) :
    Post N ((m >>= f) s) Q := by
  change Post N (match m s with | .ok a s' => f a s' | .err => .err | .panic => .panic | .noRets => .noRets) Q
  cases hm : m s with
  | ok a s1 => rw [hm] at h; exact h
  | err => trivial
  | panic => rw [hm] at h; exact h
  | noRets => rw [hm] at h; exact h

theorem post_imp {N : Prop} {α : Type} {x : Out α} {Q Q' : α → S → Prop} (h : Post N x Q) (hQ : ∀ a s, Q a s → Q' a s) :
    Post N x Q' := by
  cases x with
  | ok a s => exact hQ a s h
  | err => trivial
  | panic => exact h
  | noRets => exact h

theorem post_lone {N N' : Prop} {α : Type} {x : Out α} {Q : α → S → Prop} (h : Post N x Q) (hN : N → N') : Post N' x Q := by
  cases x with
  | ok a s => exact h
  | err => trivial
  | panic => exact h
  | noRets => exact hN h

theorem post_tr {α : Type} {m : M α} {B : Env} {P : α → Prop} {s : S} {nr : Bool} {l : List Tok} (h : Tr A m B P) (hA : s.env nr = A)
    (hN : NoOdd s.ts) (hl : s.ts <:+ l) : Post (Lone nr l) (m s) (fun a s' => s'.env nr = B ∧ s'.ts <:+ s.ts ∧ P a) :=
  post_lone (N := Lone nr s.ts) (h s.ts s nr rfl hA hN) (suffix_lone hl)

theorem post_wp {N : Prop} {α : Type} {m : M α} {Q Q' : α → S → Prop} {s : S} (h : Post N (m s) Q) (hw : WP m Q' s) :
    Post N (m s) (fun a s' => Q a s' ∧ Q' a s') := by
  have hw' := hw
  unfold WP at hw'
  cases hm : m s with
  | ok a s1 => rw [hm] at h; exact ⟨h, hw' a s1 hm⟩
  | err => trivial
  | panic => rw [hm] at h; exact h
  | noRets => rw [hm] at h; exact h

/-- What `async` is found to be is in its place. -/
def AsyncP (A : Env) : AsyncRes → Prop
  | .arrow n | .fn n | .call n => EP A n

theorem asyncArgs_pl (hr : RecPl r) {id : Node} (hid : ∀ p, placed p id = true) : Tr A (asyncArgs r id) A (LP A) := by
  unfold asyncArgs
  tgo

theorem good_true (s : S) : Good (fun _ => True) s := fun _ _ => trivial

/-- The part of the tokens that is taken. -/
theorem taken {a b : List Tok} {x : List K} (h : b <:+ a) (hx : a.map Tok.k = x ++ b.map Tok.k) : ∃ y, a = y ++ b ∧ y.map Tok.k = x := by
  obtain ⟨y, rfl⟩ := h
  refine ⟨y, rfl, ?_⟩
  rw [List.map_append] at hx
  exact List.append_cancel_right hx

theorem asyncTail_pl (hr : RecPl r) {s0 s : S} {nr : Bool} {t : Tok} (h0 : s0.ts = t :: s.ts) (ht : t.k = .name "async") (hA : s.env nr = A)
    (hN : NoOdd s0.ts) : Post (Lone nr s0.ts) (asyncTail o r s) (fun a s' => s'.env nr = A ∧ s'.ts <:+ s.ts ∧ AsyncP A a) := by
  have fs0 : s.ts <:+ s0.ts := ⟨[t], by simp [h0]⟩
  have hN' : NoOdd s.ts := suffix_noOdd ⟨[t], by simp [h0]⟩ hN
  unfold asyncTail
  refine post_bind (post_imp (post_wp (post_tr star_pl hA hN' fs0) (star_ok s (good_true s))) ?_)
  rintro g s1 ⟨⟨e1, f1, _⟩, x1, t1, rfl⟩
  refine post_bind (post_imp (post_wp (post_tr fnName_pl e1 (suffix_noOdd f1 hN') (f1.trans fs0)) (fnName_ok s1 (good_true s1))) ?_)
  rintro id s2 ⟨⟨e2, f2, p2⟩, x2, t2, q2⟩
  have f2' := f2.trans f1
  refine post_bind (post_imp (post_wp (post_tr (tr_enterFn (a := true) (g := g) (n := false)) e2 (suffix_noOdd f2' hN') (f2'.trans fs0))
    (wp_enterFn (Q := fun _ s' => s2.T = s'.T) (good_true s2) (fun _ h _ _ => h))) ?_)
  rintro _ s3 ⟨⟨e3, f3, _⟩, t3⟩
  have f3' := f3.trans f2'
  refine post_bind (post_imp (post_wp (post_tr (asyncArgs_pl hr p2) e3 (suffix_noOdd f3' hN') (f3'.trans fs0))
    (asyncArgs_ok hr.acc (good_true s3))) ?_)
  rintro args s4 ⟨⟨e4, f4, p4⟩, q4⟩
  have f4' := f4.trans f3'
  have hN4 := suffix_noOdd f4' hN'
  -- the parameters, or what seems to be the arguments
  have hT : s0.ts.map Tok.k = .name "async" :: (opt g (.bin .mul) ++ x2) ++ s3.ts.map Tok.k := by
    have h1 : s.ts.map Tok.k = opt g (.bin .mul) ++ s1.ts.map Tok.k := t1
    have h2 : s1.ts.map Tok.k = x2 ++ s2.ts.map Tok.k := t2
    have h3 : s2.ts.map Tok.k = s3.ts.map Tok.k := t3
    rw [h0, List.map_cons, ht, h1, h2, h3]
    simp
  have hx2 : x2.length ≤ 1 := by
    rcases q2 with ⟨_, rfl⟩ | ⟨_, _, rfl, _⟩ <;> simp
  have hcall : ¬(hd s4.ts = .pu .arrow ∧ nlB s4.ts = false) → hd s4.ts = .pu .braceL := by
    intro hna
    apply Classical.byContradiction
    intro hnb
    rcases q4 with ⟨_, _, rfl, h1, h2⟩ | ⟨z, hz, hl⟩
    · exact hna ⟨h1, h2⟩
    · have hz' : s3.ts.map Tok.k = (.pu .parenL :: z ++ [.pu .parenR]) ++ s4.ts.map Tok.k := by
        have : s3.ts.map Tok.k = .pu .parenL :: z ++ .pu .parenR :: s4.ts.map Tok.k := hz
        simpa using this
      obtain ⟨y3, hy3, hy3'⟩ := taken (f3'.trans fs0) hT
      obtain ⟨y4, hy4, hy4'⟩ := taken f4 hz'
      obtain ⟨t', w, rfl, ht', hw⟩ := List.map_eq_cons_iff.mp hy3'
      obtain ⟨p, y5, rfl, hp, hy5⟩ := List.map_eq_cons_iff.mp hy4'
      obtain ⟨l, y6, rfl, hl', hy6⟩ := List.map_eq_append_iff.mp hy5
      obtain ⟨p', y7, rfl, hp', hy7⟩ := List.map_eq_cons_iff.mp hy6
      obtain rfl := List.map_eq_nil_iff.mp hy7
      refine hN.1 ⟨[], t', w, p, l, p', s4.ts, ?_, ht', ?_, hp, hp', ?_, hnb, hna⟩
      · rw [hy3, hy4]
        simp
      · have := congrArg List.length hw
        simp only [List.length_map, List.length_append] at this
        have h1 : (opt g (.bin .mul)).length ≤ 1 := by cases g <;> simp [opt]
        omega
      · rw [hl']
        exact list_balanced hl
  have hstar : hd s4.ts = .pu .arrow → g = false := by
    intro hk
    cases g with
    | false => rfl
    | true =>
      exfalso
      obtain ⟨q, b, hq, hqk⟩ : ∃ q b, s4.ts = q :: b ∧ q.k = .pu .arrow := by
        cases h : s4.ts with
        | nil => rw [h] at hk; cases hk
        | cons q b => rw [h] at hk; exact ⟨q, b, rfl, hk⟩
      obtain ⟨y3, hy3, hy3'⟩ := taken (f3'.trans fs0) hT
      obtain ⟨t', w0, rfl, ht', hw0⟩ := List.map_eq_cons_iff.mp hy3'
      obtain ⟨m, w, rfl, hm, hw⟩ := List.map_eq_cons_iff.mp hw0
      rcases q4 with ⟨hn, _, rfl, _, _⟩ | ⟨z, hz, hl⟩
      · refine hN.2 ⟨[], t', m, w, q, b, ?_, ht', hm, hqk, Or.inl ?_⟩
        · rw [hy3, hq]
          simp
        · have := congrArg List.length hw
          rcases q2 with ⟨rfl, _⟩ | ⟨_, _, rfl, _⟩
          · cases hn
          · simpa using this
      · have hz' : s3.ts.map Tok.k = (.pu .parenL :: z ++ [.pu .parenR]) ++ s4.ts.map Tok.k := by
          have : s3.ts.map Tok.k = .pu .parenL :: z ++ .pu .parenR :: s4.ts.map Tok.k := hz
          simpa using this
        obtain ⟨y4, hy4, hy4'⟩ := taken f4 hz'
        obtain ⟨p, y5, rfl, hp, hy5⟩ := List.map_eq_cons_iff.mp hy4'
        obtain ⟨l, y6, rfl, hl', hy6⟩ := List.map_eq_append_iff.mp hy5
        obtain ⟨p', y7, rfl, hp', hy7⟩ := List.map_eq_cons_iff.mp hy6
        obtain rfl := List.map_eq_nil_iff.mp hy7
        refine hN.2 ⟨[], t', m, w ++ p :: l ++ [p'], q, b, ?_, ht', hm, hqk, Or.inr ⟨w, p, l, p', rfl, ?_, hp, hp', ?_⟩⟩
        · rw [hy3, hy4, hq]
          simp
        · have := congrArg List.length hw
          have : w.length = x2.length := by simpa using this
          omega
        · rw [hl']
          exact list_balanced hl
  refine post_bind (post_imp (post_wp (post_tr tr_peek e4 hN4 (f4'.trans fs0)) (wp_peek (Q := fun k s' => k = hd s4.ts ∧ s' = s4) ⟨rfl, rfl⟩)) ?_)
  rintro k5 s5 ⟨_, hkk, hss⟩
  obtain rfl : s5 = s4 := hss
  obtain rfl : k5 = hd s5.ts := hkk
  refine post_bind (post_imp (post_wp (post_tr tr_nl e4 hN4 (f4'.trans fs0)) (wp_nl' (Q := fun b s' => b = nlB s5.ts ∧ s' = s5) ⟨rfl, rfl⟩)) ?_)
  rintro k6 s6 ⟨_, hkk, hss⟩
  obtain rfl : s6 = s5 := hss
  obtain rfl : k6 = nlB s6.ts := hkk
  have fin : ∀ {m : M AsyncRes}, Tr (A.enterFn true g false) m A (AsyncP A) →
      Post (Lone nr s0.ts) (m s6) (fun a s' => s'.env nr = A ∧ s'.ts <:+ s.ts ∧ AsyncP A a) := by
    intro m hm
    exact post_imp (post_tr hm e4 hN4 (f4'.trans fs0)) (fun _ _ h => ⟨h.1, h.2.1.trans f4', h.2.2⟩)
  split
  · rename_i hc
    have hg := hstar (by simp at hc; exact hc.1)
    subst hg
    apply fin
    have : LP (A.enterFn true false false) args := p4
    tgo
    exact tr_pure (by show EP A _; ps)
  · rename_i hc
    have hb := hcall (by simpa using hc)
    rw [if_pos hb]
    apply fin
    have : LP (A.enterFn true g false) args := p4
    tgo
    exact tr_pure (by show EP A _; ps)

theorem post_tr' {α : Type} {m : M α} {B : Env} {P : α → Prop} {s s0 : S} {nr : Bool} (h : Tr A m B P) (hA : s.env nr = A)
    (hN : NoOdd s.ts) (hf : s.ts <:+ s0.ts) : Post (Lone nr s0.ts) (m s) (fun a s' => s'.env nr = B ∧ s'.ts <:+ s0.ts ∧ P a) :=
  post_imp (post_tr h hA hN hf) (fun _ _ h => ⟨h.1, h.2.1.trans hf, h.2.2⟩)

theorem async_cons {ts : List Tok} (h : hd ts = .name "async") : ∃ t, ts = t :: ts.tail ∧ t.k = .name "async" := by
  cases ts with
  | nil => cases h
  | cons t l => exact ⟨t, rfl, h⟩

/-- `async`, whatever it is, and what is done with it. -/
theorem async_pl {α : Type} (hr : RecPl r) {ts : List Tok} (hts : hd ts = .name "async") {f : M α} {g : AsyncRes → M α} {P : α → Prop}
    (hf : Tr A f A P) (hg : ∀ a, AsyncP A a → Tr A (g a) A P) :
    TrAt ts A (do next; if (← peek) = .kw .func then f else (do let a ← asyncTail o r; g a)) A P := by
  intro s nr hs hA hN
  subst hs
  obtain ⟨t, h0, ht⟩ := async_cons hts
  change Post (Lone nr s.ts) _ _
  refine post_bind (post_imp (post_wp (post_tr tr_next hA hN (List.suffix_refl _)) (next_ts s)) ?_)
  rintro _ s1 ⟨⟨e1, f1, _⟩, h1⟩
  refine post_bind (post_imp (post_wp (post_tr tr_peek e1 (suffix_noOdd f1 hN) f1) (wp_peek (Q := fun k s' => s' = s1) rfl)) ?_)
  rintro k s2 ⟨_, h2⟩
  subst h2
  have hN2 := suffix_noOdd f1 hN
  split
  · exact post_tr' hf e1 hN2 f1
  · refine post_bind (post_imp (asyncTail_pl hr (s0 := s) (by rw [h1]; exact h0) ht e1 hN) ?_)
    rintro a s3 ⟨e3, f3, p3⟩
    exact post_tr' (hg a p3) e3 (suffix_noOdd f3 hN2) (f3.trans f1)

theorem asyncExpr_pl (hr : RecPl r) {ts : List Tok} (hts : hd ts = .name "async") : TrAt ts A (asyncExpr o r) A (EP A) := by
  unfold asyncExpr
  refine async_pl hr hts (by tk) ?_
  intro a ha
  cases a with
  | arrow n => exact tr_pure ha
  | call n => exact tr_pure ha
  | fn n =>
    have : EP A n := ha
    dsimp only
    tgo

/-! ## Expressions -/

theorem tplRest_pl (hr : RecPl r) : Tr A (tplRest o r) A (LP A) := by
  unfold tplRest
  apply tr_bind tr_peek
  intro k _
  split <;> tgo

theorem tpl_pl (hr : RecPl r) {t : Node} (ht : EP A t) : Tr A (tpl r t) A (EP A) := by
  unfold tpl
  tgo

macro_rules | `(tactic| tk) => `(tactic| (refine tpl_pl ‹_› ?_; ps))

theorem spread_pl (hr : RecPl r) : Tr A (spread r) A (EP A) := by
  unfold spread
  tgo

macro_rules | `(tactic| tk) => `(tactic| exact spread_pl ‹_›)

theorem arg_pl (hr : RecPl r) : Tr A (arg r) A (EP A) := by
  unfold arg
  tgo

macro_rules | `(tactic| tk) => `(tactic| exact arg_pl ‹_›)

theorem args_pl (hr : RecPl r) (a b : Bool) : Tr A (args o r a b) A (fun n => LP A n.1) := by
  unfold args
  tgo

macro_rules | `(tactic| tk) => `(tactic| (refine arrowFn_pl ‹_› ?_; ps))

theorem parenE_pl (hr : RecPl r) : Tr A (parenE o r) A (EP A) := by
  unfold parenE
  tgo
  split <;> tgo

macro_rules | `(tactic| tk) => `(tactic| exact parenE_pl ‹_›)

theorem arrRest_pl (hr : RecPl r) : Tr A (arrRest r) A (LP A) := by
  unfold arrRest
  tgo

theorem key_plain (p : Place) : p.key 0 false false = p := rfl

theorem propData_pl (hr : RecPl r) : Tr A (propData o r) A (EP A) := by
  unfold propData
  apply tr_bind (propName_pl hr)
  rintro (⟨k, c⟩ | m) hk
  · have : EP A k := hk
    dsimp only
    tgo
  · exact tr_pure hk

macro_rules | `(tactic| tk) => `(tactic| exact propData_pl ‹_›)

theorem key_gen (p : Place) (i : Nat) (a : Bool) : p.key i true a = .inFn true a := by simp [Place.key]
theorem key_async (p : Place) (i : Nat) (g : Bool) : p.key i g true = .inFn g true := by simp [Place.key]

theorem objProp_pl (hr : RecPl r) : Tr A (objProp o r) A (EP A) := by
  unfold objProp
  tgo
  refine methodTail_pl hr ?_
  rw [key_async]
  assumption

macro_rules | `(tactic| tk) => `(tactic| exact objProp_pl ‹_›)

theorem objRest_pl (hr : RecPl r) : Tr A (objRest o r) A (LP A) := by
  unfold objRest
  tgo

theorem isAsync_hd {c : Ctx} {p : Bool} {ts : List Tok} (h : isAsync c p ts = true) : hd ts = .name "async" := by
  unfold isAsync at h
  simp at h
  exact h.1.1

/-! ## Classes -/

theorem classKey_pl (hr : RecPl r) : Tr A (classKey o r) A (fun n => EP A n.1) := by
  unfold classKey
  tgo

macro_rules | `(tactic| tkp) => `(tactic| exact classKey_pl ‹_›)

theorem memberTail_pl (hr : RecPl r) {i : Nat} {st a g c n : Bool} {k : Node} (hk : placed ((pl A).key i g a) k = true) :
    Tr (A.enterFn a g n) (memberTail o r st i a g c k) A (EP A) := by
  unfold memberTail
  tgo

macro_rules | `(tactic| tk) => `(tactic| (refine memberTail_pl ‹_› ?_; ps))

theorem fieldValue_pl (hr : RecPl r) : Tr A (fieldValue r) A (EP A) := by
  unfold fieldValue
  tgo

macro_rules | `(tactic| tk) => `(tactic| exact fieldValue_pl ‹_›)

theorem fieldTail_pl (hr : RecPl r) {st c : Bool} {k : Node} (hk : EP A k) : Tr A (fieldTail o r st c k) A (EP A) := by
  unfold fieldTail
  tgo

macro_rules | `(tactic| tk) => `(tactic| (refine fieldTail_pl ‹_› ?_; ps))

theorem namedMember_pl (hr : RecPl r) {st : Bool} {k : K} : Tr A (namedMember o r st k) A (EP A) := by
  unfold namedMember
  tgo
  refine memberTail_pl hr ?_
  split <;> assumption

macro_rules | `(tactic| tk) => `(tactic| exact namedMember_pl ‹_›)

theorem memberRest_pl (hr : RecPl r) {st : Bool} : Tr A (memberRest o r st) A (EP A) := by
  unfold memberRest
  tgo
  · refine memberTail_pl hr ?_
    rw [key_async]
    assumption

macro_rules | `(tactic| tk) => `(tactic| exact memberRest_pl ‹_›)

theorem static_inner (hr : RecPl r) (hn : A.nr = true) :
    Tr A.enterCls (do enter id; let l ← r.stmts true; leave; (pure (.staticBlock l) : M Node)) A.enterCls (EP A.enterCls) := by
  apply tr_bind (tr_enter (fun _ => rfl))
  intro _ _
  have hI : (A.enterCls.enter id).Inv := ⟨fun h => (by cases h), fun _ => Or.inr hn⟩
  apply tr_bind (hr.stmts _ _ hI)
  intro l hl
  apply tr_bind tr_leave
  intro _ _
  exact tr_pure hl

theorem must_post {N : Prop} {k : K} {s : S} : Post N (must k s) (fun _ s' => s'.cur = s.cur ∧ s'.up = s.up ∧ s'.loops = s.loops ∧
    s'.ts = s.ts.tail ∧ hd s.ts = k) := by
  unfold must
  by_cases h : hd s.ts = k
  · simp only [h, if_true]
    exact ⟨rfl, rfl, rfl, rfl, trivial⟩
  · simp only [h, if_false]
    trivial

theorem hd_cons {l : List Tok} {k : K} (h : hd l = k) (hk : k ≠ .eof) : ∃ t, l = t :: l.tail ∧ t.k = k := by
  cases l with
  | nil => exact absurd h.symm hk
  | cons t l => exact ⟨t, rfl, h⟩

theorem static_pl (hr : RecPl r) {s0 s : S} {nr : Bool} {t : Tok} (h0 : s0.ts = t :: s.ts) (ht : t.k = .cw .static)
    (hA : s.env nr = A.enterCls) (hN : NoOdd s.ts) :
    Post (Lone nr s0.ts) ((do must (.pu .braceL); enter id; let l ← r.stmts true; leave; (pure (.staticBlock l) : M Node)) s)
      (fun a s' => s'.env nr = A.enterCls ∧ s'.ts <:+ s.ts ∧ EP A.enterCls a) := by
  refine post_bind (post_imp must_post ?_)
  rintro _ s1 ⟨h1, h2, h3, h4, h5⟩
  obtain ⟨q, hq, hqk⟩ := hd_cons h5 nofun
  have f1 : s1.ts <:+ s.ts := h4 ▸ List.tail_suffix _
  have hA1 : s1.env true = Env.enterCls { A with nr := true } := by
    have : s1.env nr = A.enterCls := by rw [← hA]; simp [S.env, h1, h2, h3]
    exact congrArg (fun e : Env => { e with nr := true }) this
  refine post_imp (post_lone (post_tr (static_inner (A := { A with nr := true }) hr rfl) hA1 (suffix_noOdd f1 hN) (List.suffix_refl _)) ?_) ?_
  · rintro (h | ⟨_, r, hr, hk⟩)
    · exact suffix_lone (f1.trans ⟨[t], by simp [h0]⟩) (Or.inl h)
    · obtain ⟨b, c, hbc⟩ := List.append_of_mem hr
      exact Or.inl ⟨[], t, q, b, r, c, by rw [h0, hq, ← h4, hbc]; simp, ht, hqk, hk⟩
  · rintro a s2 ⟨e, f, p⟩
    refine ⟨?_, f.trans f1, p⟩
    have hn : nr = A.nr := congrArg Env.nr hA
    subst hn
    exact congrArg (fun e : Env => { e with nr := A.nr }) e

theorem member_pl (hr : RecPl r) : Tr A.enterCls (member o r) A.enterCls (EP A.enterCls) := by
  unfold member
  refine tr_peekAt (fun ts => trAt_ite (fun hts => ?_) (fun _ => tr_at (memberRest_pl hr)))
  intro s nr hs hA hN
  subst hs
  obtain ⟨t, h0, ht⟩ := hd_cons hts nofun
  change Post (Lone nr s.ts) _ _
  refine post_bind (post_imp (post_wp (post_tr tr_next hA hN (List.suffix_refl _)) (next_ts s)) ?_)
  rintro _ s1 ⟨⟨e1, f1, _⟩, h1⟩
  have hN1 := suffix_noOdd f1 hN
  refine post_bind (post_imp (post_wp (post_tr (P := fun _ => True) (m := left) (B := A.enterCls) ?_ e1 hN1 f1)
    (wp_left (Q := fun _ s' => s' = s1) (fun _ _ _ => rfl))) ?_)
  · exact tr_leftT
  rintro l s2 ⟨_, h2⟩
  subst h2
  split
  · exact post_tr' (fieldTail_pl hr rfl) e1 hN1 f1
  · split
    · exact post_imp (static_pl hr (by rw [h1]; exact h0) ht e1 hN1) (fun _ _ h => ⟨h.1, h.2.1.trans f1, h.2.2⟩)
    · refine post_tr' (tr_ite (fun _ => ?_) (fun _ => memberRest_pl hr)) e1 hN1 f1
      apply tr_bind tr_enterFn
      intro _ _
      exact memberTail_pl hr rfl

macro_rules | `(tactic| tk) => `(tactic| exact member_pl ‹_›)

theorem members_pl (hr : RecPl r) : Tr A.enterCls (members o r) A.enterCls (LP A.enterCls) := by
  unfold members
  tgo

theorem className_pl : Tr A (className o) A (EP A) := by
  unfold className
  tgo

macro_rules | `(tactic| tk) => `(tactic| exact className_pl)

theorem heritage_pl (hr : RecPl r) : Tr A (heritage o r) A (EP A) := by
  unfold heritage
  tgo

macro_rules | `(tactic| tk) => `(tactic| exact heritage_pl ‹_›)

theorem classE_pl (hr : RecPl r) {b : Bool} : Tr A (classE o r b) A (EP A) := by
  unfold classE
  tgo

macro_rules | `(tactic| tk) => `(tactic| exact classE_pl ‹_›)

/-! ## `import` -/

theorem condTail_pl (hr : RecPl r) {e : Node} (he : EP A e) : Tr A (condTail r e) A (EP A) := by
  unfold condTail
  tgo

macro_rules | `(tactic| tk) => `(tactic| (refine condTail_pl ‹_› ?_; ps))

theorem importMeta_pl (hr : RecPl r) : Tr A (importMeta r) A (EP A) := by
  unfold importMeta
  tgo

macro_rules | `(tactic| tk) => `(tactic| exact importMeta_pl ‹_›)

theorem importE_pl (hr : RecPl r) : Tr A (importE r) A (EP A) := by
  unfold importE
  tgo

macro_rules | `(tactic| tk) => `(tactic| exact importE_pl ‹_›)

theorem primary_pl (hr : RecPl r) : Tr A (primary o r) A (EP A) := by
  unfold primary
  apply tr_bind tr_peek
  intro k _
  apply tr_bind tr_scope
  intro c _
  refine tr_left (fun ts => ?_)
  refine trAt_ite (fun _ => tr_at ?_) (fun _ => ?_)
  · tgo
  refine trAt_ite (fun _ => ?_) (fun _ => tr_at ?_)
  · refine trAt_ite (fun h => asyncExpr_pl hr (isAsync_hd h)) (fun _ => tr_at ?_)
    tgo
  tgo

macro_rules | `(tactic| tk) => `(tactic| exact primary_pl ‹_›)

theorem dot_pl {n : Node} {b : Bool} (hn : EP A n) : Tr A (dot o n b) A (EP A) := by
  unfold dot
  tgo

macro_rules | `(tactic| tk) => `(tactic| (refine dot_pl ?_; ps))

theorem subscript_pl (hr : RecPl r) {n : Node} {b : Bool} (hn : EP A n) : Tr A (subscript r n b) A (EP A) := by
  unfold subscript
  tgo

macro_rules | `(tactic| tk) => `(tactic| (refine subscript_pl ‹_› ?_; ps))

theorem chain_pl {n : Node} (h : EP A n) (b : Bool) : EP A (if b then .chain n else n) := by
  cases b
  · exact h
  · exact h

theorem callRest_pl (hr : RecPl r) {e : Node} (a b c : Bool) (he : EP A e) : Tr A (callRest o r e a b c) A (fun n => EP A n.1) := by
  unfold callRest
  tgo
  exact tr_pure (chain_pl he _)

theorem optional_pl (hr : RecPl r) {e : Node} (he : EP A e) : Tr A (optional o r e) A (EP A) := by
  unfold optional
  tgo

macro_rules | `(tactic| tk) => `(tactic| (refine optional_pl ‹_› ?_; ps))

theorem memRest_pl (hr : RecPl r) {e : Node} (a b c : Bool) (he : EP A e) : Tr A (memRest o r e a b c) A (fun n => EP A n.1) := by
  unfold memRest
  tgo
  exact tr_pure (chain_pl he _)

theorem newRest_pl (hr : RecPl r) {e : Node} (a b : Bool) (he : EP A e) : Tr A (newRest r e a b) A (EP A) := by
  unfold newRest
  tgo

theorem memObj_pl (hr : RecPl r) : Tr A (memObj o r) A (EP A) := by
  unfold memObj
  tgo

macro_rules | `(tactic| tk) => `(tactic| exact memObj_pl ‹_›)

theorem newE_pl (hr : RecPl r) : Tr A (newE o r) A (EP A) := by
  unfold newE
  tgo

theorem lhs1_pl (hr : RecPl r) : Tr A (lhs1 o r) A (EP A) := by
  unfold lhs1
  tgo

macro_rules | `(tactic| tk) => `(tactic| exact lhs1_pl ‹_›)

theorem lhs_pl (hr : RecPl r) : Tr A (lhs o r) A (EP A) := by
  unfold lhs
  tgo

macro_rules | `(tactic| tk) => `(tactic| exact lhs_pl ‹_›)

theorem update_pl (hr : RecPl r) : Tr A (update o r) A (EP A) := by
  unfold update
  tgo

macro_rules | `(tactic| tk) => `(tactic| exact update_pl ‹_›)

theorem unary_pl (hr : RecPl r) : Tr A (unary o r) A (EP A) := by
  unfold unary
  apply tr_bind tr_peek
  intro k _
  refine tr_ite (fun hk => ?_) (fun _ => ?_)
  · have : k ≠ .cw .await := by rintro rfl; cases hk
    tgo
  refine tr_ite (fun _ => ?_) (fun _ => ?_)
  · apply tr_bind tr_next
    intro _ _
    apply tr_bind tr_peek
    intro _ _
    refine tr_ite (fun _ => ?_) (fun _ => ?_)
    · tgo
    · apply tr_bind tr_scope
      intro c hc
      apply tr_bind tr_req
      intro _ hc'
      have : (pl A).async = true := by show A.c.async = true; rw [← hc]; exact hc'
      tgo
  · tgo

theorem binInner_pl (hr : RecPl r) {e : Node} (p : Nat) (a b : Bool) (he : EP A e) : Tr A (binInner r e p a b) A (EP A) := by
  unfold binInner
  apply tr_bind tr_scope
  intro c _
  apply tr_bind tr_peek
  intro k _
  split <;> tgo

theorem binRest_pl (hr : RecPl r) {e : Node} (p : Nat) (a b : Bool) (he : EP A e) : Tr A (binRest r e p a b) A (EP A) := by
  unfold binRest
  apply tr_bind tr_scope
  intro c _
  apply tr_bind tr_peek
  intro k _
  split <;> tgo

theorem cond_pl (hr : RecPl r) : Tr A (cond r) A (EP A) := by
  unfold cond
  tgo

macro_rules | `(tactic| tk) => `(tactic| exact cond_pl ‹_›)

theorem yieldE_pl (hr : RecPl r) (hg : (pl A).gen = true) : Tr A (yieldE o r) A (EP A) := by
  unfold yieldE
  tgo

theorem assignTail_pl (hr : RecPl r) {e : Node} (he : EP A e) : Tr A (assignTail o r e) A (EP A) := by
  unfold assignTail
  apply tr_bind tr_peek
  intro k _
  split <;> tgo

macro_rules | `(tactic| tk) => `(tactic| (refine assignTail_pl ‹_› ?_; ps))

theorem assign_pl (hr : RecPl r) : Tr A (assign o r) A (EP A) := by
  unfold assign
  apply tr_bind tr_scope
  intro c hc
  apply tr_bind tr_peek
  intro k _
  refine tr_ite (fun h => ?_) (fun _ => ?_)
  · refine yieldE_pl hr ?_
    simp at h
    show A.c.gen = true
    rw [← hc]
    exact h.1
  · apply tr_bind (cond_pl hr)
    intro l hl
    apply tr_bind tr_peek
    intro _ _
    apply tr_bind tr_nl
    intro _ _
    refine tr_ite (fun h => ?_) (fun _ => ?_)
    · simp at h
      have : placedL (pl A).inner [l] = true := by simp [placedL, isName_placed h.1.1]
      apply tr_bind tr_chk
      intro _ _
      apply tr_bind (arrowFn_pl hr this)
      intro f hf
      exact assignTail_pl hr hf
    · exact assignTail_pl hr hl

theorem seqRest_pl (hr : RecPl r) : Tr A (seqRest r) A (LP A) := by
  unfold seqRest
  tgo

theorem seqTail_pl (hr : RecPl r) {e : Node} (he : EP A e) : Tr A (seqTail r e) A (EP A) := by
  unfold seqTail
  tgo

macro_rules | `(tactic| tk) => `(tactic| (refine seqTail_pl ‹_› ?_; ps))

theorem expr_pl (hr : RecPl r) : Tr A (expr o r) A (EP A) := by
  unfold expr
  tgo

end

end Mole.Parser.Prog
