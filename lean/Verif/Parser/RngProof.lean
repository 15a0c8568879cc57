import Verif.Parser.RngWp

/-! # The functions return nodes where they should be -/

namespace Mole.Parser.Rng

open Prog (K Kw Cw Pu BinOp AsgOp startExpr isKw canKey pcd isBin text isAtom isTplHead isUnary isIncDec isYield decKind)

/-- Nodes of which the last ends where the parser is. -/
def PE (e : Env) (i : Nat) (l : List Nd) (s : S) : Prop :=
  i ≤ s.i ∧ s.i ≤ e.t.length ∧ (l = [] → s.i = i) ∧ ∃ a, Locs e.t l i a s.i

/-- Nodes and a closing token. -/
def PC (e : Env) (k : K) (i : Nat) (l : List Nd) (s : S) : Prop :=
  i < s.i ∧ s.i ≤ e.t.length ∧ (tokAt e.t (s.i - 1)).k = k ∧ ∃ a b, b < s.i ∧ Locs e.t l i a b

/-- A node that continues another one. -/
def PS (e : Env) (x : Nat) (n0 : Nd) (r : Nd × Bool) (s : S) : Prop := PN e x r.1 s ∧ ∀ y, Lft n0 y → Lft r.1 y

/-- What the functions return. -/
structure Ok (e : Env) (r : Rec) : Prop where
  expr : ∀ i a c, WP e r.expr (PN e i) ⟨i, a, c⟩
  seqRest : ∀ i a c, i ≤ e.t.length → WP e r.seqRest (PE e i) ⟨i, a, c⟩
  assign : ∀ i a c, WP e r.assign (PN e i) ⟨i, a, c⟩
  unary : ∀ i a c, WP e r.unary (PN e i) ⟨i, a, c⟩
  binRest : ∀ x m a c n p, Loc e.t n x m → WP e (r.binRest n p) (PN e x) ⟨m, a, c⟩
  binInner : ∀ x m a c n p, Loc e.t n x m → WP e (r.binInner n p) (PN e x) ⟨m, a, c⟩
  newE : ∀ i a c, 0 < a → (tokAt e.t i).k = .kw .new_ → WP e r.newE (PN e i) ⟨i, a, c⟩
  newRest : ∀ x m a c n b, Loc e.t n x m → WP e (r.newRest n b) (PN e x) ⟨m, a, c⟩
  callRest : ∀ x m i a c lo n b b', Loc e.t n x m → i = m ∨ m ≤ i ∧ (tokAt e.t i).k = .pu .parenL →
    lo = (tokAt e.t x).lo ∨ Lft n lo → WP e (r.callRest lo n b b') (PS e x n) ⟨i, a, c⟩
  memRest : ∀ x m a c n b b' b'', Loc e.t n x m → WP e (r.memRest n b b' b'') (PS e x n) ⟨m, a, c⟩
  args : ∀ i a c b, WP e (r.args b) (fun l s => PC e (.pu .parenR) i l.1 s) ⟨i, a, c⟩
  tplRest : ∀ i a c, WP e r.tplRest (fun l s => Parts e.t l i s.i) ⟨i, a, c⟩
  arrRest : ∀ i a c, WP e r.arrRest (PC e (.pu .brackR) i) ⟨i, a, c⟩
  objRest : ∀ i a c, WP e r.objRest (PC e (.pu .braceR) i) ⟨i, a, c⟩
  params : ∀ i a c, WP e r.params (PC e (.pu .parenR) i) ⟨i, a, c⟩
  pat : ∀ i a c, WP e r.pat (PN e i) ⟨i, a, c⟩
  patElem : ∀ i a c, WP e r.patElem (PN e i) ⟨i, a, c⟩
  patArr : ∀ i a c, WP e r.patArr (PC e (.pu .brackR) i) ⟨i, a, c⟩
  patObj : ∀ i a c, WP e r.patObj (PC e (.pu .braceR) i) ⟨i, a, c⟩
  decs : ∀ i a c, WP e r.decs (fun l s => PE e i l s ∧ l ≠ []) ⟨i, a, c⟩
  stmt : ∀ i a c, WP e r.stmt (PN e i) ⟨i, a, c⟩
  stmts : ∀ i a c, WP e (r.stmts true) (PC e (.pu .braceR) i) ⟨i, a, c⟩
  body : ∀ i a c, i ≤ e.t.length → WP e (r.stmts false) (fun l s => PE e i l s ∧ (tokAt e.t s.i).k = .eof) ⟨i, a, c⟩
  cases : ∀ i a c, WP e r.cases (PC e (.pu .braceR) i) ⟨i, a, c⟩
  caseBody : ∀ i a c, i ≤ e.t.length → WP e r.caseBody (PE e i) ⟨i, a, c⟩

theorem Ok.none (e : Env) : Ok e Rec.none where
  expr _ _ _ := wp_fail
  seqRest _ _ _ _ := wp_fail
  assign _ _ _ := wp_fail
  unary _ _ _ := wp_fail
  binRest _ _ _ _ _ _ _ := wp_fail
  binInner _ _ _ _ _ _ _ := wp_fail
  newE _ _ _ _ _ := wp_fail
  newRest _ _ _ _ _ _ _ := wp_fail
  callRest _ _ _ _ _ _ _ _ _ _ _ _ := wp_fail
  memRest _ _ _ _ _ _ _ _ _ := wp_fail
  args _ _ _ _ := wp_fail
  tplRest _ _ _ := wp_fail
  arrRest _ _ _ := wp_fail
  objRest _ _ _ := wp_fail
  params _ _ _ := wp_fail
  pat _ _ _ := wp_fail
  patElem _ _ _ := wp_fail
  patArr _ _ _ := wp_fail
  patObj _ _ _ := wp_fail
  decs _ _ _ := wp_fail
  stmt _ _ _ := wp_fail
  stmts _ _ _ := wp_fail
  body _ _ _ _ := wp_fail
  cases _ _ _ := wp_fail
  caseBody _ _ _ _ := wp_fail

/-! ## Steps -/

local macro "pk" : tactic => `(tactic| (refine wp_bind (wp_peek ?_); intro _ _))
local macro "pkT" : tactic => `(tactic| (refine wp_bind (wp_peekT ?_); intro _ _))
local macro "nx" : tactic => `(tactic| (refine wp_bind (wp_next ?_); intro _))
local macro "tk" : tactic => `(tactic| (refine wp_bind (wp_take ?_); intro _))
local macro "ck" : tactic => `(tactic| (refine wp_bind (wp_chk ?_); intro _))
local macro "ak" : tactic => `(tactic| (refine wp_bind (wp_ask ?_); intro _ _))
local macro "rg" : tactic => `(tactic| (refine wp_bind (wp_rng (by omega) ?_)))
local macro "rq" h:ident : tactic => `(tactic| (refine wp_bind (wp_req ?_); intro $h:ident))
local macro "ms" h:ident : tactic => `(tactic| (refine wp_bind (wp_must ?_); intro $h:ident _))
local macro "ic" h:ident : tactic => `(tactic| (refine wp_ite ?_ ?_ <;> intro $h:ident))

variable {e : Env} {r : Rec}

/-- A node that ends where the parser is. -/
theorem wp_node {k : Kd} {lo : Nat} {kids : List Nd} {i j a b aa c : Nat} (h1 : i < j) (h2 : j ≤ e.t.length) (h3 : Locs e.t kids i a b)
    (h4 : b ≤ j) (h5 : lo = (tokAt e.t i).lo ∨ lk k = true ∧ a = i ∧ ∃ n l, kids = n :: l ∧ (lo = n.lo ∨ k = .call ∧ Lft n lo))
    (h6 : lk k = true ∧ a = i ∧ kids ≠ [] ∨ lt k (tokAt e.t i).k = true)
    (h7 : rk k = true ∧ b = j ∧ kids ≠ [] ∨ rt k (tokAt e.t (j - 1)).k = true) :
    WP e (mk k lo kids) (PN e i) ⟨j, aa, c⟩ :=
  wp_mk (by omega) ⟨h1, h2, .node h1 h2 h3 h4 rfl h5 h6 h7⟩

/-- A token. -/
theorem wp_leaf {k : Kd} {i aa c : Nat} (h : single k = true) (h1 : i < e.t.length) :
    WP e (mk k (tokAt e.t i).lo []) (PN e i) ⟨i + 1, aa, c⟩ :=
  wp_mk (by omega) ⟨Nat.lt_succ_self _, h1, .leaf h h1⟩

theorem leaf_ok {k : Kd} (h : single k = true) (i a c : Nat) : WP e (leaf k) (PN e i) ⟨i, a, c⟩ := by
  unfold leaf
  pkT; nx
  exact wp_leaf h ‹_›

theorem ident_ok (i a c : Nat) : WP e ident (PN e i) ⟨i, a, c⟩ := by
  unfold ident
  tk; rq h; ck
  exact wp_leaf rfl ‹_›

theorem target_ok {n : Nd} {i j : Nat} (h : Loc e.t n i j) (x a c : Nat) :
    WP e (target n) (fun n' s => s.i = x ∧ ∃ i' j', Same e.t n n' i j i' j') ⟨x, a, c⟩ := by
  unfold target
  ck
  exact wp_pure ⟨rfl, toPat_same _ _ _ h⟩

theorem targets_ok {l : List Nd} {i p q : Nat} (h : Locs e.t l i p q) (x a c : Nat) :
    WP e (targets l) (fun l' s => s.i = x ∧ ∃ a' b', Locs e.t l' i a' b' ∧ b' ≤ q) ⟨x, a, c⟩ := by
  unfold targets
  ck
  exact wp_pure ⟨rfl, toPats_locs _ _ _ _ h⟩

theorem opening_ok (i a c : Nat) : WP e opening (fun _ s => s.i = i ∧ 0 < s.ahead) ⟨i, a, c⟩ := by
  unfold opening
  refine wp_bind (wp_peekT ?_); intro _ _
  exact wp_req fun _ => ⟨rfl, by assumption⟩

theorem semi_ok (b : Bool) (i a c : Nat) :
    WP e (semi b) (fun _ s => s.i = i ∨ s.i = i + 1 ∧ i < e.t.length ∧ (tokAt e.t i).k = .pu .semi) ⟨i, a, c⟩ := by
  unfold semi
  pkT; rq h
  ic hk
  · exact wp_next fun h => .inr ⟨rfl, h, hk⟩
  · exact wp_pure (.inl rfl)

/-! ## Patterns -/

section
variable (H : Ok e r)
include H

theorem patRest_ok (b : Bool) (i a c : Nat) (ha : 0 < a) (hk : (tokAt e.t i).k = .pu .dots) : WP e (patRest r b) (PN e i) ⟨i, a, c⟩ := by
  unfold patRest
  rg; nx; pk; rq h
  refine wp_bind (wp_call (H.pat _ _ _) ?_); intro n j a c ⟨_, _, hn⟩
  dsimp only at *
  pk; rq h
  exact wp_node (by omega) (by omega) (.one (by omega) hn) (Nat.le_refl _) (.inl rfl) (.inr (by simp [lt, hk])) (.inl ⟨rfl, rfl, by simp⟩)

theorem pat_ok (i a c : Nat) : WP e (pat r) (PN e i) ⟨i, a, c⟩ := by
  unfold pat
  pk
  split
  · rg; nx
    refine wp_bind (wp_call (H.patObj _ _ _) ?_); intro l j a c ⟨_, _, hc, p, q, hq, hl⟩
    dsimp only at *
    exact wp_node (by omega) (by omega) (hl.weaken (by omega)) (by omega) (.inl rfl) (.inr (by simp [lt, *])) (.inr (by simp [rt, hc]))
  · rg; nx
    refine wp_bind (wp_call (H.patArr _ _ _) ?_); intro l j a c ⟨_, _, hc, p, q, hq, hl⟩
    dsimp only at *
    exact wp_node (by omega) (by omega) (hl.weaken (by omega)) (by omega) (.inl rfl) (.inr (by simp [lt, *])) (.inr (by simp [rt, hc]))
  · exact patRest_ok H _ _ _ _ (by omega) (by assumption)
  · exact ident_ok _ _ _

theorem patElem_ok (i a c : Nat) : WP e (patElem r) (PN e i) ⟨i, a, c⟩ := by
  unfold patElem
  refine wp_bind (wp_call (H.pat _ _ _) ?_); intro n j a c ⟨_, _, hn⟩
  dsimp only at *
  pk
  ic h
  · nx
    refine wp_bind (wp_call (H.assign _ _ _) ?_); intro v j' a c ⟨_, _, hv⟩
    dsimp only at *
    ck
    exact wp_node (by omega) (by omega) (.cons (Nat.le_refl _) hn (.one (by omega) hv)) (Nat.le_refl _) (.inr ⟨rfl, rfl, _, _, rfl, .inl rfl⟩)
      (.inl ⟨rfl, rfl, by simp⟩) (.inl ⟨rfl, rfl, by simp⟩)
  · exact wp_pure ⟨by assumption, by assumption, hn⟩

omit H in
theorem pc_nil {k : K} {i a c : Nat} (h : i < e.t.length) (hk : (tokAt e.t i).k = k) : PC e k i [] ⟨i + 1, a, c⟩ :=
  ⟨Nat.lt_succ_self _, h, hk, i, i, Nat.lt_succ_self _, .nil (Nat.le_refl _)⟩

omit H in
theorem pc_one {k : K} {n : Nd} {i j a c : Nat} (h : Loc e.t n i j) (hj : j < e.t.length) (hk : (tokAt e.t j).k = k) :
    PC e k i [n] ⟨j + 1, a, c⟩ := by
  have := h.mono
  exact ⟨by change i < j + 1; omega, hj, hk, i, j, Nat.lt_succ_self _, .one (Nat.le_refl _) h⟩

omit H in
theorem pc_cons {k : K} {n : Nd} {l : List Nd} {i i' j : Nat} {s : S} (h : Loc e.t n i j) (hj : j ≤ i') (hl : PC e k i' l s) :
    PC e k i (n :: l) s := by
  have := h.mono
  obtain ⟨h1, h2, h3, a, b, h4, h5⟩ := hl
  obtain ⟨b', h6, h7, h8⟩ := Locs.push (Nat.le_refl _) h hj h5
  exact ⟨by omega, h2, h3, i, b', by omega, h6⟩

omit H in
theorem pc_weaken {k : K} {l : List Nd} {i i' : Nat} {s : S} (hj : i ≤ i') (hl : PC e k i' l s) : PC e k i l s := by
  obtain ⟨h1, h2, h3, a, b, h4, h5⟩ := hl
  exact ⟨by omega, h2, h3, a, b, h4, h5.weaken hj⟩

theorem patArr_ok (i a c : Nat) : WP e (patArr r) (PC e (.pu .brackR) i) ⟨i, a, c⟩ := by
  unfold patArr
  pk
  ic h
  · nx
    exact wp_call (H.patArr _ _ _) fun _ _ _ _ h => pc_weaken (by omega) h
  ic h
  · nx
    exact wp_pure (pc_nil ‹_› h)
  refine wp_bind (wp_call (H.patElem _ _ _) ?_); intro n j a c ⟨_, _, hn⟩
  dsimp only at *
  pk; rq h
  ic h
  · nx
    refine wp_bind (wp_call (H.patArr _ _ _) ?_); intro l j a c hl
    exact wp_pure (pc_cons hn (by omega) hl)
  · ms h
    exact wp_pure (pc_one hn (by omega) h)

theorem param_ok (i a c : Nat) : WP e (param r) (PN e i) ⟨i, a, c⟩ := by
  unfold param
  pkT; ak
  ic h
  · nx
    exact wp_leaf rfl ‹_›
  refine wp_bind (wp_call (H.pat _ _ _) ?_); intro n j a c ⟨_, _, hn⟩
  dsimp only at *
  pk
  ic h
  · nx
    refine wp_bind (wp_call (H.assign _ _ _) ?_); intro v j' a c ⟨_, _, hv⟩
    dsimp only at *
    ck; rq h'
    exact wp_node (by omega) (by omega) (.cons (Nat.le_refl _) hn (.one (by omega) hv)) (Nat.le_refl _) (.inr ⟨rfl, rfl, _, _, rfl, .inl rfl⟩)
      (.inl ⟨rfl, rfl, by simp⟩) (.inl ⟨rfl, rfl, by simp⟩)
  · exact wp_pure ⟨by assumption, by assumption, hn⟩

theorem params_ok (i a c : Nat) : WP e (params r) (PC e (.pu .parenR) i) ⟨i, a, c⟩ := by
  unfold params
  pk
  ic h
  · nx
    exact wp_pure (pc_nil ‹_› h)
  refine wp_bind (wp_call (param_ok H _ _ _) ?_); intro n j a c ⟨_, _, hn⟩
  dsimp only at *
  pk
  ic h
  · nx
    refine wp_bind (wp_call (H.params _ _ _) ?_); intro l j a c hl
    exact wp_pure (pc_cons hn (by omega) hl)
  · ms h
    exact wp_pure (pc_one hn (by omega) h)

theorem body_ok (i a c : Nat) : WP e (body r) (PN e i) ⟨i, a, c⟩ := by
  unfold body
  ms h
  refine wp_bind (wp_call (H.stmts _ _ _) ?_); intro l j a c ⟨_, _, hc, p, q, hq, hl⟩
  dsimp only at *
  ck
  exact wp_node (by omega) (by omega) (hl.weaken (by omega)) (by omega) (.inl rfl) (.inr (by simp [lt, *])) (.inr (by simp [rt, hc]))

/-- The property begins with its key or with a token before it, at `i`. -/
theorem methodTail_ok {x p m : Nat} {lo : Nat} {key : Nd} (hx : x ≤ p) (hkey : Loc e.t key p m)
    (hlo : lo = (tokAt e.t x).lo ∨ p = x ∧ lo = key.lo) (hlt : p = x ∨ lt .method (tokAt e.t x).k = true) (i a c : Nat) (hi : m ≤ i) (ha : 0 < a) :
    WP e (methodTail r lo key) (PN e x) ⟨i, a, c⟩ := by
  unfold methodTail
  rg; ms h
  refine wp_bind (wp_call (H.params _ _ _) ?_); intro l j a c ⟨_, _, hc, p1, q, hq, hl⟩
  dsimp only at *
  refine wp_bind (wp_call (body_ok H _ _ _) ?_); intro b j' a c ⟨_, _, hb⟩
  dsimp only at *
  ck
  obtain ⟨a'', b'', h1, _, _, h4, _⟩ := Locs.append hl (show q ≤ j by omega) (.one (Nat.le_refl _) hb)
  have h4 := h4 (by simp)
  subst h4
  refine wp_bind (wp_call (wp_node (show i < b'' by omega) (by omega) (h1.weaken (by omega)) (Nat.le_refl _) (.inl rfl) (.inr (by simp [lt, h]))
    (.inl ⟨rfl, rfl, by simp⟩)) ?_)
  intro f j'' a c ⟨_, _, hf⟩
  dsimp only at *
  have := hkey.mono
  refine wp_node (by omega) (by omega) (.cons hx hkey (.one hi hf)) (Nat.le_refl _) ?_ ?_ (.inl ⟨rfl, rfl, by simp⟩)
  · rcases hlo with h | ⟨h, h'⟩
    · exact .inl h
    · exact .inr ⟨rfl, h, _, _, rfl, .inl h'⟩
  · rcases hlt with h | h
    · exact .inl ⟨rfl, h, by simp⟩
    · exact .inr h

/-- A key, and the bracket before it. -/
def PK (e : Env) (i : Nat) (c : Option Nat × Nd) (s : S) : Prop :=
  i < s.i ∧ s.i ≤ e.t.length ∧ (c.1 = none ∧ Loc e.t c.2 i s.i ∨
    c.1 = some (tokAt e.t i).lo ∧ (tokAt e.t i).k = .pu .brackL ∧ (tokAt e.t (s.i - 1)).k = .pu .brackR ∧ i + 1 < s.i ∧ Loc e.t c.2 (i + 1) (s.i - 1))

theorem propKey_ok (i a c : Nat) : WP e (propKey r) (PK e i) ⟨i, a, c⟩ := by
  unfold propKey
  tk
  ic hk
  · refine wp_bind (wp_call (H.assign _ _ _) ?_); intro n j a c ⟨_, _, hn⟩
    dsimp only at *
    ms h
    exact wp_pure ⟨by change i < j + 1; omega, by change j + 1 ≤ _; omega, .inr ⟨rfl, hk, h, by change i + 1 < j + 1; omega, hn⟩⟩
  ic hk
  · ck
    refine wp_bind (wp_call (wp_leaf rfl ‹_›) ?_); intro n j a c ⟨_, _, hn⟩
    exact wp_pure ⟨by assumption, by assumption, .inl ⟨rfl, hn⟩⟩
  ic hk
  · ck
    refine wp_bind (wp_call (wp_leaf rfl ‹_›) ?_); intro n j a c ⟨_, _, hn⟩
    exact wp_pure ⟨by assumption, by assumption, .inl ⟨rfl, hn⟩⟩
  · exact wp_fail

theorem propKey2_ok (i a c : Nat) : WP e (propKey2 r) (fun c s => PK e i c s ∧ 0 < s.ahead) ⟨i, a, c⟩ := by
  unfold propKey2
  refine wp_bind (wp_call (propKey_ok H _ _ _) ?_); intro n j a c h
  pk
  exact wp_pure ⟨h, by assumption⟩

omit H in
/-- The key is somewhere from `i` on, and the property begins at `i`. -/
theorem PK.out {i : Nat} {c : Option Nat × Nd} {s : S} (h : PK e i c s) :
    ∃ p m, i ≤ p ∧ m ≤ s.i ∧ Loc e.t c.2 p m ∧ (keyLo c.1 c.2 = (tokAt e.t i).lo ∨ p = i ∧ keyLo c.1 c.2 = c.2.lo) ∧
      (p = i ∧ m = s.i ∨ (tokAt e.t i).k = .pu .brackL ∧ (tokAt e.t (s.i - 1)).k = .pu .brackR ∧ c.1.isSome = true) := by
  obtain ⟨h1, h2, ⟨h3, h4⟩ | ⟨h3, h4, h7, h5, h6⟩⟩ := h
  · exact ⟨i, s.i, Nat.le_refl _, Nat.le_refl _, h4, .inr ⟨rfl, by rw [h3]; rfl⟩, .inl ⟨rfl, rfl⟩⟩
  · exact ⟨i + 1, s.i - 1, by omega, by omega, h6, .inl (by rw [h3]; rfl), .inr ⟨h4, h7, by rw [h3]; rfl⟩⟩

/-- A key or a method. -/
def PP (e : Env) (i : Nat) (x : (Option Nat × Nd) ⊕ Nd) (s : S) : Prop :=
  match x with
  | .inl c => PK e i c s ∧ 0 < s.ahead
  | .inr n => PN e i n s

omit H in
/-- propName knows a getter by the text of its first token. -/
theorem wp_propBegin {Q : Nat × String → S → Prop} {i a c : Nat} (h : Q ((tokAt e.t i).lo, text (tokAt e.t i).k) ⟨i, a, c⟩) :
    WP e propBegin Q ⟨i, a, c⟩ := by
  intro x s' hx
  cases hx
  exact h

theorem propName_ok (i a c : Nat) : WP e (propName r) (PP e i) ⟨i, a, c⟩ := by
  unfold propName
  refine wp_bind (wp_propBegin ?_)
  dsimp only
  refine wp_bind (wp_call (propKey_ok H _ _ _) ?_); intro n j a c h
  pkT
  ic h1
  · exact wp_pure ⟨h, by assumption⟩
  ic h1
  · refine wp_bind (wp_call (propKey2_ok H _ _ _) ?_); intro n' j' a' c' ⟨h', ha'⟩
    have := h.1
    dsimp only at *
    obtain ⟨p, m, h3, h4, h5, h6, h7⟩ := h'.out
    dsimp only at *
    refine wp_bind (wp_call (methodTail_ok H (show i ≤ p by omega) h5 (.inl rfl) (.inr ?_) _ _ _ h4 ha') ?_)
    · simp only [Bool.and_eq_true, Bool.or_eq_true] at h1
      simp only [lt, Bool.or_eq_true]
      rcases h1.1 with h | h
      · exact .inl (.inr h)
      · exact .inr h
    · intro _ _ _ _ h
      exact wp_pure h
  · obtain ⟨p, m, h3, h4, h5, h6, h7⟩ := h.out
    refine wp_bind (wp_call (methodTail_ok H h3 h5 (.inl rfl) ?_ _ _ _ h4 (by assumption)) ?_)
    · rcases h7 with h7 | h7
      · exact .inl h7.1
      · exact .inr (by simp [lt, h7])
    · intro _ _ _ _ h
      exact wp_pure h

/-- A property, which may begin with the key of it although that is in brackets. -/
def PI (e : Env) (i : Nat) (n : Nd) (s : S) : Prop := i < s.i ∧ s.i ≤ e.t.length ∧ ∃ i', i ≤ i' ∧ Loc e.t n i' s.i

theorem patProp_ok (i a c : Nat) : WP e (patProp r) (PI e i) ⟨i, a, c⟩ := by
  unfold patProp
  pk
  ic h
  · exact wp_call (patRest_ok H _ _ _ _ (by omega) h) fun _ _ _ _ h => ⟨h.1, h.2.1, i, Nat.le_refl _, h.2.2⟩
  refine wp_bind (wp_call (propName_ok H _ _ _) ?_); intro x j a c h
  cases x with
  | inr n => exact wp_fail
  | inl k =>
    obtain ⟨h1, h2⟩ := h
    have hj := h1.1
    have hj' := h1.2.1
    obtain ⟨p, m, h3, h4, h5, h6, h7⟩ := h1.out
    dsimp only at *
    pk
    ic h8
    · nx
      refine wp_bind (wp_call (H.patElem _ _ _) ?_); intro v j' a c ⟨_, _, hv⟩
      dsimp only at *
      refine wp_call (wp_node (show i < j' by omega) (by omega) (.cons h3 h5 (.one (by omega) hv)) (Nat.le_refl _) ?_ ?_ (.inl ⟨rfl, rfl, by simp⟩)) ?_
      · rcases h6 with h | ⟨h, h'⟩
        · exact .inl h
        · exact .inr ⟨rfl, h, _, _, rfl, .inl h'⟩
      · rcases h7 with h | h
        · exact .inl ⟨rfl, h.1, by simp⟩
        · exact .inr (by simp [lt, h])
      · exact fun _ _ _ _ h => ⟨h.1, h.2.1, i, Nat.le_refl _, h.2.2⟩
    ic h8
    · rq h9
      nx
      refine wp_bind (wp_call (H.assign _ _ _) ?_); intro v j' a c ⟨_, _, hv⟩
      dsimp only at *
      ck
      have := h5.mono
      refine wp_bind (wp_mk (by omega) ?_)
      have hA : Loc e.t (.node .assignPat k.2.lo (tokAt e.t (j' - 1)).hi [k.2, v]) p j' :=
        .node (by omega) (by omega) (.cons (Nat.le_refl _) h5 (.one (by omega) hv)) (Nat.le_refl _) rfl
          (.inr ⟨rfl, rfl, _, _, rfl, .inl rfl⟩) (.inl ⟨rfl, rfl, by simp⟩) (.inl ⟨rfl, rfl, by simp⟩)
      refine wp_mk (by omega) ⟨by change i < j'; omega, by assumption, p, h3, ?_⟩
      show Loc e.t _ p j'
      exact .node (by omega) (by omega) (.one (Nat.le_refl _) hA) (Nat.le_refl _) rfl (.inr ⟨rfl, rfl, _, _, rfl, .inl rfl⟩)
        (.inl ⟨rfl, rfl, by simp⟩) (.inl ⟨rfl, rfl, by simp⟩)
    · refine wp_call (wp_node (show i < j by omega) (by omega) (.one h3 h5) (by omega) ?_ ?_ ?_) ?_
      · rcases h6 with h | ⟨h, h'⟩
        · exact .inl h
        · exact .inr ⟨rfl, h, _, _, rfl, .inl h'⟩
      · rcases h7 with h | h
        · exact .inl ⟨rfl, h.1, by simp⟩
        · exact .inr (by simp [lt, h])
      · rcases h7 with h | h
        · exact .inl ⟨rfl, h.2, by simp⟩
        · exact .inr (by simp [rt, h])
      · exact fun _ _ _ _ h => ⟨h.1, h.2.1, i, Nat.le_refl _, h.2.2⟩

theorem patObj_ok (i a c : Nat) : WP e (patObj r) (PC e (.pu .braceR) i) ⟨i, a, c⟩ := by
  unfold patObj
  pk
  ic h
  · nx
    exact wp_pure (pc_nil ‹_› h)
  refine wp_bind (wp_call (patProp_ok H _ _ _) ?_); intro n j a c ⟨_, _, i', hi', hn⟩
  dsimp only at *
  pk; rq h
  ic h
  · nx
    refine wp_bind (wp_call (H.patObj _ _ _) ?_); intro l j a c hl
    exact wp_pure (pc_weaken hi' (pc_cons hn (by omega) hl))
  · ms h
    exact wp_pure (pc_weaken hi' (pc_one hn (by omega) h))

/-! ## Functions -/

theorem bodyOrExpr_ok (i a c : Nat) : WP e (bodyOrExpr r) (PN e i) ⟨i, a, c⟩ := by
  unfold bodyOrExpr
  pk
  ic h
  · exact body_ok H _ _ _
  · exact H.expr _ _ _

omit H in
/-- Nodes before the last one, which ends where the parser is. -/
theorem wp_last {k : Kd} {lo : Nat} {l : List Nd} {b : Nd} {x p q m j aa c : Nat} (hl : Locs e.t l x p q) (hq : q ≤ m) (hb : Loc e.t b m j)
    (hrk : rk k = true) (hlo : lo = (tokAt e.t x).lo) (hlt : lt k (tokAt e.t x).k = true) :
    WP e (mk k lo (l ++ [b])) (PN e x) ⟨j, aa, c⟩ := by
  have := hb.mono
  have := hl.bounds
  obtain ⟨a'', b'', h1, _, _, h4, _⟩ := Locs.append hl hq (.one (Nat.le_refl _) hb)
  have h4 := h4 (by simp)
  subst h4
  exact wp_node (by omega) (by omega) h1 (Nat.le_refl _) (.inl hlo) (.inr hlt) (.inl ⟨hrk, rfl, by simp⟩)

theorem arrowFn_ok {x p q lo : Nat} {l : List Nd} (hl : Locs e.t l x p q) (i a c : Nat) (hq : q ≤ i)
    (hlo : lo = (tokAt e.t x).lo ∨ p = x ∧ ∃ n l', l = n :: l' ∧ lo = n.lo) (hlt : p = x ∧ l ≠ [] ∨ lt .arrow (tokAt e.t x).k = true) :
    WP e (arrowFn r lo l) (PN e x) ⟨i, a, c⟩ := by
  have key : ∀ b j a c, Loc e.t b (i + 1) j → WP e (mk .arrow lo (l ++ [b])) (PN e x) ⟨j, a, c⟩ := by
    intro b j a c hb
    have := hb.mono
    have := hl.bounds
    obtain ⟨a'', b'', h1, h2, h3, h4, _⟩ := Locs.append hl (show q ≤ i + 1 by omega) (.one (Nat.le_refl _) hb)
    have h4 := h4 (by simp)
    subst h4
    refine wp_node (by omega) (by omega) h1 (Nat.le_refl _) ?_ ?_ (.inl ⟨rfl, rfl, by simp⟩)
    · rcases hlo with h | ⟨h, n, l', h5, h6⟩
      · exact .inl h
      · have h2 := h2 (by rw [h5]; simp)
        exact .inr ⟨rfl, by omega, n, l' ++ [b], by rw [h5]; rfl, .inl h6⟩
    · rcases hlt with ⟨h, h'⟩ | h
      · have h2 := h2 h'
        exact .inl ⟨rfl, by omega, by simp⟩
      · exact .inr h
  unfold arrowFn
  nx; pk
  ic h
  · refine wp_bind (wp_call (body_ok H _ _ _) ?_); intro b j' a c ⟨_, _, hb⟩
    refine wp_bind (wp_call (opening_ok _ _ _) ?_); intro _ j2 a c ⟨h2, _⟩
    dsimp only at *
    subst h2
    ck
    exact key _ _ _ _ hb
  · refine wp_bind (wp_call (H.assign _ _ _) ?_); intro b j' a c ⟨_, _, hb⟩
    ck
    exact key _ _ _ _ hb

omit H in
theorem isAsync_ok (b : Bool) (i a c : Nat) (ha : 0 < a) :
    WP e (isAsync b (tokAt e.t i).k) (fun x s => s.i = i ∧ 0 < s.ahead ∧ (x = true → (tokAt e.t i).k = .name "async")) ⟨i, a, c⟩ := by
  unfold isAsync
  ic h
  · refine wp_bind (wp_peek2 ?_); intro _ _
    ak
    exact wp_pure ⟨rfl, by assumption, fun _ => h⟩
  · exact wp_pure ⟨rfl, ha, fun h => by cases h⟩

omit H in
theorem star_ok (i a c : Nat) : WP e star (fun _ s => i ≤ s.i ∧ s.i ≤ i + 1) ⟨i, a, c⟩ := by
  unfold star
  pk
  ic h
  · nx
    exact wp_pure ⟨by change i ≤ i + 1; omega, Nat.le_refl _⟩
  · exact wp_pure ⟨Nat.le_refl _, by change i ≤ i + 1; omega⟩

omit H in
theorem fnName_ok (i a c : Nat) : WP e fnName (fun l s => i ≤ s.i ∧ Locs e.t l i i s.i) ⟨i, a, c⟩ := by
  unfold fnName
  pk
  ic h
  · exact wp_pure ⟨Nat.le_refl _, .nil (Nat.le_refl _)⟩
  · refine wp_bind (wp_call (ident_ok _ _ _) ?_); intro b j' a c ⟨_, _, hb⟩
    ck
    exact wp_pure ⟨Nat.le_of_lt (by assumption), .one (Nat.le_refl _) hb⟩

theorem fnKw_ok {x lo : Nat} (b : Bool) (i a c : Nat) (hx : x ≤ i) (hlo : lo = (tokAt e.t x).lo) (hlt : lt .fn (tokAt e.t x).k = true) :
    WP e (fnKw r lo b) (PN e x) ⟨i, a, c⟩ := by
  unfold fnKw
  nx
  refine wp_bind (wp_call (star_ok _ _ _) ?_); intro _ j a c ⟨h1, _⟩
  refine wp_bind (wp_call (fnName_ok _ _ _) ?_); intro id j2 a c ⟨h2, h3⟩
  rq h4; ms h5
  refine wp_bind (wp_call (H.params _ _ _) ?_); intro ps j3 a c ⟨h6, _, hc, p1, q, hq, hl⟩
  pk; rq h7
  refine wp_bind (wp_call (bodyOrExpr_ok H _ _ _) ?_); intro bd j4 a c ⟨_, _, hb⟩
  dsimp only at *
  ck
  obtain ⟨a'', b'', h8, _, _, h10, h11⟩ := Locs.append h3 (show j2 ≤ j2 + 1 by omega) hl
  have hb'' : b'' ≤ j3 := by
    by_cases hp : ps = []
    · have := h11 hp; omega
    · have := h10 hp; omega
  refine wp_bind (wp_call (wp_last (h8.weaken (show x ≤ j by omega)) hb'' hb rfl hlo hlt) ?_); intro f j5 a c ⟨_, _, hf⟩
  dsimp only at *
  pk
  ic h12
  · refine wp_bind (wp_call (H.callRest _ _ _ _ _ _ _ _ _ hf (.inl rfl) (.inr (.self _))) ?_); intro n j a c h
    exact wp_pure h.1
  · exact wp_pure ⟨by assumption, by assumption, hf⟩

theorem asyncArgs_ok {y p : Nat} {id : List Nd} (i a c : Nat) (hid : Locs e.t id y p i) :
    WP e (asyncArgs r id) (fun l s => (l = (id, true) ∧ s.i = i ∧ (tokAt e.t i).k = .pu .arrow ∧ (tokAt e.t i).nl = false) ∨
      l.2 = false ∧ PC e (.pu .parenR) i l.1 s) ⟨i, a, c⟩ := by
  unfold asyncArgs
  pkT
  ic h
  · simp at h
    exact wp_pure (.inl ⟨rfl, rfl, h.1.2, h.2⟩)
  · ms h2
    refine wp_bind (wp_call (H.args _ _ _ _) ?_); intro l j a c hl
    exact wp_pure (.inr ⟨rfl, pc_weaken (by omega) hl⟩)

/-- What `async` is found to be is located from there on. -/
def PA (e : Env) (x : Nat) (n : AsyncRes) (s : S) : Prop :=
  match n with
  | .arrow n | .fn n | .call n => PN e x n s

omit H in
theorem Locs.tight {t : List T} {l : List Nd} {i a b : Nat} (h : Locs t l i a b) (hl : l ≠ []) : Locs t l a a b := by
  cases h with
  | nil h => exact absurd rfl hl
  | one h1 h2 => exact .one (Nat.le_refl _) h2
  | cons h1 h2 h3 => exact .cons (Nat.le_refl _) h2 h3

theorem asyncTail_ok {x : Nat} {as : Nd} (has : Loc e.t as x (x + 1)) (hlo : as.lo = (tokAt e.t x).lo) (hk : (tokAt e.t x).k = .name "async")
    (a c : Nat) : WP e (asyncTail r as) (PA e x) ⟨x + 1, a, c⟩ := by
  unfold asyncTail
  refine wp_bind (wp_call (star_ok _ _ _) ?_); intro gen j a c ⟨h1, _⟩
  refine wp_bind (wp_call (fnName_ok _ _ _) ?_); intro id j2 a c ⟨h2, h3⟩
  dsimp only at *
  refine wp_bind (wp_call (asyncArgs_ok H _ _ _ h3) ?_); intro l j3 a c hl
  have harg : j2 ≤ j3 ∧ ∃ p q, Locs e.t l.1 j p q ∧ q ≤ j3 := by
    rcases hl with ⟨hl, h, _⟩ | ⟨_, h1, _, _, p, q, hq, hl⟩
    · dsimp only at *
      subst h
      exact ⟨Nat.le_refl _, j, j3, by rw [hl]; exact h3, Nat.le_refl _⟩
    · dsimp only at *
      exact ⟨by omega, p, q, hl.weaken h2, by omega⟩
  obtain ⟨hj3, p, q, harg, hq⟩ := harg
  obtain ⟨args, one⟩ := l
  dsimp only at *
  pkT
  ic h4
  · refine wp_bind (wp_call (targets_ok harg _ _ _) ?_); intro ps j4 a c ⟨h5, p', q', h6, h7⟩
    dsimp only at h5
    subst h5
    nx
    refine wp_bind (wp_call (bodyOrExpr_ok H _ _ _) ?_); intro bd j4 a c ⟨_, _, hb⟩
    ck
    refine wp_bind (wp_call (wp_last (h6.weaken (show x ≤ j by omega)) (by omega) hb rfl hlo (by simp [lt, hk])) ?_); intro f j5 a c hf
    exact wp_pure hf
  have hl2 : one = false ∧ PC e (.pu .parenR) j2 args ⟨j3, a, c⟩ := by
    rcases hl with ⟨h, h', h5, h6⟩ | h
    · subst h'
      simp [h5, h6] at h4
    · exact h
  obtain ⟨hone, hj3', hlen, hc, p2, q2, hq2, hl2⟩ := hl2
  subst hone
  dsimp only at *
  ic h5
  · refine wp_bind (wp_call (targets_ok hl2 _ _ _) ?_); intro ps j4 a c ⟨h5, p', q', h6, h7⟩
    dsimp only at h5
    subst h5
    refine wp_bind (wp_call (body_ok H _ _ _) ?_); intro bd j6 a c ⟨_, _, hb⟩
    ck
    obtain ⟨a'', b'', h8, _, _, h10, h11⟩ := Locs.append h3 (Nat.le_refl _) h6
    have hb'' : b'' ≤ j4 := by
      by_cases hp : ps = []
      · have := h11 hp; omega
      · have := h10 hp; omega
    refine wp_bind (wp_call (wp_last (h8.weaken (show x ≤ j by omega)) (by omega) hb rfl hlo (by simp [lt, hk])) ?_); intro f j5 a c hf
    exact wp_pure hf
  ic h6
  · have hrhs : ∀ a c, WP e (starRhs as.lo args) (fun n s => s.i = j3 ∧ ∃ p q, j2 ≤ p ∧ q ≤ j3 ∧ Loc e.t n p q) ⟨j3, a, c⟩ := by
      intro a c
      unfold starRhs
      split
      · exact wp_fail
      · cases hl2 with
        | one h1 h2 => exact wp_pure ⟨rfl, p2, q2, h1, by omega, h2⟩
      · have hne : args ≠ [] := by assumption
        have hb := hl2.bounds.2 hne
        exact wp_mk (by omega) ⟨rfl, p2, j3, hb.1, Nat.le_refl _,
          .starSeq (show x < p2 by omega) hk hlo (by omega) hlen (hl2.tight hne) hne (by omega) hc rfl⟩
    refine wp_bind (wp_call (hrhs _ _) ?_); intro n j4 a c ⟨h7, p, q, h8, h9, h10⟩
    dsimp only at h7
    subst h7
    refine wp_bind (wp_call (wp_node (show x < j4 by omega) hlen (.cons (Nat.le_refl _) has (.one (show x + 1 ≤ p by omega) h10)) h9 (.inl hlo)
      (.inl ⟨rfl, rfl, by simp⟩) (.inr (by simp [rt, hc]))) ?_)
    intro n j a c h
    exact wp_pure h
  · ck
    obtain ⟨b', h7, h8, h9, h10⟩ := Locs.push (Nat.le_refl _) has (show x + 1 ≤ j2 by omega) hl2
    refine wp_bind (wp_call (wp_node (show x < j3 by omega) hlen h7 (by omega) (.inl hlo)
      (.inl ⟨rfl, rfl, by simp⟩) (.inr (by simp [rt, hc]))) ?_)
    intro n j a c h
    exact wp_pure h

omit H in
theorem asyncTok_ok (i a c : Nat) :
    WP e asyncTok (fun n s => s.i = i + 1 ∧ Loc e.t n i (i + 1) ∧ n.lo = (tokAt e.t i).lo) ⟨i, a, c⟩ := by
  unfold asyncTok
  pkT; nx
  exact wp_mk (by omega) ⟨rfl, .leaf rfl (by assumption), rfl⟩

theorem asyncExpr_ok (i a c : Nat) (hk : (tokAt e.t i).k = .name "async") : WP e (asyncExpr r) (PN e i) ⟨i, a, c⟩ := by
  unfold asyncExpr
  refine wp_bind (wp_call (asyncTok_ok _ _ _) ?_); intro as j a c ⟨h1, h2, h3⟩
  dsimp only at h1
  subst h1
  pk
  ic h
  · exact fnKw_ok H _ _ _ _ (by omega) h3 (by simp [lt, hk])
  refine wp_bind (wp_call (asyncTail_ok H h2 h3 hk _ _) ?_); intro n j a c h
  cases n with
  | arrow n => exact wp_pure h
  | call n => exact wp_pure h
  | fn n =>
    obtain ⟨_, _, hf⟩ := h
    dsimp only at *
    pk
    ic h12
    · refine wp_bind (wp_call (H.callRest _ _ _ _ _ _ _ _ _ hf (.inl rfl) (.inr (.self _))) ?_); intro n j a c h
      exact wp_pure h.1
    · exact wp_pure ⟨by assumption, by assumption, hf⟩

/-! ## Expressions -/

omit H in
theorem Loc.hi_eq {t : List T} {n : Nd} {i j : Nat} (h : Loc t n i j) : n.hi = (tokAt t (j - 1)).hi := by
  cases h <;> first | assumption | rfl

omit H in
theorem Locs.last_hi {t : List T} : ∀ {l : List Nd} {i a b : Nat} (d : Nd), Locs t l i a b → l ≠ [] → (l.getLastD d).hi = (tokAt t (b - 1)).hi
  | [], _, _, _, _, _, h => absurd rfl h
  | [n], _, _, _, _, h, _ => by
    cases h with
    | one h1 h2 => exact h2.hi_eq
  | n :: n' :: l, _, _, _, d, h, _ => by
    cases h with
    | cons h1 h2 h3 => exact Locs.last_hi n h3 (by simp)

theorem tplRest_ok (i a c : Nat) : WP e (tplRest r) (fun l s => Parts e.t l i s.i) ⟨i, a, c⟩ := by
  unfold tplRest
  pkT
  have key1 : tplEnds (tokAt e.t i).k = true → ∀ a c, WP e (do chk; next; return [tplText (tokAt e.t i)]) (fun l s => Parts e.t l i s.i) ⟨i, a, c⟩ := by
    intro h a c
    ck; nx
    exact wp_pure (.last (by assumption) h)
  have key2 : tplOpens (tokAt e.t i).k = true → ∀ a c, WP e (do chk; next; let x ← r.expr; let l ← r.tplRest; return tplText (tokAt e.t i) :: x :: l)
      (fun l s => Parts e.t l i s.i) ⟨i, a, c⟩ := by
    intro h a c
    ck; nx
    refine wp_bind (wp_call (H.expr _ _ _) ?_); intro bd j5 a c ⟨_, _, hb⟩
    refine wp_bind (wp_call (H.tplRest _ _ _) ?_); intro l j6 a c hl
    exact wp_pure (.more (by assumption) h hb hl)
  cases hk : (tokAt e.t i).k <;> simp only [] <;>
    first
    | exact key1 (by rw [hk]; rfl) _ _
    | exact key2 (by rw [hk]; rfl) _ _
    | exact wp_fail

theorem tpl_ok (i a c : Nat) (hk : isTplHead (tokAt e.t i).k = true) : WP e (tpl r) (PN e i) ⟨i, a, c⟩ := by
  unfold tpl
  pkT
  refine wp_bind (wp_call (H.tplRest _ _ _) ?_); intro l j a c hl
  have := hl.mono
  dsimp only at *
  exact wp_mk (by omega) ⟨this.1, this.2, .tpl hl hk rfl rfl⟩

/-- A node that continues another one. -/
def PS1 (e : Env) (x : Nat) (n0 n : Nd) (s : S) : Prop := PN e x n s ∧ ∀ y, Lft n0 y → Lft n y

theorem tagged_ok {x m : Nat} {tag : Nd} (h : Loc e.t tag x m) (i a c : Nat) (hm : m ≤ i) (hk : isTplHead (tokAt e.t i).k = true) :
    WP e (tagged r tag) (PS1 e x tag) ⟨i, a, c⟩ := by
  unfold tagged
  rq hc; pkT
  refine wp_bind (wp_call (H.tplRest _ _ _) ?_); intro l j a c hl
  have := hl.mono
  have := h.mono
  dsimp only at *
  exact wp_mk (by omega) ⟨⟨by change x < j; omega, by change j ≤ _; omega, .tagged h hm hl hk rfl rfl⟩, fun y hy => .step rfl hy⟩

theorem spread_ok (i a c : Nat) (ha : 0 < a) (hk : (tokAt e.t i).k = .pu .dots) : WP e (spread r) (PN e i) ⟨i, a, c⟩ := by
  unfold spread
  rg; nx
  refine wp_bind (wp_call (H.assign _ _ _) ?_); intro n j a c ⟨_, _, hn⟩
  dsimp only at *
  pk
  exact wp_node (by omega) (by omega) (.one (by omega) hn) (Nat.le_refl _) (.inl rfl) (.inr (by simp [lt, hk])) (.inl ⟨rfl, rfl, by simp⟩)

theorem arg_ok (i a c : Nat) : WP e (arg r) (PN e i) ⟨i, a, c⟩ := by
  unfold arg
  pk
  ic h
  · exact spread_ok H _ _ _ (by omega) h
  · exact H.assign _ _ _

theorem args_ok (i a c : Nat) (b : Bool) : WP e (args r b) (fun l s => PC e (.pu .parenR) i l.1 s) ⟨i, a, c⟩ := by
  unfold args
  pk
  ic h
  · nx
    exact wp_pure (pc_nil ‹_› h)
  refine wp_bind (wp_call (arg_ok H _ _ _) ?_); intro n j a c ⟨_, _, hn⟩
  dsimp only at *
  pk
  ic h
  · nx; rq h2; pk; ck
    refine wp_bind (wp_call (H.args _ _ _ _) ?_); intro l j a c hl
    exact wp_pure (pc_cons hn (by omega) hl)
  · ms h
    ck
    exact wp_pure (pc_one hn (by omega) h)

omit H in
theorem inParens_ok {l : List Nd} {x p q : Nat} (hl : Locs e.t l x p q) (i a c : Nat) :
    WP e (inParens l) (fun n s => s.i = i ∧ ∃ p' q', x ≤ p' ∧ q' ≤ q ∧ Loc e.t n p' q') ⟨i, a, c⟩ := by
  unfold inParens
  split
  · exact wp_fail
  · cases hl with
    | one h1 h2 => exact wp_pure ⟨rfl, p, q, h1, Nat.le_refl _, h2⟩
  · rename_i n l hne
    have hb := hl.bounds.2 (by simp)
    refine wp_pure ⟨rfl, p, q, hb.1, Nat.le_refl _, ?_⟩
    refine .node (by omega) (by omega) (hl.tight (by simp)) (Nat.le_refl _) (hl.last_hi _ (by simp)) (.inr ⟨rfl, rfl, _, _, rfl, .inl rfl⟩)
      (.inl ⟨rfl, rfl, by simp⟩) (.inl ⟨rfl, rfl, by simp⟩)

theorem parenE_ok (i a c : Nat) (ha : 0 < a) : WP e (parenE r) (PN e i) ⟨i, a, c⟩ := by
  unfold parenE
  rg; ms h
  refine wp_bind (wp_call (H.args _ _ _ _) ?_); intro l j a c ⟨_, _, hc, p, q, hq, hl⟩
  dsimp only at *
  pkT
  ic h2
  · refine wp_bind (wp_call (targets_ok hl _ _ _) ?_); intro ps j4 a c ⟨h5, p', q', h6, h7⟩
    dsimp only at h5
    subst h5
    exact arrowFn_ok H (h6.weaken (by omega)) _ _ _ (by omega) (.inl rfl) (.inr (by simp [lt, h]))
  · rq h3; ck
    refine wp_bind (wp_call (inParens_ok hl _ _ _) ?_); intro n j4 a c ⟨h5, p', q', h6, h7, hn⟩
    dsimp only at h5
    subst h5
    exact wp_node (by omega) (by omega) (.one (by omega) hn) (by omega) (.inl rfl) (.inr (by simp [lt, h])) (.inr (by simp [rt, hc]))

theorem arrRest_ok (i a c : Nat) : WP e (arrRest r) (PC e (.pu .brackR) i) ⟨i, a, c⟩ := by
  unfold arrRest
  pk
  ic h
  · nx
    exact wp_call (H.arrRest _ _ _) fun _ _ _ _ h => pc_weaken (by omega) h
  ic h
  · nx
    exact wp_pure (pc_nil ‹_› h)
  refine wp_bind (wp_call (arg_ok H _ _ _) ?_); intro n j a c ⟨_, _, hn⟩
  dsimp only at *
  pk
  ic h
  · nx
    refine wp_bind (wp_call (H.arrRest _ _ _) ?_); intro l j a c hl
    exact wp_pure (pc_cons hn (by omega) hl)
  · ms h
    exact wp_pure (pc_one hn (by omega) h)

theorem propData_ok (i a c : Nat) : WP e (propData r) (PN e i) ⟨i, a, c⟩ := by
  unfold propData
  refine wp_bind (wp_call (propName_ok H _ _ _) ?_); intro x j a c h
  cases x with
  | inr n => exact wp_pure h
  | inl k =>
    obtain ⟨h1, h2⟩ := h
    have hj := h1.1
    have hj' := h1.2.1
    obtain ⟨p, m, h3, h4, h5, h6, h7⟩ := h1.out
    dsimp only at *
    pk
    have hlo : ∀ {kd : Kd} {l : List Nd}, lk kd = true → keyLo k.1 k.2 = (tokAt e.t i).lo ∨ lk kd = true ∧ p = i ∧ ∃ n l', k.2 :: l = n :: l' ∧ (keyLo k.1 k.2 = n.lo ∨ kd = .call ∧ Lft n (keyLo k.1 k.2)) := by
      intro kd l hk
      rcases h6 with h | ⟨h, h'⟩
      · exact .inl h
      · exact .inr ⟨hk, h, _, _, rfl, .inl h'⟩
    ic h8
    · nx
      refine wp_bind (wp_call (H.assign _ _ _) ?_); intro v j' a c ⟨_, _, hv⟩
      dsimp only at *
      refine wp_node (show i < j' by omega) (by omega) (.cons h3 h5 (.one (by omega) hv)) (Nat.le_refl _) (hlo rfl) ?_ (.inl ⟨rfl, rfl, by simp⟩)
      rcases h7 with h | h
      · exact .inl ⟨rfl, h.1, by simp⟩
      · exact .inr (by simp [lt, h])
    ic h8
    · nx
      refine wp_bind (wp_call (H.assign _ _ _) ?_); intro v j' a c ⟨_, _, hv⟩
      dsimp only at *
      refine wp_node (show i < j' by omega) (by omega) (.cons h3 h5 (.one (by omega) hv)) (Nat.le_refl _) (hlo rfl) ?_ (.inl ⟨rfl, rfl, by simp⟩)
      rcases h7 with h | h
      · exact .inl ⟨rfl, h.1, by simp⟩
      · exact .inr (by simp [lt, h])
    ic h8
    · refine methodTail_ok H h3 h5 h6 ?_ _ _ _ h4 (by assumption)
      rcases h7 with h7 | h7
      · exact .inl h7.1
      · exact .inr (by simp [lt, h7])
    · rq h9; ck
      rcases h7 with h | h
      · refine wp_node (show i < j by omega) (by omega) (.one h3 h5) (by omega) (hlo rfl) (.inl ⟨rfl, h.1, by simp⟩) (.inl ⟨rfl, h.2, by simp⟩)
      · rw [Option.isNone_iff_eq_none] at h9
        rw [h9] at h
        simp at h

theorem objProp_ok (i a c : Nat) : WP e (objProp r) (PN e i) ⟨i, a, c⟩ := by
  unfold objProp
  pk
  refine wp_bind (wp_call (isAsync_ok _ _ _ _ (by omega)) ?_); intro b j a c ⟨h1, h2, h3⟩
  dsimp only at *
  subst h1
  ic h
  · exact spread_ok H _ _ _ (by omega) h
  ic h
  · rg; nx
    refine wp_bind (wp_call (propKey2_ok H _ _ _) ?_); intro n' j' a' c' ⟨h', ha'⟩
    obtain ⟨p, m, h3, h4, h5, h6, h7⟩ := h'.out
    dsimp only at *
    exact methodTail_ok H (by omega) h5 (.inl rfl) (.inr (by simp [lt, h])) _ _ _ h4 ha'
  ic h
  · rg; nx
    refine wp_bind (wp_call (star_ok _ _ _) ?_); intro gen j2 a c ⟨h1, _⟩
    refine wp_bind (wp_call (propKey2_ok H _ _ _) ?_); intro n' j' a' c' ⟨h', ha'⟩
    obtain ⟨p, m, h3', h4, h5, h6, h7⟩ := h'.out
    dsimp only at *
    exact methodTail_ok H (by omega) h5 (.inl rfl) (.inr (by simp [lt, h3 h])) _ _ _ h4 ha'
  · exact propData_ok H _ _ _

theorem objRest_ok (i a c : Nat) : WP e (objRest r) (PC e (.pu .braceR) i) ⟨i, a, c⟩ := by
  unfold objRest
  pk
  ic h
  · nx
    exact wp_pure (pc_nil ‹_› h)
  refine wp_bind (wp_call (objProp_ok H _ _ _) ?_); intro n j a c ⟨_, _, hn⟩
  dsimp only at *
  pk
  ic h
  · nx
    refine wp_bind (wp_call (H.objRest _ _ _) ?_); intro l j a c hl
    exact wp_pure (pc_cons hn (by omega) hl)
  · ms h
    exact wp_pure (pc_one hn (by omega) h)

theorem primary_ok (i a c : Nat) : WP e (primary r) (PN e i) ⟨i, a, c⟩ := by
  unfold primary
  pkT
  ic h
  · exact leaf_ok rfl _ _ _
  ic h
  · ck
    exact leaf_ok rfl _ _ _
  ic h
  · refine wp_bind (wp_call (isAsync_ok _ _ _ _ (by omega)) ?_); intro b j a c ⟨h1, h2, h3⟩
    dsimp only at *
    subst h1
    ic hb
    · exact asyncExpr_ok H _ _ _ (h3 hb)
    · nx; pk; ck
      exact wp_leaf rfl ‹_›
  ic h
  · rg
    exact fnKw_ok H _ _ _ _ (by omega) rfl (by simp [lt, h])
  ic h
  · ck; nx; pk; rq h1
    exact wp_leaf rfl ‹_›
  ic h
  · exact parenE_ok H _ _ _ (by omega)
  ic h
  · rg; nx
    refine wp_bind (wp_call (H.arrRest _ _ _) ?_); intro l j a c ⟨_, _, hc, p, q, hq, hl⟩
    dsimp only at *
    exact wp_node (by omega) (by omega) (hl.weaken (by omega)) (by omega) (.inl rfl) (.inr (by simp [lt, *])) (.inr (by simp [rt, hc]))
  ic h
  · rg; nx
    refine wp_bind (wp_call (H.objRest _ _ _) ?_); intro l j a c ⟨_, _, hc, p, q, hq, hl⟩
    dsimp only at *
    exact wp_node (by omega) (by omega) (hl.weaken (by omega)) (by omega) (.inl rfl) (.inr (by simp [lt, *])) (.inr (by simp [rt, hc]))
  ic h
  · exact tpl_ok H _ _ _ h
  · exact wp_fail

omit H in
theorem dot_ok {x m : Nat} {obj : Nd} (h : Loc e.t obj x m) (a c : Nat) (hlen : m < e.t.length)
    (hk : (tokAt e.t m).k = .pu .dot ∨ (tokAt e.t m).k = .pu .optChain ∧ 0 < a) : WP e (dot obj) (PS1 e x obj) ⟨m + 1, a, c⟩ := by
  have := h.mono
  have key : ∀ nlo, nlo = (tokAt e.t (m + 1)).lo ∨ nlo = (tokAt e.t m).hi ∧ (tokAt e.t m).k = .pu .dot → ∀ a c,
      WP e (do let t ← take; req (isDotKey t.k); chk; let n ← mk .dotName nlo []; mk .member obj.lo [obj, n]) (PS1 e x obj) ⟨m + 1, a, c⟩ := by
    intro nlo hn a c
    tk; rq h1; ck
    refine wp_bind (wp_mk (by omega) ?_)
    refine wp_mk (by omega) ⟨⟨by change x < m + 2; omega, by change m + 2 ≤ _; omega, ?_⟩, fun y hy => .step rfl hy⟩
    exact .member h (by omega) (by rcases hk with h | h; exact .inl h; exact .inr h.1) rfl rfl hn rfl
  unfold dot
  refine wp_bind (wp_rng' (by omega) ?_ ?_)
  · intro _
    exact key _ (.inl rfl) _ _
  · intro ha
    refine key _ (.inr ⟨rfl, ?_⟩) _ _
    rcases hk with h | h
    · exact h
    · omega

theorem subscript_ok {x m : Nat} {obj : Nd} (h : Loc e.t obj x m) (i a c : Nat) (hi : m ≤ i) :
    WP e (subscript r obj) (PS1 e x obj) ⟨i, a, c⟩ := by
  have := h.mono
  unfold subscript
  nx
  refine wp_bind (wp_call (H.expr _ _ _) ?_); intro n j a c ⟨_, _, hn⟩
  dsimp only at *
  ms h1
  refine wp_mk (by omega) ⟨⟨by change x < j + 1; omega, by change j + 1 ≤ _; omega, ?_⟩, fun y hy => .step rfl hy⟩
  show Loc e.t _ x (j + 1)
  exact .node (show x < j + 1 by omega) (by omega) (.cons (Nat.le_refl _) h (.one (by omega) hn)) (by omega) rfl (.inr ⟨rfl, rfl, _, _, rfl, .inl rfl⟩)
    (.inl ⟨rfl, rfl, by simp⟩) (.inr (by simp [rt, h1]))

omit H in
theorem chain_ok {x m : Nat} {n : Nd} (h : Loc e.t n x m) (b : Bool) : Loc e.t (chain b n) x m ∧ ∀ y, Lft n y → Lft (chain b n) y := by
  have := h.mono
  unfold chain
  split
  · exact ⟨.node this.1 this.2 (.one (Nat.le_refl _) h) (Nat.le_refl _) h.hi_eq (.inr ⟨rfl, rfl, _, _, rfl, .inl rfl⟩)
      (.inl ⟨rfl, rfl, by simp⟩) (.inl ⟨rfl, rfl, by simp⟩), fun y hy => .step rfl hy⟩
  · exact ⟨h, fun y hy => hy⟩

theorem callRest_ok {x m lo : Nat} {n : Nd} (h : Loc e.t n x m) (hlo : lo = (tokAt e.t x).lo ∨ Lft n lo) (i a c : Nat) (b b' : Bool)
    (hi : i = m ∨ m ≤ i ∧ (tokAt e.t i).k = .pu .parenL) : WP e (callRest r lo n b b') (PS e x n) ⟨i, a, c⟩ := by
  have hm := h.mono
  unfold callRest
  pk
  ic h1
  · nx
    refine wp_bind (wp_call (H.args _ _ _ _) ?_); intro l j a c ⟨_, _, hc, p, q, hq, hl⟩
    dsimp only at *
    ck
    refine wp_bind (wp_mk (by omega) ?_)
    obtain ⟨b', h7, h8, h9, h10⟩ := Locs.push (Nat.le_refl _) h (show m ≤ i + 1 by omega) hl
    have hn : Loc e.t (.node .call lo (tokAt e.t (j - 1)).hi (n :: l.1)) x j := by
      refine .node (by omega) (by omega) h7 (by omega) rfl ?_ (.inl ⟨rfl, rfl, by simp⟩) (.inr (by simp [rt, hc]))
      rcases hlo with h | h
      · exact .inl h
      · exact .inr ⟨rfl, rfl, _, _, rfl, .inr ⟨rfl, h⟩⟩
    refine wp_call (H.callRest _ _ _ _ _ _ _ _ _ hn (.inl rfl) ?_) ?_
    · rcases hlo with h | h
      · exact .inl h
      · exact .inr (.step rfl h)
    · exact fun _ _ _ _ h => ⟨h.1, fun y hy => h.2 y (.step rfl hy)⟩
  have hi : i = m := by
    rcases hi with h | ⟨_, h⟩
    · exact h
    · exact absurd h h1
  subst hi
  ic h1
  · refine wp_bind (wp_call (H.memRest _ _ _ _ _ _ _ _ h) ?_); intro l j a c hl
    refine wp_call (H.callRest _ _ _ _ _ _ _ _ _ hl.1.2.2 (.inl rfl) ?_) ?_
    · rcases hlo with h | h
      · exact .inl h
      · exact .inr (hl.2 _ h)
    · exact fun _ _ _ _ h => ⟨h.1, fun y hy => h.2 y (hl.2 _ hy)⟩
  ic h1
  · refine wp_bind (wp_call (tagged_ok H h _ _ _ (Nat.le_refl _) h1) ?_); intro l j a c hl
    refine wp_call (H.callRest _ _ _ _ _ _ _ _ _ hl.1.2.2 (.inl rfl) ?_) ?_
    · rcases hlo with h | h
      · exact .inl h
      · exact .inr (hl.2 _ h)
    · exact fun _ _ _ _ h => ⟨h.1, fun y hy => h.2 y (hl.2 _ hy)⟩
  · have := chain_ok h (b && b' && !isName n && n.kd ≠ .chain)
    exact wp_pure ⟨⟨hm.1, hm.2, this.1⟩, this.2⟩

theorem optional_ok {x m : Nat} {obj : Nd} (h : Loc e.t obj x m) (a c : Nat) (hlen : m < e.t.length) (hk : (tokAt e.t m).k = .pu .optChain) :
    WP e (optional r obj) (PS1 e x obj) ⟨m + 1, a, c⟩ := by
  unfold optional
  pk
  ic h1
  · exact subscript_ok H h _ _ _ (by omega)
  ic h1
  · refine wp_bind (wp_call (H.callRest _ _ _ _ _ _ _ _ _ h (.inr ⟨by omega, h1⟩) (.inr (.self _))) ?_); intro n j a c h
    exact wp_pure h
  · exact dot_ok h _ _ hlen (.inr ⟨hk, by omega⟩)

theorem memRest_ok {x m : Nat} {n : Nd} (h : Loc e.t n x m) (a c : Nat) (b b' b'' : Bool) :
    WP e (memRest r n b b' b'') (PS e x n) ⟨m, a, c⟩ := by
  have hm := h.mono
  unfold memRest
  pk
  have next_ : ∀ (l : Nd) (j a c : Nat) (b b' b'' : Bool), PS1 e x n l ⟨j, a, c⟩ → WP e (r.memRest l b b' b'') (PS e x n) ⟨j, a, c⟩ := by
    intro l j a c b b' b'' hl
    exact wp_call (H.memRest _ _ _ _ _ _ _ _ hl.1.2.2) fun _ _ _ _ h => ⟨h.1, fun y hy => h.2 y (hl.2 _ hy)⟩
  ic h1
  · nx
    refine wp_bind (wp_call (optional_ok H h _ _ (by omega) h1) ?_); intro l j a c hl
    exact next_ _ _ _ _ _ _ _ hl
  ic h1
  · refine wp_bind (wp_call (subscript_ok H h _ _ _ (Nat.le_refl _)) ?_); intro l j a c hl
    exact next_ _ _ _ _ _ _ _ hl
  ic h1
  · nx
    refine wp_bind (wp_call (dot_ok h _ _ (by omega) (.inl h1)) ?_); intro l j a c hl
    exact next_ _ _ _ _ _ _ _ hl
  ck
  ic h2
  · exact H.callRest _ _ _ _ _ _ _ _ _ h (.inl rfl) (.inr (.self _))
  · have := chain_ok h (b' && b'' && !isName n)
    exact wp_pure ⟨⟨hm.1, hm.2, this.1⟩, this.2⟩

theorem newRest_ok {x m : Nat} {n : Nd} (h : Loc e.t n x m) (a c : Nat) (b : Bool) : WP e (newRest r n b) (PN e x) ⟨m, a, c⟩ := by
  have hm := h.mono
  unfold newRest
  pk
  ic h1
  · refine wp_bind (wp_call (H.callRest _ _ _ _ _ _ _ _ _ h (.inl rfl) (.inr (.self _))) ?_); intro l j a c hl
    exact H.newRest _ _ _ _ _ _ hl.1.2.2
  ic h1
  · ak
    refine wp_bind (wp_call (H.memRest _ _ _ _ _ _ _ _ h) ?_); intro l j a c hl
    exact H.newRest _ _ _ _ _ _ hl.1.2.2
  · exact wp_pure ⟨hm.1, hm.2, h⟩

theorem memObj_ok (i a c : Nat) : WP e (memObj r) (PN e i) ⟨i, a, c⟩ := by
  unfold memObj
  pk
  ic h
  · exact H.newE _ _ _ (by omega) h
  refine wp_bind (wp_call (primary_ok H _ _ _) ?_); intro l j a c hl
  pk
  ic h
  · exact wp_call (tagged_ok H hl.2.2 _ _ _ (Nat.le_refl _) h) fun _ _ _ _ h => h.1
  · exact wp_pure hl

theorem newArgs_ok {x m : Nat} {n : Nd} (h : Loc e.t n x m) (a c : Nat) :
    WP e (newArgs r n) (fun l s => s.i ≤ e.t.length ∧ l ≠ [] ∧ ∃ b, Locs e.t l x x b ∧ b ≤ s.i ∧ (b = s.i ∨ (tokAt e.t (s.i - 1)).k = .pu .parenR)) ⟨m, a, c⟩ := by
  have hm := h.mono
  unfold newArgs
  pk
  ic h1
  · nx
    refine wp_bind (wp_call (H.args _ _ _ _) ?_); intro l j a c ⟨_, _, hc, p, q, hq, hl⟩
    dsimp only at *
    pk
    ic h2
    · refine wp_bind (wp_call (tagged_ok H h _ _ _ (by omega) (by simp at h2; exact h2.2)) ?_); intro n' j a c ⟨hn, _⟩
      have := hn.1
      have h3 := hn.2.2.mono
      dsimp only at *
      exact wp_pure ⟨hn.2.1, by simp, j, .one (Nat.le_refl _) hn.2.2, Nat.le_refl _, .inl rfl⟩
    · obtain ⟨b', h7, h8, h9, h10⟩ := Locs.push (Nat.le_refl _) h (show m ≤ m + 1 by omega) hl
      exact wp_pure ⟨by assumption, by simp, b', h7, by change b' ≤ j; omega, .inr hc⟩
  · exact wp_pure ⟨hm.2, by simp, m, .one (Nat.le_refl _) h, Nat.le_refl _, .inl rfl⟩

theorem newE_ok (i a c : Nat) (ha : 0 < a) (hk : (tokAt e.t i).k = .kw .new_) : WP e (newE r) (PN e i) ⟨i, a, c⟩ := by
  unfold newE
  rg; nx
  refine wp_bind (wp_fin (by omega) ?_)
  pk
  ic h1
  · unfold newTarget
    nx
    refine wp_bind (wp_call (ident_ok _ _ _) ?_); intro n j a c ⟨_, _, hn⟩
    dsimp only at *
    ck
    exact wp_node (by omega) (by omega) (.cons (Nat.le_refl _) (.leaf rfl (by omega)) (.one (by omega) hn)) (Nat.le_refl _) (.inl rfl)
      (.inr (by simp [lt, hk])) (.inl ⟨rfl, rfl, by simp⟩)
  refine wp_bind (wp_call (memObj_ok H _ _ _) ?_); intro n j a c ⟨_, _, hn⟩
  refine wp_bind (wp_call (H.memRest _ _ _ _ _ _ _ _ hn) ?_); intro n2 j2 a c ⟨⟨_, _, hn2⟩, _⟩
  dsimp only at *
  rq h2; ck
  refine wp_bind (wp_call (newArgs_ok H hn2 _ _) ?_); intro l j3 a c ⟨h4, h5, b, h6, h7, h8⟩
  have := h6.bounds.2 h5
  dsimp only at *
  refine wp_bind (wp_call (wp_node (show i < j3 by omega) (by omega) (h6.weaken (by omega)) h7 (.inl rfl) (.inr (by simp [lt, hk])) ?_) ?_)
  · rcases h8 with h | h
    · exact .inl ⟨rfl, h, h5⟩
    · exact .inr (by simp [rt, h])
  · intro n4 j4 a c hn4
    exact H.newRest _ _ _ _ _ _ hn4.2.2

theorem lhs1_ok (i a c : Nat) : WP e (lhs1 r) (PN e i) ⟨i, a, c⟩ := by
  unfold lhs1
  pk
  ic h
  · exact H.newE _ _ _ (by omega) h
  rg
  refine wp_bind (wp_call (primary_ok H _ _ _) ?_); intro n j a c ⟨_, _, hn⟩
  refine wp_bind (wp_call (H.callRest _ _ _ _ _ _ _ _ _ hn (.inl rfl) (.inl rfl)) ?_); intro l j a c hl
  exact wp_pure hl.1

theorem lhs_ok (i a c : Nat) : WP e (lhs r) (PN e i) ⟨i, a, c⟩ := by
  unfold lhs
  refine wp_bind (wp_call (lhs1_ok H _ _ _) ?_); intro n j a c hn
  pk
  ic h
  · refine wp_bind (wp_call (H.callRest _ _ _ _ _ _ _ _ _ hn.2.2 (.inl rfl) (.inr (.self _))) ?_); intro l j a c hl
    exact wp_pure hl.1
  · exact wp_pure hn

theorem update_ok (i a c : Nat) (ha : 0 < a) : WP e (update r) (PN e i) ⟨i, a, c⟩ := by
  unfold update
  rg; pk
  ic h
  · nx
    refine wp_bind (wp_call (H.unary _ _ _) ?_); intro n j a c ⟨_, _, hn⟩
    dsimp only at *
    ck
    exact wp_node (by omega) (by omega) (.one (by omega) hn) (Nat.le_refl _) (.inl rfl) (.inr h) (.inl ⟨rfl, rfl, by simp⟩)
  refine wp_bind (wp_call (lhs_ok H _ _ _) ?_); intro n j a c ⟨_, _, hn⟩
  dsimp only at *
  pkT
  ic h
  · ck; nx
    exact wp_node (by omega) (by omega) (.one (Nat.le_refl _) hn) (by omega) (.inl rfl) (.inl ⟨rfl, rfl, by simp⟩)
      (.inr (by simp at h; simp [rt, h.2]))
  · exact wp_pure ⟨by assumption, by assumption, hn⟩

theorem unary_ok (i a c : Nat) : WP e (unary r) (PN e i) ⟨i, a, c⟩ := by
  unfold unary
  pkT
  ic h
  · nx
    refine wp_bind (wp_call (H.unary _ _ _) ?_); intro n j a c ⟨_, _, hn⟩
    dsimp only at *
    ck
    exact wp_node (by omega) (by omega) (.one (by omega) hn) (Nat.le_refl _) (.inl rfl) (.inr (by simp [lt, h])) (.inl ⟨rfl, rfl, by simp⟩)
  ic h
  · nx; pk
    ic h2
    · ck
      exact wp_leaf rfl ‹_›
    · ck
      refine wp_bind (wp_call (H.unary _ _ _) ?_); intro n j a c ⟨_, _, hn⟩
      dsimp only at *
      exact wp_node (by omega) (by omega) (.one (by omega) hn) (Nat.le_refl _) (.inl rfl) (.inr (by simp [lt, h])) (.inl ⟨rfl, rfl, by simp⟩)
  · exact update_ok H _ _ _ (by omega)

theorem binInner_ok {x m : Nat} {n : Nd} (h : Loc e.t n x m) (a c p : Nat) : WP e (binInner r n p) (PN e x) ⟨m, a, c⟩ := by
  have hm := h.mono
  unfold binInner
  ak; pk
  split
  · ic h1
    · refine wp_bind (wp_call (H.binRest _ _ _ _ _ _ h) ?_); intro n j a c hn
      exact H.binInner _ _ _ _ _ _ hn.2.2
    · exact wp_pure ⟨hm.1, hm.2, h⟩
  · exact wp_pure ⟨hm.1, hm.2, h⟩

theorem binRest_ok {x m : Nat} {n : Nd} (h : Loc e.t n x m) (a c p : Nat) : WP e (binRest r n p) (PN e x) ⟨m, a, c⟩ := by
  have hm := h.mono
  unfold binRest
  ak; pk
  split
  · exact wp_pure ⟨hm.1, hm.2, h⟩
  · ic h1
    · exact wp_pure ⟨hm.1, hm.2, h⟩
    · ck; nx
      refine wp_bind (wp_call (H.unary _ _ _) ?_); intro u j a c hu
      refine wp_bind (wp_call (H.binInner _ _ _ _ _ _ hu.2.2) ?_); intro u j a c ⟨_, _, hu⟩
      dsimp only at *
      ck
      refine wp_bind (wp_call (wp_node (show x < j by omega) (by omega) (.cons (Nat.le_refl _) h (.one (by omega) hu)) (Nat.le_refl _)
        (.inr ⟨rfl, rfl, _, _, rfl, .inl rfl⟩) (.inl ⟨rfl, rfl, by simp⟩) (.inl ⟨rfl, rfl, by simp⟩)) ?_); intro n j a c hn
      exact H.binRest _ _ _ _ _ _ hn.2.2

theorem cond_ok (i a c : Nat) : WP e (cond r) (PN e i) ⟨i, a, c⟩ := by
  unfold cond
  refine wp_bind (wp_call (H.unary _ _ _) ?_); intro u j a c hu
  refine wp_bind (wp_call (H.binRest _ _ _ _ _ _ hu.2.2) ?_); intro n j a c hn
  pk
  ic h
  · obtain ⟨_, _, hn⟩ := hn
    nx
    refine wp_bind (wp_call (H.assign _ _ _) ?_); intro n1 j1 a c ⟨_, _, hn1⟩
    ms h1
    refine wp_bind (wp_call (H.assign _ _ _) ?_); intro n2 j2 a c ⟨_, _, hn2⟩
    dsimp only at *
    exact wp_node (by omega) (by omega) (.cons (Nat.le_refl _) hn (.cons (by omega) hn1 (.one (by omega) hn2))) (Nat.le_refl _)
      (.inr ⟨rfl, rfl, _, _, rfl, .inl rfl⟩) (.inl ⟨rfl, rfl, by simp⟩) (.inl ⟨rfl, rfl, by simp⟩)
  · exact wp_pure hn

theorem yieldE_ok (i a c : Nat) (ha : 0 < a) (hk : isYield (tokAt e.t i).k = true) : WP e (yieldE r) (PN e i) ⟨i, a, c⟩ := by
  unfold yieldE
  rg; nx; ck; pkT
  ic h
  · exact wp_node (by omega) (by omega) (.nil (a := i) (Nat.le_refl _)) (by omega) (.inl rfl) (.inr hk) (.inr hk)
  refine wp_bind (wp_call (star_ok _ _ _) ?_); intro gen j2 a c ⟨h1, _⟩
  refine wp_bind (wp_call (H.assign _ _ _) ?_); intro n j a c ⟨_, _, hn⟩
  dsimp only at *
  exact wp_node (by omega) (by omega) (.one (by omega) hn) (Nat.le_refl _) (.inl rfl) (.inr hk) (.inl ⟨rfl, rfl, by simp⟩)

theorem assignTail_ok {x m lo : Nat} {n : Nd} (h : Loc e.t n x m) (hlo : lo = (tokAt e.t x).lo ∨ lo = n.lo) (a c : Nat) :
    WP e (assignTail r lo n) (PN e x) ⟨m, a, c⟩ := by
  have hm := h.mono
  unfold assignTail
  pk
  split
  · nx
    refine wp_bind (wp_call (H.assign _ _ _) ?_); intro v j a c ⟨_, _, hv⟩
    refine wp_bind (wp_call (target_ok h _ _ _) ?_); intro n' j2 a c ⟨h1, i', j', h2, h3, h4, h5⟩
    dsimp only at *
    subst h1
    ck
    have := h2.mono
    refine wp_node (show x < j2 by omega) (by omega) (.cons h3 h2 (.one (by omega) hv)) (Nat.le_refl _) ?_ ?_ (.inl ⟨rfl, rfl, by simp⟩)
    · rcases hlo with h | h
      · exact .inl h
      · rcases h5 with ⟨h6, h7, h8⟩ | ⟨h6, h7, h8⟩
        · exact .inr ⟨rfl, h6, _, _, rfl, .inl (by rw [h8]; exact h)⟩
        · exact .inl (by rw [h, h6])
    · rcases h5 with ⟨h6, h7, h8⟩ | ⟨h6, h7, h8⟩
      · exact .inl ⟨rfl, h6, by simp⟩
      · exact .inr (by simp [lt, h7])
  · exact wp_pure ⟨hm.1, hm.2, h⟩

theorem assign_ok (i a c : Nat) : WP e (assign r) (PN e i) ⟨i, a, c⟩ := by
  unfold assign
  ak; pk
  ic h
  · exact yieldE_ok H _ _ _ (by omega) (by simp at h; exact h.2)
  refine wp_bind (wp_call (cond_ok H _ _ _) ?_); intro n j a c ⟨h1, h2, hn⟩
  dsimp only at *
  pkT
  ic h3
  · have hname : toPats [n] = [n] := by
      simp [isName] at h3
      obtain ⟨k, lo, hi, kids⟩ := n
      have : k = .name := h3.1.1
      subst this
      simp [toPats, toPat]
    unfold targets
    refine wp_bind (wp_bind (wp_chk ?_)); intro _
    refine wp_pure ?_
    rw [hname]
    refine wp_bind (wp_call (arrowFn_ok H (.one (Nat.le_refl _) hn) _ _ _ (Nat.le_refl _) (.inr ⟨rfl, _, _, rfl, rfl⟩) (.inl ⟨rfl, by simp⟩)) ?_)
    intro f j2 a c hf
    refine assignTail_ok H hf.2.2 (.inl ?_) _ _
    simp [isName] at h3
    obtain ⟨k, lo, hi, kids⟩ := n
    have hk : k = .name := h3.1.1
    subst hk
    cases hn with
    | leaf h => rfl
    | node h1 h2 h3 h4 h5 h6 h7 h8 =>
      rcases h6 with h | h
      · exact h
      · simp [lk] at h
  · exact assignTail_ok H hn (.inr rfl) _ _

theorem seqRest_ok (i a c : Nat) (hi : i ≤ e.t.length) : WP e (seqRest r) (PE e i) ⟨i, a, c⟩ := by
  unfold seqRest
  pk
  ic h
  · nx
    refine wp_bind (wp_call (H.assign _ _ _) ?_); intro n j a c ⟨_, _, hn⟩
    dsimp only at *
    refine wp_bind (wp_call (H.seqRest _ _ _ (by omega)) ?_); intro l j2 a c ⟨_, _, h1, a1, hl⟩
    obtain ⟨b', h7, h8, h9, h10⟩ := Locs.push (show i ≤ i + 1 by omega) hn (Nat.le_refl _) hl
    dsimp only at *
    have : b' = j2 := by
      by_cases hp : l = []
      · rw [h10 hp, h1 hp]
      · exact h9 hp
    subst this
    exact wp_pure ⟨by change i ≤ b'; omega, by assumption, (fun h => by cases h), _, h7⟩
  · exact wp_pure ⟨Nat.le_refl _, hi, fun _ => rfl, i, .nil (Nat.le_refl _)⟩

theorem seqTail_ok {x m : Nat} {n : Nd} (h : Loc e.t n x m) (a c : Nat) : WP e (seqTail r n) (PN e x) ⟨m, a, c⟩ := by
  have hm := h.mono
  unfold seqTail
  pk
  ic h1
  · refine wp_bind (wp_call (H.seqRest _ _ _ (by omega)) ?_); intro l j2 a c ⟨_, _, h1, a1, hl⟩
    obtain ⟨b', h7, h8, h9, h10⟩ := Locs.push (Nat.le_refl _) h (Nat.le_refl _) hl
    dsimp only at *
    have : b' = j2 := by
      by_cases hp : l = []
      · rw [h10 hp, h1 hp]
      · exact h9 hp
    subst this
    exact wp_node (by omega) (by omega) h7 (Nat.le_refl _) (.inr ⟨rfl, rfl, _, _, rfl, .inl rfl⟩) (.inl ⟨rfl, rfl, by simp⟩)
      (.inl ⟨rfl, rfl, by simp⟩)
  · exact wp_pure ⟨hm.1, hm.2, h⟩

theorem expr_ok (i a c : Nat) : WP e (expr r) (PN e i) ⟨i, a, c⟩ := by
  unfold expr
  refine wp_bind (wp_call (H.assign _ _ _) ?_); intro n j a c hn
  ck
  exact seqTail_ok H hn.2.2 _ _

/-! ## Statements -/

omit H in
theorem isVarDec_ok (i a c : Nat) (ha : 0 < a) :
    WP e (isVarDec (tokAt e.t i).k) (fun x s => s.i = i ∧ 0 < s.ahead ∧ (x = true → lt .varDec (tokAt e.t i).k = true)) ⟨i, a, c⟩ := by
  unfold isVarDec
  ic h
  · exact wp_pure ⟨rfl, ha, fun _ => by simp [lt, h]⟩
  ic h1
  · ak
    ic h2
    · exact wp_pure ⟨rfl, ha, fun _ => by simp [lt, h1]⟩
    · refine wp_bind (wp_grow ?_); intro _ _ _
      exact wp_pure ⟨rfl, by assumption, fun _ => by simp [lt, h1]⟩
  · exact wp_pure ⟨rfl, ha, fun h => by cases h⟩

theorem initE_ok (i a c : Nat) (hi : i ≤ e.t.length) : WP e (initE r) (PE e i) ⟨i, a, c⟩ := by
  unfold initE
  pk
  ic h
  · nx
    refine wp_bind (wp_call (H.assign _ _ _) ?_); intro n j a c ⟨_, _, hn⟩
    dsimp only at *
    exact wp_pure ⟨by change i ≤ j; omega, by assumption, (fun h => by cases h), _, .one (by omega) hn⟩
  · exact wp_pure ⟨Nat.le_refl _, hi, fun _ => rfl, i, .nil (Nat.le_refl _)⟩

omit H in
/-- A node before nodes of which the last ends where the parser is. -/
theorem pe_push {n : Nd} {l : List Nd} {i x m : Nat} {s : S} (hi : i ≤ x) (hn : Loc e.t n x m) (h : PE e m l s) :
    i < s.i ∧ s.i ≤ e.t.length ∧ Locs e.t (n :: l) i x s.i := by
  have := hn.mono
  obtain ⟨h1, h2, h3, a, h4⟩ := h
  obtain ⟨b', h7, h8, h9, h10⟩ := Locs.push hi hn (Nat.le_refl _) h4
  have hb : b' = s.i := by
    by_cases hp : l = []
    · rw [h10 hp, h3 hp]
    · exact h9 hp
  rw [hb] at h7
  exact ⟨by omega, h2, h7⟩

theorem decs_ok (i a c : Nat) : WP e (decs r) (fun l s => PE e i l s ∧ l ≠ []) ⟨i, a, c⟩ := by
  unfold decs
  refine wp_bind (wp_call (H.pat _ _ _) ?_); intro n j a c ⟨_, _, hn⟩
  dsimp only at *
  refine wp_bind (wp_call (initE_ok H _ _ _ (by omega)) ?_); intro l j2 a c hl
  obtain ⟨h1, h2, h3⟩ := pe_push (Nat.le_refl _) hn hl
  dsimp only at *
  ck
  refine wp_bind (wp_call (wp_node (show i < j2 by omega) (by omega) h3 (Nat.le_refl _)
        (.inr ⟨rfl, rfl, _, _, rfl, .inl rfl⟩) (.inl ⟨rfl, rfl, by simp⟩) (.inl ⟨rfl, rfl, by simp⟩)) ?_); intro n j a c ⟨_, _, hn⟩
  dsimp only at *
  pk
  ic h
  · nx
    refine wp_bind (wp_call (H.decs _ _ _) ?_); intro l j3 a c ⟨⟨_, _, _, a2, hl⟩, hne⟩
    dsimp only at *
    obtain ⟨b', h7, h8, h9, h10⟩ := Locs.push (Nat.le_refl _) hn (show j ≤ j + 1 by omega) hl
    have h9 := h9 hne
    subst h9
    exact wp_pure ⟨⟨by change i ≤ b'; omega, by assumption, (fun h => by cases h), _, h7⟩, by simp⟩
  · exact wp_pure ⟨⟨Nat.le_of_lt (by assumption), by assumption, (fun h => by cases h), _, .one (Nat.le_refl _) hn⟩, by simp⟩

/-- A node and perhaps a semicolon. -/
theorem varDec_ok (b : Bool) (i a c : Nat) (ha : 0 < a) (hk : lt .varDec (tokAt e.t i).k = true) : WP e (varDec r b) (PN e i) ⟨i, a, c⟩ := by
  unfold varDec
  rg; nx
  refine wp_bind (wp_call (H.decs _ _ _) ?_); intro l j3 a c ⟨⟨_, _, _, a2, hl⟩, hne⟩
  dsimp only at *
  ck
  ic h
  · exact wp_node (by omega) (by omega) (hl.weaken (by omega)) (Nat.le_refl _) (.inl rfl) (.inr hk) (.inl ⟨rfl, rfl, hne⟩)
  · refine wp_bind (wp_call (semi_ok _ _ _ _) ?_); intro _ j4 a c h
    rcases h with h | ⟨h, h', h''⟩
    · dsimp only at h
      subst h
      exact wp_node (by omega) (by omega) (hl.weaken (by omega)) (Nat.le_refl _) (.inl rfl) (.inr hk) (.inl ⟨rfl, rfl, hne⟩)
    · dsimp only at h
      subst h
      exact wp_node (by omega) (by omega) (hl.weaken (by omega)) (by omega) (.inl rfl) (.inr hk) (.inr (by simp [rt, h'']))

omit H in
/-- The end of an expression statement. -/
theorem exprS_end {x m lo : Nat} {n : Nd} (h : Loc e.t n x m) (hlo : lo = (tokAt e.t x).lo) (a c : Nat) :
    WP e (do semi true; mk .exprStmt lo [n]) (PN e x) ⟨m, a, c⟩ := by
  have hm := h.mono
  refine wp_bind (wp_call (semi_ok _ _ _ _) ?_); intro _ j4 a c h'
  rcases h' with h' | ⟨h', h'', h'''⟩
  · dsimp only at h'
    subst h'
    exact wp_node (by omega) (by omega) (.one (Nat.le_refl _) h) (Nat.le_refl _) (.inl hlo) (.inl ⟨rfl, rfl, by simp⟩) (.inl ⟨rfl, rfl, by simp⟩)
  · dsimp only at h'
    subst h'
    exact wp_node (by omega) (by omega) (.one (Nat.le_refl _) h) (by omega) (.inl hlo) (.inl ⟨rfl, rfl, by simp⟩) (.inr (by simp [rt, h''']))

theorem exprS_ok (i a c : Nat) (ha : 0 < a) : WP e (exprS r) (PN e i) ⟨i, a, c⟩ := by
  unfold exprS
  rg
  refine wp_bind (wp_call (H.expr _ _ _) ?_); intro n j a c hn
  exact exprS_end hn.2.2 rfl _ _

theorem head_ok (i a c : Nat) :
    WP e (head r) (fun n s => i < s.i ∧ s.i ≤ e.t.length ∧ (tokAt e.t (s.i - 1)).k = .pu .parenR ∧ ∃ p q, i ≤ p ∧ q ≤ s.i ∧ Loc e.t n p q) ⟨i, a, c⟩ := by
  unfold head
  ms h
  refine wp_bind (wp_call (H.expr _ _ _) ?_); intro n j a c ⟨_, _, hn⟩
  dsimp only at *
  ms h1
  exact wp_pure ⟨by change i < j + 1; omega, by change j + 1 ≤ _; omega, h1, i + 1, j, by omega, by change j ≤ j + 1; omega, hn⟩

theorem sub_ok (i a c : Nat) : WP e (sub r) (PN e i) ⟨i, a, c⟩ := by
  unfold sub
  pk
  exact H.stmt _ _ _

theorem ifS_ok (i a c : Nat) (ha : 0 < a) (hk : (tokAt e.t i).k = .kw .if_) : WP e (ifS r) (PN e i) ⟨i, a, c⟩ := by
  unfold ifS
  rg; nx
  refine wp_bind (wp_call (head_ok H _ _ _) ?_); intro t j a c ⟨_, _, _, p, q, _, _, ht⟩
  refine wp_bind (wp_call (sub_ok H _ _ _) ?_); intro n j2 a c ⟨_, _, hn⟩
  dsimp only at *
  pk
  ic h
  · nx
    refine wp_bind (wp_call (sub_ok H _ _ _) ?_); intro n2 j3 a c ⟨_, _, hn2⟩
    dsimp only at *
    exact wp_node (by omega) (by omega) (.cons (by omega) ht (.cons (by omega) hn (.one (by omega) hn2))) (Nat.le_refl _) (.inl rfl)
      (.inr (by simp [lt, hk])) (.inl ⟨rfl, rfl, by simp⟩)
  · exact wp_node (by omega) (by omega) (.cons (by omega) ht (.one (by omega) hn)) (Nat.le_refl _) (.inl rfl)
      (.inr (by simp [lt, hk])) (.inl ⟨rfl, rfl, by simp⟩)

theorem whileS_ok (k : Kd) (i a c : Nat) (ha : 0 < a) (hk : lt k (tokAt e.t i).k = true) (hr : rk k = true) :
    WP e (whileS r k) (PN e i) ⟨i, a, c⟩ := by
  unfold whileS
  rg; nx
  refine wp_bind (wp_call (head_ok H _ _ _) ?_); intro t j a c ⟨_, _, _, p, q, _, _, ht⟩
  refine wp_bind (wp_call (sub_ok H _ _ _) ?_); intro n j2 a c ⟨_, _, hn⟩
  dsimp only at *
  ck
  exact wp_node (by omega) (by omega) (.cons (by omega) ht (.one (by omega) hn)) (Nat.le_refl _) (.inl rfl)
    (.inr hk) (.inl ⟨hr, rfl, by simp⟩)

theorem doS_ok (i a c : Nat) (ha : 0 < a) (hk : (tokAt e.t i).k = .kw .do_) : WP e (doS r) (PN e i) ⟨i, a, c⟩ := by
  unfold doS
  rg; nx
  refine wp_bind (wp_call (sub_ok H _ _ _) ?_); intro n j2 a c ⟨_, _, hn⟩
  dsimp only at *
  ms h
  refine wp_bind (wp_call (head_ok H _ _ _) ?_); intro t j a c ⟨_, _, hp, p, q, _, _, ht⟩
  dsimp only at *
  refine wp_bind (wp_call (semi_ok _ _ _ _) ?_); intro _ j4 a c h'
  rcases h' with h' | ⟨h', h'', h'''⟩
  · dsimp only at h'
    subst h'
    exact wp_node (by omega) (by omega) (.cons (by omega) hn (.one (by omega) ht)) (by omega) (.inl rfl) (.inr (by simp [lt, hk])) (.inr (by simp [rt, hp]))
  · dsimp only at h'
    subst h'
    exact wp_node (by omega) (by omega) (.cons (by omega) hn (.one (by omega) ht)) (by omega) (.inl rfl) (.inr (by simp [lt, hk])) (.inr (by simp [rt, h''']))

/-- Nodes before where the parser is. -/
def PB (e : Env) (i : Nat) (l : List Nd) (s : S) : Prop := i ≤ s.i ∧ s.i ≤ e.t.length ∧ ∃ a b, b ≤ s.i ∧ Locs e.t l i a b

omit H in
theorem pb_nil {i : Nat} {a c : Nat} (h : i ≤ e.t.length) : PB e i [] ⟨i, a, c⟩ :=
  ⟨Nat.le_refl _, h, i, i, Nat.le_refl _, .nil (Nat.le_refl _)⟩

omit H in
theorem pb_one {n : Nd} {i : Nat} {s : S} (h : PN e i n s) : PB e i [n] s :=
  ⟨Nat.le_of_lt h.1, h.2.1, i, s.i, Nat.le_refl _, .one (Nat.le_refl _) h.2.2⟩

omit H in
theorem Locs.app {t : List T} {l l' : List Nd} {i a b i' a' b' : Nat} (h : Locs t l i a b) (hb : b ≤ i') (h' : Locs t l' i' a' b') :
    ∃ a'' b'', Locs t (l ++ l') i a'' b'' ∧ b'' ≤ max b b' := by
  obtain ⟨a'', b'', h1, _, _, h2, h3⟩ := Locs.append h hb h'
  refine ⟨a'', b'', h1, ?_⟩
  by_cases hp : l' = []
  · have := h3 hp; omega
  · have := h2 hp; omega

theorem forInit_ok (i a c : Nat) (hi : i ≤ e.t.length) : WP e (forInit r) (PB e i) ⟨i, a, c⟩ := by
  unfold forInit
  pk
  refine wp_bind (wp_call (isVarDec_ok _ _ _ (by omega)) ?_); intro b j a c ⟨h1, h2, h3⟩
  dsimp only at h1 h2
  subst h1
  ic h
  · refine wp_bind (wp_call (varDec_ok H _ _ _ _ h2 (h3 h)) ?_); intro n j a c hn
    exact wp_pure (pb_one hn)
  ic h
  · exact wp_pure (pb_nil hi)
  · refine wp_bind (wp_call (H.expr _ _ _) ?_); intro n j a c hn
    exact wp_pure (pb_one hn)

omit H in
theorem forLeft_ok {l : List Nd} {x p q : Nat} (hl : Locs e.t l x p q) (i a c : Nat) :
    WP e (forLeft l) (fun n s => s.i = i ∧ ∃ p' q', x ≤ p' ∧ q' ≤ q ∧ Loc e.t n p' q') ⟨i, a, c⟩ := by
  have tgt : ∀ n, Loc e.t n p q → x ≤ p → ∀ a c, WP e (target n) (fun n s => s.i = i ∧ ∃ p' q', x ≤ p' ∧ q' ≤ q ∧ Loc e.t n p' q') ⟨i, a, c⟩ := by
    intro n hn hx a c
    refine wp_call (target_ok hn _ _ _) ?_
    intro n' j a c ⟨h1, p', q', h2, h3, h4, h5⟩
    exact ⟨h1, p', q', by omega, h4, h2⟩
  unfold forLeft
  split
  · cases hl with
    | one h1 h2 =>
      ck
      exact wp_pure ⟨rfl, p, q, h1, Nat.le_refl _, h2⟩
  · cases hl with
    | one h1 h2 => exact tgt _ h2 h1 _ _
  · cases hl with
    | one h1 h2 => exact tgt _ h2 h1 _ _
  · cases hl with
    | one h1 h2 =>
      ck
      exact wp_pure ⟨rfl, p, q, h1, Nat.le_refl _, h2⟩
  · exact wp_fail

theorem forRight_ok (b : Bool) (i a c : Nat) : WP e (forRight r b) (PN e i) ⟨i, a, c⟩ := by
  unfold forRight
  ic h
  · exact H.expr _ _ _
  · exact H.assign _ _ _

theorem forInTail_ok {l : List Nd} {x y lo p q : Nat} (b : Bool) (hl : Locs e.t l y p q) (hx : x ≤ y) (i a c : Nat) (hi : q ≤ i)
    (hlo : lo = (tokAt e.t x).lo) (hk : (tokAt e.t x).k = .kw .for_) : WP e (forInTail r lo b l) (PN e x) ⟨i, a, c⟩ := by
  unfold forInTail
  refine wp_bind (wp_call (forLeft_ok hl _ _ _) ?_); intro n j a c ⟨h1, p', q', h2, h3, hn⟩
  dsimp only at h1
  subst h1
  nx
  refine wp_bind (wp_call (forRight_ok H _ _ _ _) ?_); intro n2 j2 a c ⟨_, _, hn2⟩
  ms h
  refine wp_bind (wp_call (sub_ok H _ _ _) ?_); intro n3 j3 a c ⟨_, _, hn3⟩
  have := hn.mono
  dsimp only at *
  exact wp_node (by omega) (by omega) (.cons (by omega) hn (.cons (by omega) hn2 (.one (by omega) hn3))) (Nat.le_refl _) (.inl hlo)
    (.inr (by simp [lt, hk])) (.inl ⟨rfl, rfl, by simp⟩)

theorem optE_ok (k : K) (i a c : Nat) (hi : i ≤ e.t.length) : WP e (optE r k) (PB e i) ⟨i, a, c⟩ := by
  unfold optE
  pk
  ic h
  · exact wp_pure (pb_nil hi)
  · refine wp_bind (wp_call (H.expr _ _ _) ?_); intro n j a c hn
    exact wp_pure (pb_one hn)

theorem forTail_ok {l : List Nd} {x y lo p q : Nat} (hl : Locs e.t l y p q) (hx : x ≤ y) (i a c : Nat) (hi : q ≤ i)
    (hlo : lo = (tokAt e.t x).lo) (hk : (tokAt e.t x).k = .kw .for_) : WP e (forTail r lo l) (PN e x) ⟨i, a, c⟩ := by
  unfold forTail
  ms h1
  refine wp_bind (wp_call (optE_ok H _ _ _ _ (by omega)) ?_); intro l2 j2 a c ⟨_, _, a2, b2, hb2, hl2⟩
  ms h2
  refine wp_bind (wp_call (optE_ok H _ _ _ _ (by omega)) ?_); intro l3 j3 a c ⟨_, _, a3, b3, hb3, hl3⟩
  ms h3
  refine wp_bind (wp_call (sub_ok H _ _ _) ?_); intro n3 j4 a c ⟨_, _, hn3⟩
  dsimp only at *
  obtain ⟨a4, b4, h4, h5⟩ := hl.app (show q ≤ i + 1 by omega) hl2
  have := hl2.bounds
  have := hl3.bounds
  obtain ⟨a6, b6, h6, h7⟩ := h4.app (show b4 ≤ j2 + 1 by omega) hl3
  exact wp_last (h6.weaken hx) (by omega) hn3 rfl hlo (by simp [lt, hk])

omit H in
theorem forAwait_ok (i a c : Nat) : WP e forAwait (fun _ s => i ≤ s.i) ⟨i, a, c⟩ := by
  unfold forAwait
  ak; pk
  ic h
  · exact wp_next fun _ => (by change i ≤ i + 1; omega)
  · exact wp_pure (Nat.le_refl _)

theorem forS_ok (i a c : Nat) (ha : 0 < a) (hk : (tokAt e.t i).k = .kw .for_) : WP e (forS r) (PN e i) ⟨i, a, c⟩ := by
  unfold forS
  rg; nx
  refine wp_bind (wp_call (forAwait_ok _ _ _) ?_); intro _ j a c h1
  dsimp only at h1
  ms h2
  refine wp_bind (wp_call (forInit_ok H _ _ _ (by omega)) ?_); intro l j2 a c ⟨_, _, p, q, hq, hl⟩
  dsimp only at *
  ck; pk
  ic h
  · exact forInTail_ok H _ hl (by omega) _ _ _ hq rfl hk
  ic h
  · exact forInTail_ok H _ hl (by omega) _ _ _ hq rfl hk
  · exact forTail_ok H hl (by omega) _ _ _ hq rfl hk

theorem retArg_ok (i a c : Nat) (hi : i ≤ e.t.length) : WP e (retArg r) (fun l s => i ≤ s.i ∧ s.i ≤ e.t.length ∧ ∃ p q, q ≤ s.i ∧ Locs e.t l i p q ∧
    (q = s.i ∧ l ≠ [] ∨ s.i = i ∨ (tokAt e.t (s.i - 1)).k = .pu .semi)) ⟨i, a, c⟩ := by
  unfold retArg
  pkT
  ic h
  · nx
    refine wp_bind (wp_call (semi_ok _ _ _ _) ?_); intro _ j4 a c h'
    rcases h' with h' | ⟨h', h'', h'''⟩
    · dsimp only at h'
      subst h'
      exact wp_pure ⟨by change i ≤ i + 1; omega, by assumption, i, i, by change i ≤ i + 1; omega, .nil (Nat.le_refl _), .inr (.inr h)⟩
    · dsimp only at h'
      subst h'
      exact wp_pure ⟨by change i ≤ i + 1 + 1; omega, by assumption, i, i, by change i ≤ i + 1 + 1; omega, .nil (Nat.le_refl _), .inr (.inr h''')⟩
  ic h
  · refine wp_bind (wp_call (semi_ok _ _ _ _) ?_); intro _ j4 a c h'
    rcases h' with h' | ⟨h', h'', h'''⟩
    · dsimp only at h'
      subst h'
      exact wp_pure ⟨Nat.le_refl _, hi, j4, j4, Nat.le_refl _, .nil (Nat.le_refl _), .inr (.inl rfl)⟩
    · dsimp only at h'
      subst h'
      exact wp_pure ⟨by change i ≤ i + 1; omega, by assumption, i, i, by change i ≤ i + 1; omega, .nil (Nat.le_refl _), .inr (.inr h''')⟩
  · refine wp_bind (wp_call (H.expr _ _ _) ?_); intro n j a c ⟨_, _, hn⟩
    dsimp only at *
    refine wp_bind (wp_call (semi_ok _ _ _ _) ?_); intro _ j4 a c h'
    rcases h' with h' | ⟨h', h'', h'''⟩
    · dsimp only at h'
      subst h'
      exact wp_pure ⟨by change i ≤ j4; omega, by assumption, i, j4, Nat.le_refl _, .one (Nat.le_refl _) hn, .inl ⟨rfl, by simp⟩⟩
    · dsimp only at h'
      subst h'
      exact wp_pure ⟨by change i ≤ j + 1; omega, by assumption, i, j, by change j ≤ j + 1; omega, .one (Nat.le_refl _) hn, .inr (.inr h''')⟩

theorem retS_ok (i a c : Nat) (ha : 0 < a) (hk : (tokAt e.t i).k = .kw .return_) : WP e (retS r) (PN e i) ⟨i, a, c⟩ := by
  unfold retS
  rg; nx
  refine wp_bind (wp_call (retArg_ok H _ _ _ (by omega)) ?_); intro l j a c ⟨_, _, p, q, h1, h2, h3⟩
  dsimp only at *
  ck
  refine wp_node (by omega) (by omega) (h2.weaken (by omega)) h1 (.inl rfl) (.inr (by simp [lt, hk])) ?_
  rcases h3 with h | h | h
  · exact .inl ⟨rfl, h⟩
  · subst h
    exact .inr (by simp [rt, hk])
  · exact .inr (by simp [rt, h])

theorem throwS_ok (i a c : Nat) (ha : 0 < a) (hk : (tokAt e.t i).k = .kw .throw_) : WP e (throwS r) (PN e i) ⟨i, a, c⟩ := by
  unfold throwS
  rg; nx; pkT; rq h
  refine wp_bind (wp_call (H.expr _ _ _) ?_); intro n j a c ⟨_, _, hn⟩
  dsimp only at *
  refine wp_bind (wp_call (semi_ok _ _ _ _) ?_); intro _ j4 a c h'
  rcases h' with h' | ⟨h', h'', h'''⟩
  · dsimp only at h'
    subst h'
    exact wp_node (by omega) (by omega) (.one (by omega) hn) (Nat.le_refl _) (.inl rfl) (.inr (by simp [lt, hk])) (.inl ⟨rfl, rfl, by simp⟩)
  · dsimp only at h'
    subst h'
    exact wp_node (by omega) (by omega) (.one (by omega) hn) (by omega) (.inl rfl) (.inr (by simp [lt, hk])) (.inr (by simp [rt, h''']))

omit H in
theorem jumpLabel_ok (i a c : Nat) (hi : i ≤ e.t.length) : WP e jumpLabel (fun l s => i ≤ s.i ∧ s.i ≤ e.t.length ∧ ∃ p q, q ≤ s.i ∧ Locs e.t l i p q ∧
    (q = s.i ∧ l ≠ [] ∨ s.i = i ∨ (tokAt e.t (s.i - 1)).k = .pu .semi)) ⟨i, a, c⟩ := by
  unfold jumpLabel
  pkT
  ic h
  · refine wp_bind (wp_call (ident_ok _ _ _) ?_); intro n j a c ⟨_, _, hn⟩
    dsimp only at *
    refine wp_bind (wp_call (semi_ok _ _ _ _) ?_); intro _ j4 a c h'
    rcases h' with h' | ⟨h', h'', h'''⟩
    · dsimp only at h'
      subst h'
      exact wp_pure ⟨by change i ≤ j4; omega, by assumption, i, j4, Nat.le_refl _, .one (Nat.le_refl _) hn, .inl ⟨rfl, by simp⟩⟩
    · dsimp only at h'
      subst h'
      exact wp_pure ⟨by change i ≤ j + 1; omega, by assumption, i, j, by change j ≤ j + 1; omega, .one (Nat.le_refl _) hn, .inr (.inr h''')⟩
  · refine wp_bind (wp_call (semi_ok _ _ _ _) ?_); intro _ j4 a c h'
    rcases h' with h' | ⟨h', h'', h'''⟩
    · dsimp only at h'
      subst h'
      exact wp_pure ⟨Nat.le_refl _, hi, j4, j4, Nat.le_refl _, .nil (Nat.le_refl _), .inr (.inl rfl)⟩
    · dsimp only at h'
      subst h'
      exact wp_pure ⟨by change i ≤ i + 1; omega, by assumption, i, i, by change i ≤ i + 1; omega, .nil (Nat.le_refl _), .inr (.inr h''')⟩

omit H in
theorem jumpS_ok (k : Kd) (i a c : Nat) (ha : 0 < a) (hk : lt k (tokAt e.t i).k = true) (hr : rk k = true)
    (h1 : rt k (tokAt e.t i).k = true) (h2 : rt k (.pu .semi) = true) : WP e (jumpS k) (PN e i) ⟨i, a, c⟩ := by
  unfold jumpS
  rg; nx
  refine wp_bind (wp_call (jumpLabel_ok _ _ _ (by omega)) ?_); intro l j a c ⟨_, _, p, q, h1', h2', h3⟩
  dsimp only at *
  ck
  refine wp_node (by omega) (by omega) (h2'.weaken (by omega)) h1' (.inl rfl) (.inr hk) ?_
  rcases h3 with h | h | h
  · exact .inl ⟨hr, h⟩
  · subst h
    exact .inr h1
  · exact .inr (by rw [h]; exact h2)

theorem labelS_ok (i a c : Nat) (ha : 0 < a) : WP e (labelS r) (PN e i) ⟨i, a, c⟩ := by
  unfold labelS
  rg
  refine wp_bind (wp_call (ident_ok _ _ _) ?_); intro n j a c ⟨_, _, hn⟩
  nx; ck
  refine wp_bind (wp_call (sub_ok H _ _ _) ?_); intro n2 j2 a c ⟨_, _, hn2⟩
  dsimp only at *
  exact wp_node (by omega) (by omega) (.cons (Nat.le_refl _) hn (.one (by omega) hn2)) (Nat.le_refl _) (.inl rfl) (.inl ⟨rfl, rfl, by simp⟩)
    (.inl ⟨rfl, rfl, by simp⟩)

omit H in
theorem pe_cons {n : Nd} {l : List Nd} {i : Nat} {s s' : S} (hn : PN e i n s) (h : PE e s.i l s') : PE e i (n :: l) s' := by
  have h1 := pe_push (Nat.le_refl _) hn.2.2 h
  exact ⟨Nat.le_of_lt h1.1, h1.2.1, (fun h => by cases h), _, h1.2.2⟩

theorem caseBody_ok (i a c : Nat) (hi : i ≤ e.t.length) : WP e (caseBody r) (PE e i) ⟨i, a, c⟩ := by
  unfold caseBody
  pk
  ic h
  · exact wp_pure ⟨Nat.le_refl _, hi, fun _ => rfl, i, .nil (Nat.le_refl _)⟩
  refine wp_bind (wp_call (H.stmt _ _ _) ?_); intro n j a c hn
  refine wp_bind (wp_call (H.caseBody _ _ _ hn.2.1) ?_); intro l j2 a c hl
  exact wp_pure (pe_cons hn hl)

theorem caseTest_ok (k : K) (i a c : Nat) (hi : i ≤ e.t.length) : WP e (caseTest r k) (PB e i) ⟨i, a, c⟩ := by
  unfold caseTest
  ic h
  · refine wp_bind (wp_call (H.expr _ _ _) ?_); intro n j a c hn
    exact wp_pure (pb_one hn)
  · exact wp_pure (pb_nil hi)

theorem cases_ok (i a c : Nat) : WP e (cases r) (PC e (.pu .braceR) i) ⟨i, a, c⟩ := by
  unfold cases
  pkT
  ic h
  · nx
    exact wp_pure (pc_nil ‹_› h)
  rq h1; ck; nx
  refine wp_bind (wp_call (caseTest_ok H _ _ _ _ (by omega)) ?_); intro l2 j2 a c ⟨_, _, a2, b2, hb2, hl2⟩
  dsimp only at *
  ms h2
  refine wp_bind (wp_call (H.caseBody _ _ _ (by omega)) ?_); intro l j3 a c ⟨_, _, h3, a3, hl⟩
  dsimp only at *
  obtain ⟨a'', b'', h4, _, _, h5, h6⟩ := Locs.append hl2 (show b2 ≤ j2 + 1 by omega) hl
  have hc : b'' ≤ j3 ∧ (rk .case = true ∧ b'' = j3 ∧ l2 ++ l ≠ [] ∨ rt .case (tokAt e.t (j3 - 1)).k = true) := by
    by_cases hp : l = []
    · have h6 := h6 hp
      have h3 := h3 hp
      refine ⟨by omega, .inr ?_⟩
      rw [h3]
      simp [rt, h2]
    · have h5 := h5 hp
      exact ⟨by omega, .inl ⟨rfl, h5, by simp [hp]⟩⟩
  refine wp_bind (wp_call (wp_node (show i < j3 by omega) (by omega) (h4.weaken (by omega)) hc.1 (.inl rfl) (.inr (by simpa [lt] using h1)) hc.2) ?_)
  intro n j a c hn
  refine wp_bind (wp_call (H.cases _ _ _) ?_); intro l j4 a c hl
  exact wp_pure (pc_cons hn.2.2 (Nat.le_refl _) hl)

theorem switchS_ok (i a c : Nat) (ha : 0 < a) (hk : (tokAt e.t i).k = .kw .switch) : WP e (switchS r) (PN e i) ⟨i, a, c⟩ := by
  unfold switchS
  rg; nx
  refine wp_bind (wp_call (head_ok H _ _ _) ?_); intro t j a c ⟨_, _, _, p, q, _, _, ht⟩
  ms h
  refine wp_bind (wp_call (H.cases _ _ _) ?_); intro l j2 a c ⟨_, _, hc, p1, q1, hq, hl⟩
  dsimp only at *
  obtain ⟨b', h7, h8, h9, h10⟩ := Locs.push (show i ≤ p by omega) ht (show q ≤ j + 1 by omega) hl
  exact wp_node (by omega) (by omega) h7 (by omega) (.inl rfl) (.inr (by simp [lt, hk])) (.inr (by simp [rt, hc]))

theorem catchParam_ok (i a c : Nat) (hi : i ≤ e.t.length) : WP e (catchParam r) (PB e i) ⟨i, a, c⟩ := by
  unfold catchParam
  pk
  ic h
  · nx
    refine wp_bind (wp_call (H.pat _ _ _) ?_); intro n j a c ⟨_, _, hn⟩
    ms h1
    dsimp only at *
    exact wp_pure ⟨by change i ≤ j + 1; omega, by assumption, i + 1, j, by change j ≤ j + 1; omega, .one (by omega) hn⟩
  · exact wp_pure (pb_nil hi)

theorem catchS_ok (i a c : Nat) (hi : i ≤ e.t.length) : WP e (catchS r) (PE e i) ⟨i, a, c⟩ := by
  unfold catchS
  pk
  ic h
  · rg; nx
    refine wp_bind (wp_call (catchParam_ok H _ _ _ (by omega)) ?_); intro l2 j2 a c ⟨_, _, a2, b2, hb2, hl2⟩
    ck
    refine wp_bind (wp_call (body_ok H _ _ _) ?_); intro n j a c hn
    dsimp only at *
    refine wp_bind (wp_call (wp_last (hl2.weaken (show i ≤ i + 1 by omega)) hb2 hn.2.2 rfl rfl (by simp [lt, h])) ?_); intro f j5 a c hf
    exact wp_pure ⟨Nat.le_of_lt hf.1, hf.2.1, (fun h => by cases h), _, .one (Nat.le_refl _) hf.2.2⟩
  · exact wp_pure ⟨Nat.le_refl _, hi, fun _ => rfl, i, .nil (Nat.le_refl _)⟩

theorem finallyS_ok (i a c : Nat) (hi : i ≤ e.t.length) : WP e (finallyS r) (PE e i) ⟨i, a, c⟩ := by
  unfold finallyS
  pk
  ic h
  · nx
    refine wp_bind (wp_call (body_ok H _ _ _) ?_); intro n j a c ⟨_, _, hn⟩
    dsimp only at *
    exact wp_pure ⟨by change i ≤ j; omega, by assumption, (fun h => by cases h), _, .one (by omega) hn⟩
  · exact wp_pure ⟨Nat.le_refl _, hi, fun _ => rfl, i, .nil (Nat.le_refl _)⟩

theorem tryS_ok (i a c : Nat) (ha : 0 < a) (hk : (tokAt e.t i).k = .kw .try_) : WP e (tryS r) (PN e i) ⟨i, a, c⟩ := by
  unfold tryS
  rg; nx
  refine wp_bind (wp_call (body_ok H _ _ _) ?_); intro n j a c ⟨_, _, hn⟩
  dsimp only at *
  pk; rq h
  refine wp_bind (wp_call (catchS_ok H _ _ _ (by omega)) ?_); intro l j2 a c ⟨_, _, h1, p1, hl⟩
  refine wp_bind (wp_call (finallyS_ok H _ _ _ (by assumption)) ?_); intro l2 j3 a c ⟨_, _, h2, p2, hl2⟩
  dsimp only at *
  obtain ⟨a'', b'', h4, _, _, h5, h6⟩ := Locs.append hl (Nat.le_refl _) hl2
  obtain ⟨b', h7, h8, h9, h10⟩ := Locs.push (show i ≤ i + 1 by omega) hn (Nat.le_refl _) h4
  have hb : b' = j3 := by
    by_cases hp2 : l2 = []
    · have h6 := h6 hp2
      have h2 := h2 hp2
      by_cases hp1 : l = []
      · have := h1 hp1
        have := h10 (by simp [hp1, hp2])
        omega
      · have := h9 (by simp [hp1])
        omega
    · have h5 := h5 hp2
      have := h9 (by simp [hp2])
      omega
  exact wp_node (by omega) (by omega) h7 (by omega) (.inl rfl) (.inr (by simp [lt, hk])) (.inl ⟨rfl, hb, by simp⟩)

theorem asyncStmt_ok (i a c : Nat) (hk : (tokAt e.t i).k = .name "async") : WP e (asyncStmt r) (PN e i) ⟨i, a, c⟩ := by
  unfold asyncStmt
  refine wp_bind (wp_call (asyncTok_ok _ _ _) ?_); intro as j a c ⟨h1, h2, h3⟩
  dsimp only at h1
  subst h1
  pk
  ic h
  · exact fnKw_ok H _ _ _ _ (by omega) h3 (by simp [lt, hk])
  refine wp_bind (wp_call (asyncTail_ok H h2 h3 hk _ _) ?_); intro n j a c h
  cases n with
  | arrow n => exact exprS_end h.2.2 h3 _ _
  | fn n => exact wp_pure h
  | call n =>
    refine wp_bind (wp_call (H.binRest _ _ _ _ _ _ h.2.2) ?_); intro n j a c hn
    refine wp_bind (wp_call (seqTail_ok H hn.2.2 _ _) ?_); intro n j a c hn
    exact exprS_end hn.2.2 h3 _ _

omit H in
theorem isLabel_ok (k : K) (i a c : Nat) (ha : 0 < a) : WP e (isLabel k) (fun _ s => s.i = i ∧ 0 < s.ahead) ⟨i, a, c⟩ := by
  unfold isLabel
  ic h
  · refine wp_bind (wp_grow ?_); intro _ _ _
    exact wp_pure ⟨rfl, by assumption⟩
  · exact wp_pure ⟨rfl, ha⟩

theorem otherS_ok (i a c : Nat) (ha : 0 < a) : WP e (otherS r (tokAt e.t i).k) (PN e i) ⟨i, a, c⟩ := by
  unfold otherS
  refine wp_bind (wp_call (isVarDec_ok _ _ _ ha) ?_); intro b j a c ⟨h1, h2, h3⟩
  dsimp only at h1 h2
  subst h1
  ic h
  · ck
    exact varDec_ok H _ _ _ _ h2 (h3 h)
  refine wp_bind (wp_call (isAsync_ok _ _ _ _ h2) ?_); intro b j2 a c ⟨h1, h2, h3⟩
  dsimp only at h1 h2
  subst h1
  ic h
  · exact asyncStmt_ok H _ _ _ (h3 h)
  refine wp_bind (wp_call (isLabel_ok _ _ _ _ h2) ?_); intro b j a c ⟨h1, h2⟩
  dsimp only at h1 h2
  subst h1
  ic h
  · exact labelS_ok H _ _ _ h2
  · exact exprS_ok H _ _ _ h2

theorem stmt_ok (i a c : Nat) : WP e (stmt r) (PN e i) ⟨i, a, c⟩ := by
  unfold stmt
  pk
  rename_i a' ha'
  split
  · rename_i hk
    exact varDec_ok H _ _ _ _ ha' (by simp [lt, hk])
  · rename_i hk
    rg
    refine wp_bind (wp_call (fnKw_ok H _ _ _ _ (Nat.le_refl _) rfl (by simp [lt, hk])) ?_); intro f j a c hf
    ck
    exact wp_pure hf
  · exact ifS_ok H _ _ _ ha' ‹_›
  · exact forS_ok H _ _ _ ha' ‹_›
  · exact retS_ok H _ _ _ ha' ‹_›
  · rename_i hk
    exact whileS_ok H _ _ _ _ ha' (by simp [lt, hk]) rfl
  · rename_i hk
    exact jumpS_ok _ _ _ _ ha' (by simp [lt, hk]) rfl (by simp [rt, hk]) (by simp [rt])
  · rename_i hk
    exact jumpS_ok _ _ _ _ ha' (by simp [lt, hk]) rfl (by simp [rt, hk]) (by simp [rt])
  · exact throwS_ok H _ _ _ ha' ‹_›
  · exact tryS_ok H _ _ _ ha' ‹_›
  · exact doS_ok H _ _ _ ha' ‹_›
  · exact switchS_ok H _ _ _ ha' ‹_›
  · rename_i hk
    rg; nx
    refine wp_bind (wp_call (semi_ok _ _ _ _) ?_); intro _ j4 a c h'
    rcases h' with h' | ⟨h', h'', h'''⟩
    · dsimp only at h'
      subst h'
      exact wp_node (by omega) (by omega) (.nil (a := i) (Nat.le_refl _)) (by omega) (.inl rfl) (.inr (by simp [lt, hk])) (.inr (by simp [rt, hk]))
    · dsimp only at h'
      subst h'
      exact wp_node (by omega) (by omega) (.nil (a := i) (Nat.le_refl _)) (by omega) (.inl rfl) (.inr (by simp [lt, hk])) (.inr (by simp [rt, h''']))
  · rename_i hk
    exact whileS_ok H _ _ _ _ ha' (by simp [lt, hk]) rfl
  · exact exprS_ok H _ _ _ ha'
  · exact exprS_ok H _ _ _ ha'
  · exact exprS_ok H _ _ _ ha'
  · exact wp_fail
  · exact body_ok H _ _ _
  · rename_i hk
    rg; nx
    exact wp_node (by omega) (by omega) (.nil (a := i) (Nat.le_refl _)) (by omega) (.inl rfl) (.inr (by simp [lt, hk])) (.inr (by simp [rt, hk]))
  · exact wp_fail
  · exact otherS_ok H _ _ _ ha'

theorem stmts_ok (i a c : Nat) : WP e (stmts r true) (PC e (.pu .braceR) i) ⟨i, a, c⟩ := by
  unfold stmts
  pk
  ic h
  · nx
    simp at h
    exact wp_pure (pc_nil ‹_› h)
  ic h
  · exact wp_bind (wp_req fun h => by cases h)
  refine wp_bind (wp_call (H.stmt _ _ _) ?_); intro n j a c hn
  pk; ck
  refine wp_bind (wp_call (H.stmts _ _ _) ?_); intro l j2 a c hl
  exact wp_pure (pc_cons hn.2.2 (Nat.le_refl _) hl)

theorem progBody_ok (i a c : Nat) (hi : i ≤ e.t.length) :
    WP e (stmts r false) (fun l s => PE e i l s ∧ (tokAt e.t s.i).k = .eof) ⟨i, a, c⟩ := by
  unfold stmts
  pk
  ic h
  · simp at h
  ic h
  · rq h2
    exact wp_pure ⟨⟨Nat.le_refl _, hi, fun _ => rfl, i, .nil (Nat.le_refl _)⟩, h⟩
  refine wp_bind (wp_call (H.stmt _ _ _) ?_); intro n j a c hn
  pk; ck
  refine wp_bind (wp_call (H.body _ _ _ hn.2.1) ?_); intro l j2 a c hl
  exact wp_pure ⟨pe_cons (s := ⟨j, a, c⟩) hn hl.1, hl.2⟩

theorem Ok.build : Ok e (build r) where
  expr := expr_ok H
  seqRest := seqRest_ok H
  assign := assign_ok H
  unary := unary_ok H
  binRest _ _ _ _ _ _ h := binRest_ok H h _ _ _
  binInner _ _ _ _ _ _ h := binInner_ok H h _ _ _
  newE := newE_ok H
  newRest _ _ _ _ _ _ h := newRest_ok H h _ _ _
  callRest _ _ _ _ _ _ _ _ _ h hi hlo := callRest_ok H h hlo _ _ _ _ _ hi
  memRest _ _ _ _ _ _ _ _ h := memRest_ok H h _ _ _ _ _
  args := args_ok H
  tplRest := tplRest_ok H
  arrRest := arrRest_ok H
  objRest := objRest_ok H
  params := params_ok H
  pat := pat_ok H
  patElem := patElem_ok H
  patArr := patArr_ok H
  patObj := patObj_ok H
  decs := decs_ok H
  stmt := stmt_ok H
  stmts := stmts_ok H
  body := progBody_ok H
  cases := cases_ok H
  caseBody := caseBody_ok H

end

theorem Ok.rec_ (e : Env) : ∀ n, Ok e (rec_ n)
  | 0 => Ok.none e
  | n + 1 => Ok.build (Ok.rec_ e n)

/-- What the functions return is located where it should be, with any fuel. -/
theorem prog_located {fuel len : Nat} {t : List T} {o : Nat → Bool} {n : Nd} (h : prog fuel t o len = some n) :
    ∃ l a j, n = .node .prog 0 len l ∧ Locs t l 0 a j ∧ j ≤ t.length ∧ (tokAt t j).k = .eof ∧ (l = [] → j = 0) := by
  unfold prog at h
  split at h
  · rename_i l s hl
    cases h
    obtain ⟨⟨_, h1, h2, a, h3⟩, h4⟩ := (Ok.rec_ ⟨t, o⟩ fuel).body 0 0 0 (Nat.zero_le _) l s hl
    exact ⟨l, a, s.i, rfl, h3, h1, h4, h2⟩
  · cases h

end Mole.Parser.Rng
