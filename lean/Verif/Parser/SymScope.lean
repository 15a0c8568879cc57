import Verif.Parser.SymProps
/-!
# C23, C57: entering and leaving scopes
-/
namespace Mole.Parser.Sym

/-! ## Specification -/
namespace Spec

/-- A function or block begins, with the flags the parser adds at once (`AddKind` after `EnterScope`); the
current one is given a flag later on (`AddKind`, a directive for instance); the current one ends. -/
inductive Op where
  | enter (fn arrow settled : Bool) (extra : List Flag)
  | mark (f : Flag)
  | leave

/-- Sequences in which every scope entered is left. -/
inductive Balanced : List Op → Prop
  | nil : Balanced []
  | cons {fn arrow settled extra a b} : Balanced a → Balanced b →
      Balanced (.enter fn arrow settled extra :: (a ++ .leave :: b))

/-- An open scope as it was entered. -/
structure Level where
  fn : Bool
  arrow : Bool
  extra : List Flag

/-- The open scopes, innermost first. -/
def levels : List Level → List Op → Option (List Level)
  | ls, [] => some ls
  | ls, .enter fn arrow _ extra :: ops => levels ({ fn, arrow, extra } :: ls) ops
  | l :: ls, .mark f :: ops => levels ({ l with extra := f :: l.extra } :: ls) ops
  | [], .mark _ :: _ => none
  | _ :: l :: ls, .leave :: ops => levels (l :: ls) ops
  | _, .leave :: _ => none

/-- One of the flags was given to this scope or to one around it in the same function. -/
def within (fs : List Flag) : List Level → Prop
  | [] => False
  | l :: ls => (∃ f ∈ fs, f ∈ l.extra) ∨ (l.fn = false ∧ within fs ls)

/-- The same where arrow functions are looked through as well. -/
def withinArrow (fs : List Flag) : List Level → Prop
  | [] => False
  | l :: ls => (∃ f ∈ fs, f ∈ l.extra) ∨ ((l.fn = false ∨ l.arrow = true) ∧ withinArrow fs ls)

/-- The flag was given to this scope or any around it. -/
def anywhere (f : Flag) (ls : List Level) : Prop := ∃ l ∈ ls, f ∈ l.extra

/-- The flags that are only ever given by `AddKind`. -/
def given : Flag → Bool
  | .loopIndirect | .switchIndirect | .tryIndirect | .func | .block | .funcIndirect | .clsIndirect
  | .tsModuleIndirect => false
  | _ => true

end Spec
open Spec

/-- `EnterScope` with the `AddKind` calls after it, and `LeaveScope`. -/
def exec (t : Tab) : Op → Option Tab
  | .enter fn arrow settled extra => match t.enter fn arrow settled with
    | none => none
    | some t' => match t'.chain with
      | [] => none
      | s :: up => some { t' with chain := extra.foldl Scope.addKind s :: up }
  | .mark f => match t.chain with
    | [] => none
    | s :: up => some { t with chain := s.addKind f :: up }
  | .leave => t.leave

def execAll : Tab → List Op → Option Tab
  | t, [] => some t
  | t, o :: os => match exec t o with
    | none => none
    | some t' => execAll t' os

theorem execAll_append (t : Tab) (a b : List Op) :
    execAll t (a ++ b) = (execAll t a).bind fun t' => execAll t' b := by
  induction a generalizing t with
  | nil => rfl
  | cons o os ih =>
    simp only [List.cons_append, execAll]
    cases exec t o with
    | none => rfl
    | some t' => exact ih t'

theorem addKinds_kind (extra : List Flag) (s : Scope) (g : Flag) :
    (extra.foldl Scope.addKind s).kind g = (s.kind g || decide (g ∈ extra)) := by
  induction extra generalizing s with
  | nil => simp
  | cons f fs ih =>
    rw [List.foldl_cons, ih]
    simp only [Scope.addKind, List.mem_cons]
    by_cases h1 : g = f <;> by_cases h2 : g ∈ fs <;> simp [h1, h2]

theorem addKinds_id (extra : List Flag) (s : Scope) :
    (extra.foldl Scope.addKind s).id = s.id ∧ (extra.foldl Scope.addKind s).addr = s.addr := by
  induction extra generalizing s with
  | nil => exact ⟨rfl, rfl⟩
  | cons f fs ih => rw [List.foldl_cons]; exact ih _

/-! ## Balance -/

theorem exec_enter (t : Tab) (fn arrow settled : Bool) (extra : List Flag) (c : Scope) (up : List Scope)
    (h : t.chain = c :: up) :
    ∃ s t', exec t (.enter fn arrow settled extra) = some t' ∧ t'.chain = s :: t.chain ∧
      s.id = t'.seed ∧ t'.seed = (if settled then t.seed + 1 else t.seed) ∧ s.addr = t.next ∧
      t'.next = t.next + 1 ∧ t'.table = put t.table t'.seed t.next ∧
      ∀ g, s.kind g = (inherit c.kind fn arrow g || decide (g ∈ extra)) := by
  simp only [exec, Tab.enter, h]
  refine ⟨_, _, rfl, rfl, ?_, rfl, ?_, rfl, rfl, ?_⟩
  · exact (addKinds_id _ _).1
  · exact (addKinds_id _ _).2
  · intro g; rw [addKinds_kind]

/-- **C23, balance.** Every balanced sequence of entries and exits, of any depth, goes through and ends in
the scope, and under the scopes, it started in, all of them unchanged. -/
theorem balanced_returns (ops : List Op) (h : Balanced ops) :
    ∀ t : Tab, t.chain ≠ [] → ∃ t', execAll t ops = some t' ∧ t'.chain = t.chain := by
  induction h with
  | nil => intro t _; exact ⟨t, rfl, rfl⟩
  | @cons fn arrow settled extra a b _ _ iha ihb =>
    intro t ht
    obtain ⟨c, up, hc⟩ := List.exists_cons_of_ne_nil ht
    obtain ⟨s, t1, h1, h2, _⟩ := exec_enter t fn arrow settled extra c up hc
    obtain ⟨t2, h3, h4⟩ := iha t1 (by rw [h2]; simp)
    rw [execAll, h1]
    simp only
    rw [execAll_append, h3]
    simp only [Option.bind_some, execAll, exec, Tab.leave, h4, h2, hc]
    obtain ⟨t3, h5, h6⟩ := ihb { t2 with chain := c :: up, table := put t2.table c.id c.addr } (by simp)
    exact ⟨t3, h5, h6⟩

/-! ## Identities -/

/-- The scopes entered, as (number, pointer). -/
def entered : Tab → List Op → List (Nat × Nat)
  | _, [] => []
  | t, o :: os => match exec t o with
    | none => []
    | some t' => match o with
      | .enter .. => (t'.seed, t.next) :: entered t' os
      | _ => entered t' os

/-- All scopes are settled ones. -/
def AllSettled (ops : List Op) : Prop := ∀ fn arrow settled extra, Op.enter fn arrow settled extra ∈ ops → settled = true

theorem exec_leave {t t' : Tab} (h : exec t .leave = some t') :
    ∃ s p up, t.chain = s :: p :: up ∧ t' = { t with chain := p :: up, table := put t.table p.id p.addr } := by
  simp only [exec, Tab.leave] at h
  split at h
  · rename_i s p up hc
    cases h
    exact ⟨s, p, up, hc, rfl⟩
  · cases h

theorem exec_mark {t t' : Tab} {f : Flag} (h : exec t (.mark f) = some t') :
    ∃ s up, t.chain = s :: up ∧ t' = { t with chain := s.addKind f :: up } := by
  simp only [exec] at h
  split at h
  · cases h
  · rename_i s up hc
    cases h
    exact ⟨s, up, hc, rfl⟩

/-- **C23, identities** (partial: of settled scopes; the temporary ones of parenthesised expressions share a
number, see `scope_number_violated`).  The scopes entered get the numbers following those given before, one after the
other, hence each a number never used. -/
theorem scope_numbers_partial (ops : List Op) (hs : AllSettled ops) (t : Tab) :
    ∃ n, (entered t ops).map Prod.fst = (List.range n).map (t.seed + 1 + ·) := by
  induction ops generalizing t with
  | nil => exact ⟨0, rfl⟩
  | cons o os ih =>
    have hs' : AllSettled os := fun a b c d h => hs a b c d (List.mem_cons_of_mem _ h)
    rw [entered]
    cases he : exec t o with
    | none => exact ⟨0, rfl⟩
    | some t' =>
      cases o with
      | leave =>
        obtain ⟨s, p, up, _, rfl⟩ := exec_leave he
        exact ih hs' _
      | mark f =>
        obtain ⟨s, up, _, rfl⟩ := exec_mark he
        exact ih hs' _
      | enter fn arrow settled extra =>
        have hset := hs fn arrow settled extra (List.mem_cons_self ..)
        have hne : t.chain ≠ [] := by
          intro h0; simp [exec, Tab.enter, h0] at he
        obtain ⟨c, up, hc⟩ := List.exists_cons_of_ne_nil hne
        obtain ⟨s, t1, h1, h2, h3, h4, h5, h6, h7, h8⟩ := exec_enter t fn arrow settled extra c up hc
        rw [he] at h1
        cases h1
        obtain ⟨n, hn⟩ := ih hs' t'
        rw [hset] at h4
        simp only [if_true] at h4
        refine ⟨n + 1, ?_⟩
        simp only [List.map_cons, hn, h4, List.range_succ_eq_map, List.map_map]
        congr 1
        apply List.map_congr_left
        intro i _
        simp only [Function.comp]
        omega

/-- **C23 is violated**: a block and then a parenthesised expression: the temporary scope gets the
number of the block, and the table of scopes has it in the block's place from then on. -/
theorem scope_number_violated : ∃ t,
    execAll Tab.new [.enter false false true [], .leave, .enter false false false [.paren], .leave] = some t ∧
    entered Tab.new [.enter false false true [], .leave, .enter false false false [.paren], .leave] =
      [(1, 1), (1, 2)] ∧ t.table 1 = some 2 := ⟨_, rfl, rfl, rfl⟩

/-- Open scopes have numbers at most the seed, and are found in the table. -/
structure Good (t : Tab) (all : List (Nat × Nat)) : Prop where
  ids : ∀ p ∈ all, p.1 ≤ t.seed
  table : ∀ p ∈ all, t.table p.1 = some p.2
  chain : ∀ s ∈ t.chain, (s.id, s.addr) ∈ all

theorem good_run (ops : List Op) (hs : AllSettled ops) :
    ∀ (t : Tab) (all : List (Nat × Nat)), Good t all → ∀ t', execAll t ops = some t' →
      Good t' (entered t ops ++ all) := by
  induction ops with
  | nil => intro t all hg t' h; cases h; exact hg
  | cons o os ih =>
    intro t all hg t' h
    have hs' : AllSettled os := fun a b c d h => hs a b c d (List.mem_cons_of_mem _ h)
    rw [execAll] at h
    rw [entered]
    cases he : exec t o with
    | none => rw [he] at h; cases h
    | some t1 =>
      rw [he] at h
      simp only at h ⊢
      cases o with
      | leave =>
        obtain ⟨s, p, up, hc, rfl⟩ := exec_leave he
        refine ih hs' _ all ?_ t' h
        refine ⟨hg.ids, ?_, ?_⟩
        · intro q hq
          simp only [put]
          split
          · rename_i heq
            have hp := hg.table _ (hg.chain p (by rw [hc]; simp))
            have hq2 := hg.table q hq
            rw [heq] at hq2
            simp only at hp
            rw [hp] at hq2
            exact hq2
          · exact hg.table q hq
        · intro s' hs'; exact hg.chain s' (by rw [hc]; exact List.mem_cons_of_mem _ hs')
      | mark f =>
        obtain ⟨s, up, hc, rfl⟩ := exec_mark he
        refine ih hs' { t with chain := s.addKind f :: up } all ⟨hg.ids, hg.table, ?_⟩ t' h
        intro s' hs'
        rcases List.mem_cons.1 hs' with rfl | hs'
        · exact hg.chain s (by rw [hc]; exact List.mem_cons_self ..)
        · exact hg.chain s' (by rw [hc]; exact List.mem_cons_of_mem _ hs')
      | enter fn arrow settled extra =>
        have hset := hs fn arrow settled extra (List.mem_cons_self ..)
        have hne : t.chain ≠ [] := by
          intro h0; simp [exec, Tab.enter, h0] at he
        obtain ⟨c, up, hc⟩ := List.exists_cons_of_ne_nil hne
        obtain ⟨s, t2, h1, h2, h3, h4, h5, h6, h7, h8⟩ := exec_enter t fn arrow settled extra c up hc
        rw [he] at h1
        cases h1
        rw [hset] at h4
        simp only [if_true] at h4
        have hg' : Good t1 ((t1.seed, t.next) :: all) := by
          refine ⟨?_, ?_, ?_⟩
          · intro p hp
            rcases List.mem_cons.1 hp with rfl | hp
            · exact Nat.le_refl _
            · have := hg.ids p hp; omega
          · intro p hp
            rw [h7]
            simp only [put]
            rcases List.mem_cons.1 hp with rfl | hp
            · simp
            · have := hg.ids p hp
              rw [if_neg (by omega)]
              exact hg.table p hp
          · intro s' hs'
            rw [h2] at hs'
            rcases List.mem_cons.1 hs' with rfl | hs'
            · rw [h3, h5]; exact List.mem_cons_self ..
            · exact List.mem_cons_of_mem _ (hg.chain s' hs')
        have := ih hs' t1 _ hg' t' h
        refine ⟨?_, ?_, ?_⟩
        · intro p hp
          refine this.ids p ?_
          simp only [List.cons_append, List.mem_cons, List.mem_append] at hp ⊢
          rcases hp with hp | hp | hp <;> simp [hp]
        · intro p hp
          refine this.table p ?_
          simp only [List.cons_append, List.mem_cons, List.mem_append] at hp ⊢
          rcases hp with hp | hp | hp <;> simp [hp]
        · intro s' hs'
          have := this.chain s' hs'
          simp only [List.cons_append, List.mem_cons, List.mem_append] at this ⊢
          rcases this with hp | hp | hp <;> simp [hp]

/-- **C23, the table of scopes** (partial, as above).  At any time every scope ever entered is found under its
number. -/
theorem scope_table_partial (ops : List Op) (hs : AllSettled ops) (t : Tab)
    (h : execAll Tab.new ops = some t) : ∀ p ∈ entered Tab.new ops, t.table p.1 = some p.2 := by
  have hg : Good Tab.new [(0, 0)] := by
    refine ⟨?_, ?_, ?_⟩ <;> simp [Tab.new, put]
  intro p hp
  exact (good_run ops hs _ _ hg t h).table p (List.mem_append_left _ hp)

/-! ## Context -/

/-- What an open scope knows, given how it and the ones around it were entered. -/
structure Knows (k : Kind) (ls : List Level) : Prop where
  loop : (k .loopDirect = true ∨ k .loopIndirect = true) ↔ within [.loopDirect] ls
  loopDirect : k .loopDirect = true ↔ ∃ l r, ls = l :: r ∧ .loopDirect ∈ l.extra
  brk : (k .switch = true ∨ k .switchIndirect = true ∨ k .try_ = true ∨ k .tryIndirect = true) ↔
    within [.switch, .try_] ls
  switchDirect : k .switch = true ↔ ∃ l r, ls = l :: r ∧ .switch ∈ l.extra
  async : k .async = true ↔ within [.async] ls
  generator : k .generator = true ↔ within [.generator] ls
  formalParams : k .formalParams = true ↔ within [.formalParams] ls
  ctor : k .ctor = true ↔ withinArrow [.ctor] ls
  strict : k .strict = true ↔ anywhere .strict ls
  super : k .clsHasSuper = true ↔ anywhere .clsHasSuper ls
  abstract : k .abstractCls = true ↔ anywhere .abstractCls ls
  declare : k .tsDeclare = true ↔ anywhere .tsDeclare ls
  cls : (k .cls = true ∨ k .clsIndirect = true) ↔ anywhere .cls ls
  module : (k .tsModule = true ∨ k .tsModuleIndirect = true) ↔ anywhere .tsModule ls
  fn : (k .func = true ∨ k .funcIndirect = true) ↔ ∃ l ∈ ls, l.fn = true

theorem knows_enter {k : Kind} {ls : List Level} (h : Knows k ls) (fn arrow : Bool) (extra : List Flag)
    (hx : ∀ f ∈ extra, given f = true) (k' : Kind)
    (hk : ∀ g, k' g = (inherit k fn arrow g || decide (g ∈ extra))) :
    Knows k' ({ fn, arrow, extra } :: ls) := by
  have hno : ∀ g, given g = false → g ∉ extra := fun g hg hm => by
    have := hx g hm; rw [hg] at this; cases this
  have n1 := hno .loopIndirect rfl
  have n2 := hno .switchIndirect rfl
  have n3 := hno .tryIndirect rfl
  have n4 := hno .func rfl
  have n5 := hno .funcIndirect rfl
  have n6 := hno .clsIndirect rfl
  have n7 := hno .tsModuleIndirect rfl
  constructor
  · rw [hk, hk, within, ← h.loop]; cases fn <;> simp [inherit, n1]
  · rw [hk]; simp [inherit]
  · rw [hk, hk, hk, hk, within, ← h.brk]
    cases fn <;> simp [inherit, n2, n3]
    · constructor
      · rintro (h1 | (h1 | h1) | h1)
        · exact .inl (.inl h1)
        · rcases h1 with h1 | h1
          · exact .inr (.inl h1)
          · exact .inr (.inr (.inl h1))
        · rcases h1 with h1 | h1
          · exact .inr (.inr (.inr (.inl h1)))
          · exact .inr (.inr (.inr (.inr h1)))
        · exact .inl (.inr h1)
      · rintro ((h1 | h1) | h1 | h1 | h1 | h1)
        · exact .inl h1
        · exact .inr (.inr h1)
        · exact .inr (.inl (.inl (.inl h1)))
        · exact .inr (.inl (.inl (.inr h1)))
        · exact .inr (.inl (.inr (.inl h1)))
        · exact .inr (.inl (.inr (.inr h1)))
  · rw [hk]; simp [inherit]
  · rw [hk, within, ← h.async]; cases fn <;> simp [inherit, or_comm]
  · rw [hk, within, ← h.generator]; cases fn <;> simp [inherit, or_comm]
  · rw [hk, within, ← h.formalParams]; cases fn <;> simp [inherit, or_comm]
  · rw [hk, withinArrow, ← h.ctor]; cases fn <;> cases arrow <;> simp [inherit, or_comm]
  · rw [hk]; simp only [inherit, Bool.or_eq_true, h.strict, decide_eq_true_eq]; simp [anywhere, or_comm]
  · rw [hk]; simp only [inherit, Bool.or_eq_true, h.super, decide_eq_true_eq]; simp [anywhere, or_comm]
  · rw [hk]; simp only [inherit, Bool.or_eq_true, h.abstract, decide_eq_true_eq]; simp [anywhere, or_comm]
  · rw [hk]; simp only [inherit, Bool.or_eq_true, h.declare, decide_eq_true_eq]; simp [anywhere, or_comm]
  · rw [hk, hk]
    have := h.cls
    simp only [anywhere] at this
    simp only [inherit, Bool.or_eq_true, decide_eq_true_eq, n6, or_false, this]; simp [anywhere]
  · rw [hk, hk]
    have := h.module
    simp only [anywhere] at this
    simp only [inherit, Bool.or_eq_true, decide_eq_true_eq, n7, or_false, this]; simp [anywhere]
  · rw [hk, hk]
    have := h.fn
    simp only [inherit, Bool.or_eq_true, decide_eq_true_eq, n4, n5, or_false, this]; simp

theorem knows_mark {k : Kind} {l : Level} {ls : List Level} (h : Knows k (l :: ls)) (f : Flag)
    (hf : given f = true) (k' : Kind) (hk : ∀ g, k' g = (k g || g == f)) :
    Knows k' ({ l with extra := f :: l.extra } :: ls) := by
  have hno : ∀ g, given g = false → (g == f) = false := fun g hg => by
    cases f <;> simp [given] at hf <;> cases g <;> simp [given] at hg <;> rfl
  have n1 := hno .loopIndirect rfl
  have n2 := hno .switchIndirect rfl
  have n3 := hno .tryIndirect rfl
  have n4 := hno .func rfl
  have n5 := hno .funcIndirect rfl
  have n6 := hno .clsIndirect rfl
  have n7 := hno .tsModuleIndirect rfl
  have key : ∀ g, (g == f) = true ↔ g = f := fun g => by simp
  constructor
  · have := h.loop
    simp only [within, List.mem_singleton, exists_eq_left] at this ⊢
    rw [hk, hk, n1]
    simp only [Bool.or_eq_true, key, List.mem_cons, Bool.or_false]
    grind
  · have := h.loopDirect
    rw [hk]; simp at this ⊢; grind
  · have := h.brk
    simp only [within, List.mem_cons, List.not_mem_nil, or_false] at this ⊢
    rw [hk, hk, hk, hk, n2, n3]
    simp only [Bool.or_eq_true, key, List.mem_cons, Bool.or_false]
    grind
  · have := h.switchDirect
    rw [hk]; simp at this ⊢; grind
  · have := h.async
    simp only [within, List.mem_singleton, exists_eq_left] at this ⊢
    rw [hk]; simp only [Bool.or_eq_true, key, List.mem_cons]; grind
  · have := h.generator
    simp only [within, List.mem_singleton, exists_eq_left] at this ⊢
    rw [hk]; simp only [Bool.or_eq_true, key, List.mem_cons]; grind
  · have := h.formalParams
    simp only [within, List.mem_singleton, exists_eq_left] at this ⊢
    rw [hk]; simp only [Bool.or_eq_true, key, List.mem_cons]; grind
  · have := h.ctor
    simp only [withinArrow, List.mem_singleton, exists_eq_left] at this ⊢
    rw [hk]; simp only [Bool.or_eq_true, key, List.mem_cons]; grind
  · have := h.strict
    simp only [anywhere, List.mem_cons, exists_eq_or_imp] at this ⊢
    rw [hk]; simp only [Bool.or_eq_true, key]; grind
  · have := h.super
    simp only [anywhere, List.mem_cons, exists_eq_or_imp] at this ⊢
    rw [hk]; simp only [Bool.or_eq_true, key]; grind
  · have := h.abstract
    simp only [anywhere, List.mem_cons, exists_eq_or_imp] at this ⊢
    rw [hk]; simp only [Bool.or_eq_true, key]; grind
  · have := h.declare
    simp only [anywhere, List.mem_cons, exists_eq_or_imp] at this ⊢
    rw [hk]; simp only [Bool.or_eq_true, key]; grind
  · have := h.cls
    simp only [anywhere, List.mem_cons, exists_eq_or_imp] at this ⊢
    rw [hk, hk, n6]; simp only [Bool.or_eq_true, key, Bool.or_false]; grind
  · have := h.module
    simp only [anywhere, List.mem_cons, exists_eq_or_imp] at this ⊢
    rw [hk, hk, n7]; simp only [Bool.or_eq_true, key, Bool.or_false]; grind
  · have := h.fn
    rw [hk, hk, n4, n5]
    simpa using this

/-- All open scopes know their context. -/
inductive AllKnow : List Scope → List Level → Prop
  | root {s l} : Knows s.kind [l] → AllKnow [s] [l]
  | cons {s l r c ls} : Knows s.kind (l :: r :: ls) → AllKnow c (r :: ls) → AllKnow (s :: c) (l :: r :: ls)

theorem AllKnow.head {c ls} (h : AllKnow c ls) : ∃ s up, c = s :: up ∧ Knows s.kind ls := by
  cases h with
  | root h => exact ⟨_, _, rfl, h⟩
  | cons h _ => exact ⟨_, _, rfl, h⟩

/-- The parser gives scopes no derived flag by hand. -/
def GivesOnly (ops : List Op) : Prop :=
  (∀ fn arrow settled extra, Op.enter fn arrow settled extra ∈ ops → ∀ f ∈ extra, given f = true) ∧
  ∀ f, Op.mark f ∈ ops → given f = true

theorem know_run (ops : List Op) (hx : GivesOnly ops) :
    ∀ t ls ls', AllKnow t.chain ls → levels ls ops = some ls' →
      ∃ t', execAll t ops = some t' ∧ AllKnow t'.chain ls' := by
  induction ops with
  | nil => intro t ls ls' h hl; cases hl; exact ⟨t, rfl, h⟩
  | cons o os ih =>
    intro t ls ls' h hl
    have hx' : GivesOnly os :=
      ⟨fun a b c d hm => hx.1 a b c d (List.mem_cons_of_mem _ hm),
       fun f hm => hx.2 f (List.mem_cons_of_mem _ hm)⟩
    cases o with
    | enter fn arrow settled extra =>
      rw [levels] at hl
      obtain ⟨s, up, hc, hk⟩ := h.head
      obtain ⟨s', t1, h1, h2, _, _, _, _, _, h8⟩ := exec_enter t fn arrow settled extra s up hc
      have hnew := knows_enter hk fn arrow extra (hx.1 fn arrow settled extra (List.mem_cons_self ..)) s'.kind h8
      have : AllKnow t1.chain ({ fn, arrow, extra } :: ls) := by
        rw [h2]
        generalize t.chain = c at h
        cases h with
        | root h => exact .cons hnew (.root h)
        | cons h g => exact .cons hnew (.cons h g)
      obtain ⟨t', h3, h4⟩ := ih hx' t1 _ ls' this hl
      exact ⟨t', by rw [execAll, h1]; exact h3, h4⟩
    | mark f =>
      generalize hc : t.chain = c at h
      have hf := hx.2 f (List.mem_cons_self ..)
      have he : ∀ s up, c = s :: up → exec t (.mark f) = some { t with chain := s.addKind f :: up } := by
        intro s up hcc
        simp only [exec]
        rw [hc, hcc]
      cases h with
      | @root s l hk =>
        rw [levels] at hl
        obtain ⟨t', h3, h4⟩ := ih hx' { t with chain := [s.addKind f] } _ ls'
          (.root (knows_mark hk f hf (s.addKind f).kind fun _ => rfl)) hl
        exact ⟨t', by rw [execAll, he _ _ rfl]; exact h3, h4⟩
      | @cons s l r c ls hk h2 =>
        rw [levels] at hl
        obtain ⟨t', h3, h4⟩ := ih hx' { t with chain := s.addKind f :: c } _ ls'
          (.cons (knows_mark hk f hf (s.addKind f).kind fun _ => rfl) h2) hl
        exact ⟨t', by rw [execAll, he _ _ rfl]; exact h3, h4⟩
    | leave =>
      generalize hc : t.chain = c at h
      cases h with
      | root h => cases hl
      | @cons s l r c ls h1 h2 =>
        rw [levels] at hl
        obtain ⟨p, up, hp, _⟩ := h2.head
        have he : exec t .leave = some { t with chain := p :: up, table := put t.table p.id p.addr } := by
          simp only [exec, Tab.leave]
          rw [hc, hp]
        obtain ⟨t', h3, h4⟩ := ih hx' { t with chain := p :: up, table := put t.table p.id p.addr } (r :: ls) ls'
          (by show AllKnow (p :: up) _; rw [← hp]; exact h2) hl
        exact ⟨t', by rw [execAll, he]; exact h3, h4⟩

/-- The program scope. -/
def root : Level := { fn := false, arrow := false, extra := [.global] }

/-- **C23, context.** Whatever has been entered, marked and left, the current scope's flags say exactly
what it is inside of: loop, generator, async and parameter flags come from scopes of the same function,
constructor flags also through arrow functions, strictness and class flags from anywhere.
(That `brk` counts `try` blocks beside `switch` ones is a fault: see C24.) -/
theorem scope_context (ops : List Op) (hx : GivesOnly ops) (ls : List Level)
    (hl : levels [root] ops = some ls) :
    ∃ t s up, execAll Tab.new ops = some t ∧ t.chain = s :: up ∧ Knows s.kind ls := by
  have h0 : AllKnow Tab.new.chain [root] := by
    refine .root ?_
    constructor <;> simp [Tab.new, within, withinArrow, anywhere, root]
  obtain ⟨t, h1, h2⟩ := know_run ops hx Tab.new [root] ls h0 hl
  obtain ⟨s, up, h3, h4⟩ := h2.head
  exact ⟨t, s, up, h1, h3, h4⟩

/-- A block in a loop in a generator in a strict program: the loop and the generator are seen from the block,
but not from an arrow function in it; strictness is. -/
example : ∃ t s up, execAll Tab.new [.mark .strict, .enter true false true [.generator],
      .enter false false true [.loopDirect], .enter false false true []] = some t ∧ t.chain = s :: up ∧
    s.kind .loopIndirect = true ∧ s.kind .generator = true ∧ s.kind .strict = true :=
  ⟨_, _, _, rfl, rfl, rfl, rfl, rfl⟩
example : ∃ t s up, execAll Tab.new [.mark .strict, .enter true false true [.generator],
      .enter false false true [.loopDirect], .enter true true true []] = some t ∧ t.chain = s :: up ∧
    s.kind .loopIndirect = false ∧ s.kind .generator = false ∧ s.kind .strict = true :=
  ⟨_, _, _, rfl, rfl, rfl, rfl, rfl⟩
example : Balanced [.enter true false true [], .enter false false true [.loopDirect], .leave, .leave,
    .enter false false false [], .leave] :=
  .cons (a := [.enter false false true [.loopDirect], .leave])
    (.cons (a := []) .nil .nil) (.cons (a := []) .nil .nil)
example : AllSettled [.enter true false true [], .mark .strict, .enter false false true [.loopDirect], .leave] := by
  intro a b c d h
  simp at h
  rcases h with h | h
  · exact h.2.2.1
  · exact h.2.2.1

/-! ## C57: declaring never panics -/

namespace Spec
/-- Scopes come and go, and names are declared: a variable, parameter or constant (`fn = false`) or a
function (`fn = true`), with any kind of binding, checked for duplicates or not. -/
inductive DOp where
  | op (o : Op)
  | decl (bind : Bind) (fn : Bool) (dec x : Nat) (dup : Bool)

/-- The program scope, at depth 1, is never left. -/
def Stays : Nat → List DOp → Prop
  | _, [] => True
  | n, .op (.enter ..) :: os => Stays (n + 1) os
  | n, .op .leave :: os => 1 < n ∧ Stays (n - 1) os
  | n, _ :: os => Stays n os
end Spec

def declRef (bind : Bind) (fn : Bool) (dec : Nat) : Ref := { dec, bind, typ := { fn } }

def drun : Tab → List DOp → Except SErr Tab
  | t, [] => .ok t
  | t, .op o :: os => match exec t o with
    | none => .error .panic
    | some t' => drun t' os
  | t, .decl bind fn dec x dup :: os => match addLocal t.chain (declRef bind fn dec) x dup with
    | .error e => .error e
    | .ok c => drun { t with chain := c } os

def PlainRef (r : Ref) : Prop := r.scope.isSome = true ∧ ∃ fn, r.typ = { fn }

/-- Every declaration knows its scope, and is a variable or a function. -/
def PlainScope (s : Scope) : Prop := ∀ x r, s.refs x = some r → PlainRef r

/-- The outermost scope is the program's. -/
def Rooted : List Scope → Prop
  | [] => False
  | [s] => s.kind .global = true
  | _ :: s :: up => Rooted (s :: up)

theorem rooted_upperFn {c : List Scope} (h : Rooted c) : ∃ s ∈ c, upperFn c = some s := by
  induction c with
  | nil => cases h
  | cons s up ih =>
    rw [upperFn]
    split
    · exact ⟨s, List.mem_cons_self .., rfl⟩
    · rename_i hf
      cases up with
      | nil =>
        simp only [Rooted] at h
        simp [Scope.isFn, h] at hf
      | cons p up =>
        obtain ⟨q, hq, h2⟩ := ih h
        exact ⟨q, List.mem_cons_of_mem _ hq, h2⟩

theorem merge_plain {a b : Typ} {f g : Bool} (ha : a = { fn := f }) (hb : b = { fn := g }) :
    checkRefDup a b = false := by
  subst ha hb; cases f <;> cases g <;> rfl

structure DInv (c : List Scope) (n : Nat) : Prop where
  plain : ∀ s ∈ c, PlainScope s
  rooted : Rooted c
  len : c.length = n

theorem plain_put {s : Scope} (h : PlainScope s) {x r} (hr : PlainRef r) :
    PlainScope { s with refs := put s.refs x r } := by
  intro y q hq
  simp only [put] at hq
  split at hq
  · cases hq; exact hr
  · exact h y q hq

theorem rooted_head {s s' : Scope} {up : List Scope} (hk : s'.kind .global = s.kind .global)
    (h : Rooted (s :: up)) : Rooted (s' :: up) := by
  cases up with
  | nil => simp only [Rooted] at h ⊢; rw [hk]; exact h
  | cons p up => exact h

theorem dinv_putCur {c n x r} (h : DInv c n) (hr : PlainRef r) : DInv (putCur x r c) n := by
  cases c with
  | nil => exact h
  | cons s up =>
    refine ⟨?_, rooted_head (s := s) rfl h.rooted, h.len⟩
    intro q hq
    rcases List.mem_cons.1 hq with rfl | hq
    · exact plain_put (h.plain s (List.mem_cons_self ..)) hr
    · exact h.plain q (List.mem_cons_of_mem _ hq)

theorem putFn_len (x r) (c : List Scope) : (putFn x r c).length = c.length := by
  induction c with
  | nil => rfl
  | cons s up ih => rw [putFn]; split <;> simp [ih]

theorem putFn_plain {c x r} (h : ∀ s ∈ c, PlainScope s) (hr : PlainRef r) :
    ∀ s ∈ putFn x r c, PlainScope s := by
  induction c with
  | nil => exact h
  | cons s up ih =>
    rw [putFn]
    have h2 := fun q hq => h q (List.mem_cons_of_mem s hq)
    split
    · intro q hq
      rcases List.mem_cons.1 hq with rfl | hq
      · exact plain_put (h s (List.mem_cons_self ..)) hr
      · exact h2 q hq
    · intro q hq
      rcases List.mem_cons.1 hq with rfl | hq
      · exact h q (List.mem_cons_self ..)
      · exact ih h2 q hq

theorem putFn_rooted {c x r} (h : Rooted c) : Rooted (putFn x r c) := by
  induction c with
  | nil => exact h
  | cons s up ih =>
    rw [putFn]
    split
    · exact rooted_head (s := s) rfl h
    · cases up with
      | nil => exact h
      | cons p up =>
        have := ih h
        rw [putFn] at this ⊢
        split <;> rename_i hp
        · rw [if_pos hp] at this; exact this
        · rw [if_neg hp] at this; exact this

theorem dinv_putFn {c n x r} (h : DInv c n) (hr : PlainRef r) : DInv (putFn x r c) n :=
  ⟨putFn_plain h.plain hr, putFn_rooted h.rooted, by rw [putFn_len]; exact h.len⟩

theorem fnClash_total {dup old} (h : ∀ r, old = some r → PlainRef r) : ∃ b, fnClash dup old = some b := by
  unfold fnClash
  split
  · exact ⟨_, rfl⟩
  · cases old with
    | none => exact ⟨_, rfl⟩
    | some l =>
      have := (h l rfl).1
      simp only
      split
      · exact ⟨_, rfl⟩
      · split
        · exact ⟨_, rfl⟩
        · split
          · rename_i hn; rw [hn] at this; cases this
          · exact ⟨_, rfl⟩

theorem curClash_total {q old} (h : ∀ r, old = some r → PlainRef r) : ∃ b, curClash q old = some b := by
  unfold curClash
  cases old with
  | none => exact ⟨_, rfl⟩
  | some l =>
    have := (h l rfl).1
    simp only
    split
    · split
      · rename_i hn; rw [hn] at this; cases this
      · exact ⟨_, rfl⟩
    · exact ⟨_, rfl⟩

theorem old_plain {s : Scope} (h : PlainScope s) (x : Nat) :
    ∃ f, ((s.refs x).map Ref.typ).getD {} = { fn := f } := by
  cases hr : s.refs x with
  | none => exact ⟨false, rfl⟩
  | some r => obtain ⟨_, f, hf⟩ := h x r hr; exact ⟨f, hf⟩

theorem addCur_plain {s : Scope} {up n} (h : DInv (s :: up) n) (bind fn dec x dup) :
    (∃ c, addCur (declRef bind fn dec) x dup (s.refs x) s (s :: up) = .ok c ∧ DInv c n) ∨
    addCur (declRef bind fn dec) x dup (s.refs x) s (s :: up) = .error .err := by
  have hs := h.plain s (List.mem_cons_self ..)
  have hr : PlainRef { declRef bind fn dec with scope := some s.id } := ⟨rfl, fn, rfl⟩
  have hstored : DInv (putCur x { declRef bind fn dec with scope := some s.id }
      (if (declRef bind fn dec).bind = .var then putFn x { declRef bind fn dec with scope := some s.id } (s :: up)
        else s :: up)) n := by
    split
    · exact dinv_putCur (dinv_putFn h hr) hr
    · exact dinv_putCur h hr
  unfold addCur
  simp only
  cases dup with
  | false => exact .inl ⟨_, rfl, hstored⟩
  | true =>
    obtain ⟨b, hb⟩ := curClash_total (q := declRef bind fn dec) (fun r hr => hs x r hr)
    simp only [Bool.not_true, Bool.false_eq_true, if_false, hb]
    cases b with
    | false => exact .inl ⟨_, rfl, hstored⟩
    | true =>
      obtain ⟨f, hf⟩ := old_plain hs x
      simp only [merge_plain hf (show (declRef bind fn dec).typ = { fn := fn } from rfl),
        Bool.false_eq_true, if_false]
      exact .inr trivial

theorem addLocal_plain {c n} (h : DInv c n) (bind fn dec x dup) :
    (∃ c', addLocal c (declRef bind fn dec) x dup = .ok c' ∧ DInv c' n) ∨
    addLocal c (declRef bind fn dec) x dup = .error .err := by
  cases c with
  | nil => cases h.rooted
  | cons s up =>
    unfold addLocal
    simp only
    split
    · exact .inr rfl
    · split
      · obtain ⟨ps, hps, hu⟩ := rooted_upperFn h.rooted
        rw [hu]
        simp only
        obtain ⟨b, hb⟩ := fnClash_total (dup := dup) (fun r hr => h.plain ps hps x r hr)
        rw [hb]
        cases b with
        | true =>
          obtain ⟨f, hf⟩ := old_plain (h.plain ps hps) x
          simp only [merge_plain hf (show (declRef bind fn dec).typ = { fn := fn } from rfl),
            Bool.false_eq_true, if_false]
          exact .inr trivial
        | false => exact addCur_plain h bind fn dec x dup
      · exact addCur_plain h bind fn dec x dup

theorem foldl_addKind_refs (extra : List Flag) (s : Scope) :
    (extra.foldl Scope.addKind s).refs = s.refs := by
  induction extra generalizing s with
  | nil => rfl
  | cons f fs ih => rw [List.foldl_cons, ih]; rfl

/-- **C57** (partial: variables, constants, parameters, functions and catch parameters; classes, imports and
TypeScript declarations can make it panic, see `class_var_panics_violated`).  Any history of entering and
leaving scopes and declaring names, whatever kinds of scope and of binding, checked for duplicates or not,
ends in a symbol table or an error, never in a panic. -/
theorem declare_no_panic_partial (ops : List DOp) (h : Stays 1 ops) :
    drun Tab.new ops ≠ .error .panic := by
  suffices H : ∀ ops t n, DInv t.chain n → Stays n ops → drun t ops ≠ .error .panic from
    H ops Tab.new 1 (by
      refine ⟨?_, by simp [Rooted, Tab.new], rfl⟩
      intro s hs x r hr
      simp only [Tab.new, List.mem_singleton] at hs
      subst hs
      cases hr) h
  intro ops
  induction ops with
  | nil => intro t n _ _; simp [drun]
  | cons o os ih =>
    intro t n hi hs
    cases o with
    | decl bind fn dec x dup =>
      rw [drun]
      rcases addLocal_plain hi bind fn dec x dup with ⟨c, hc, hi'⟩ | he
      · rw [hc]
        exact ih { t with chain := c } n hi' hs
      · rw [he]; simp
    | op o =>
      rw [drun]
      cases o with
      | enter fn arrow settled extra =>
        cases hc : t.chain with
        | nil => rw [hc] at hi; cases hi.rooted
        | cons s up =>
          have : ∃ t', exec t (.enter fn arrow settled extra) = some t' ∧ DInv t'.chain (n + 1) := by
            simp only [exec, Tab.enter, hc]
            refine ⟨_, rfl, ?_⟩
            rw [hc] at hi
            refine ⟨?_, hi.rooted, by simp only [List.length_cons]; have := hi.len; simp at this; omega⟩
            intro q hq
            rcases List.mem_cons.1 hq with rfl | hq
            · intro x r hr
              rw [foldl_addKind_refs] at hr
              cases hr
            · exact hi.plain q hq
          obtain ⟨t', ht, hi'⟩ := this
          rw [ht]
          exact ih t' _ hi' hs
      | mark f =>
        cases hc : t.chain with
        | nil => rw [hc] at hi; cases hi.rooted
        | cons s up =>
          simp only [exec, hc]
          rw [hc] at hi
          refine ih { t with chain := s.addKind f :: up } n ⟨?_, ?_, hi.len⟩ hs
          · intro q hq
            rcases List.mem_cons.1 hq with rfl | hq
            · exact hi.plain s (List.mem_cons_self ..)
            · exact hi.plain q (List.mem_cons_of_mem _ hq)
          · have hr := hi.rooted
            cases up with
            | nil => simp only [Rooted, Scope.addKind] at hr ⊢; rw [hr]; rfl
            | cons p up => exact hr
      | leave =>
        simp only [Stays] at hs
        cases hc : t.chain with
        | nil => rw [hc] at hi; cases hi.rooted
        | cons s up =>
          rw [hc] at hi
          cases up with
          | nil => have := hi.len; simp at this; omega
          | cons p up =>
            simp only [exec, Tab.leave, hc]
            refine ih { t with chain := p :: up, table := put t.table p.id p.addr } (n - 1) ⟨?_, ?_, ?_⟩ hs.2
            · exact fun q hq => hi.plain q (List.mem_cons_of_mem _ hq)
            · exact hi.rooted
            · have := hi.len; simp at this ⊢; omega

/-- `function f() { var f; try { } catch (e) { var e } }` is such a history, and ends in an error. -/
example : Stays 1 [.decl .var true 0 7 false, .op (.enter true false true []), .decl .var false 1 7 true,
      .op (.enter false false true [.catch_]), .decl .let false 2 9 true, .decl .var false 3 9 true,
      .op .leave, .op .leave] ∧
    drun Tab.new [.decl .var true 0 7 false, .op (.enter true false true []), .decl .var false 1 7 true,
      .op (.enter false false true [.catch_]), .decl .let false 2 9 true, .decl .var false 3 9 true,
      .op .leave, .op .leave] = .error .err := ⟨by simp [Stays], rfl⟩

end Mole.Parser.Sym
