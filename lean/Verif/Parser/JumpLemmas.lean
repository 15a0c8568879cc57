import Verif.Parser.JumpSpec
/-! # Simulation of the specification of jumps by the parser's scopes -/
namespace Mole.Parser.Sym
open Spec

/-- The part of the relation that does not concern labels. -/
structure Base (j : JS) (s : Scope) (up : List Scope) (c : Ctx) (t st : Bool) : Prop where
  chain : j.tab.chain = s :: up
  loops : ∃ rest, j.loops = c.loops ++ rest
  loop : (s.kind .loopDirect = true ∨ s.kind .loopIndirect = true) ↔ c.loops ≠ []
  brk1 : c.brk = true → s.kind .loopDirect = true ∨ s.kind .loopIndirect = true ∨ s.kind .switch = true ∨
    s.kind .switchIndirect = true
  brk2 : s.kind .loopDirect = true ∨ s.kind .loopIndirect = true ∨ s.kind .switch = true ∨
    s.kind .switchIndirect = true → c.brk = true ∨ t = true
  try2 : s.kind .try_ = true ∨ s.kind .tryIndirect = true → t = true
  loopBrk : c.loops ≠ [] → c.brk = true
  fn1 : c.fn = true → s.kind .func = true ∨ s.kind .funcIndirect = true
  fn2 : s.kind .func = true ∨ s.kind .funcIndirect = true → c.fn = true ∨ st = true
  own : ∀ l n, s.labels l = some n → ∃ i, c.lookup l = some (n, i)

/-- Between statements of a list: the labels in force are those of the scopes around. -/
structure InvL (j : JS) (s : Scope) (up : List Scope) (c : Ctx) (t st : Bool) : Prop
    extends Base j s up c t st where
  lab : ∀ l, (if s.kind .func then none else getLabel l up) = (c.lookup l).map Prod.fst

/-- At a statement: the labels in force are those found. -/
structure Inv (j : JS) (s : Scope) (up : List Scope) (c : Ctx) (t st : Bool) : Prop
    extends Base j s up c t st where
  lab : ∀ l, getLabel l (s :: up) = (c.lookup l).map Prod.fst

theorem InvL.inv {j s up c t st} (h : InvL j s up c t st) : Inv j s up c t st := by
  refine ⟨h.toBase, ?_⟩
  intro l
  rw [getLabel]
  cases hl : s.labels l with
  | none => exact h.lab l
  | some n => obtain ⟨i, hi⟩ := h.own l n hl; rw [hi]; rfl

/-- After a statement: everything as before, but for the labels of the current scope. -/
structure Post (b : Bool) (j : JS) (s : Scope) (up : List Scope) (j' : JS) (m : Nat → Option Nat) : Prop where
  loops : j'.loops = j.loops
  chain : j'.tab.chain = { s with labels := m } :: up
  lab : m = s.labels ∨ (b = true ∧ m = fun _ => none)

theorem Post.invL {b j s up c t st j' m} (h : InvL j s up c t st) (p : Post b j s up j' m) :
    InvL j' { s with labels := m } up c t st := by
  refine ⟨⟨p.chain, ?_, h.loop, h.brk1, h.brk2, h.try2, h.loopBrk, h.fn1, h.fn2, ?_⟩, h.lab⟩
  · rw [p.loops]; exact h.loops
  · intro l n hl
    rcases p.lab with hm | ⟨_, hm⟩
    · rw [hm] at hl; exact h.own l n hl
    · rw [hm] at hl; cases hl

theorem Post.inv {j s up c t st j' m} (h : Inv j s up c t st) (p : Post false j s up j' m) :
    Inv j' { s with labels := m } up c t st := by
  have hm : m = s.labels := by
    rcases p.lab with hm | ⟨h, _⟩
    · exact hm
    · cases h
  subst hm
  refine ⟨⟨p.chain, ?_, h.loop, h.brk1, h.brk2, h.try2, h.loopBrk, h.fn1, h.fn2, h.own⟩, h.lab⟩
  rw [p.loops]; exact h.loops

theorem Post.mono {b j s up j' m} (p : Post b j s up j' m) : Post true j s up j' m :=
  ⟨p.loops, p.chain, p.lab.imp id fun h => ⟨rfl, h.2⟩⟩

theorem Post.trans {b b' j s up j' m j'' m'} (p : Post b j s up j' m)
    (q : Post b' j' { s with labels := m } up j'' m') : Post (b || b') j s up j'' m' := by
  refine ⟨q.loops.trans p.loops, q.chain, ?_⟩
  rcases q.lab with h | ⟨h, h'⟩
  · rw [h]
    rcases p.lab with h1 | ⟨h1, h2⟩
    · exact .inl h1
    · exact .inr ⟨by rw [h1]; rfl, h2⟩
  · exact .inr ⟨by rw [h]; simp, h'⟩

theorem Post.refl (b : Bool) {j : JS} {s up} (h : j.tab.chain = s :: up) : Post b j s up j s.labels :=
  ⟨rfl, h, .inl rfl⟩

theorem seq_ok {r : Res} {k : JS → Res} {j ts} (h : r = .ok (j, ts)) :
    seq r k = match k j with
      | .error e => .error e
      | .ok (j', us) => .ok (j', ts ++ us) := by rw [h]; rfl

theorem seq_both {r : Res} {k : JS → Res} {j ts j' us} (h : r = .ok (j, ts)) (h' : k j = .ok (j', us)) :
    seq r k = .ok (j', ts ++ us) := by rw [seq_ok h, h']

theorem seq_err {r : Res} {k : JS → Res} {e} (h : r = .error e) : seq r k = .error e := by rw [h]; rfl

theorem seq_err2 {r : Res} {k : JS → Res} {j ts e} (h : r = .ok (j, ts)) (h' : k j = .error e) :
    seq r k = .error e := by rw [seq_ok h, h']

/-- The scope made by entering one. -/
theorem enterJ_ok (j : JS) (fn : Bool) (extra : List Flag) (s : Scope) (up : List Scope)
    (hc : j.tab.chain = s :: up) :
    ∃ j1 s1, enterJ j fn extra = .ok (j1, []) ∧ j1.tab.chain = s1 :: s :: up ∧ j1.loops = j.loops ∧
      (∀ g, s1.kind g = (inherit s.kind fn false g || decide (g ∈ extra))) ∧
      s1.labels = (if fn then fun _ => none else s.labels) := by
  simp only [enterJ, exec, Tab.enter, hc]
  refine ⟨_, _, rfl, rfl, rfl, ?_, ?_⟩
  · intro g; rw [addKinds_kind]
  · have : ∀ (e : List Flag) (s : Scope), (e.foldl Scope.addKind s).labels = s.labels := by
      intro e
      induction e with
      | nil => intro s; rfl
      | cons f fs ih => intro s; rw [List.foldl_cons, ih]; rfl
    rw [this]

theorem leaveJ_ok (j : JS) (s p : Scope) (up : List Scope) (hc : j.tab.chain = s :: p :: up) :
    ∃ j1, leaveJ j = .ok (j1, []) ∧ j1.tab.chain = p :: up ∧ j1.loops = j.loops := by
  simp only [leaveJ, Tab.leave, hc]
  exact ⟨_, rfl, rfl, rfl⟩

/-- Entering a block, loop body, switch, try block, catch or finally block. -/
theorem enter_block {j s up c t st} (h : Inv j s up c t st) (extra : List Flag) (c' : Ctx) (t' : Bool)
    (ns : List Nat)
    (he : ∀ f ∈ extra, f = .loopDirect ∨ f = .switch ∨ f = .try_ ∨ f = .catch_)
    (hl : c'.labels = c.labels) (hf : c'.fn = c.fn)
    (hn : c'.loops = ns ++ c.loops) (hnl : ns ≠ [] ↔ .loopDirect ∈ extra)
    (hb : c'.brk = true ↔ c.brk = true ∨ .loopDirect ∈ extra ∨ .switch ∈ extra)
    (ht : t' = true ↔ t = true ∨ .try_ ∈ extra)
    (j0 : JS) (hj0 : j0.tab = j.tab) (hj1 : j0.loops = ns ++ j.loops) :
    ∃ j1 s1, enterJ j0 false extra = .ok (j1, []) ∧ InvL j1 s1 (s :: up) c' t' st ∧
      j1.loops = j0.loops := by
  obtain ⟨j1, s1, h1, h2, h3, h4, h5⟩ := enterJ_ok j0 false extra s up (by rw [hj0]; exact h.chain)
  have hno : ∀ g, g ∈ extra → g = .loopDirect ∨ g = .switch ∨ g = .try_ ∨ g = .catch_ := he
  have n1 : Flag.loopIndirect ∉ extra := fun hm => by have := he _ hm; simp at this
  have n2 : Flag.switchIndirect ∉ extra := fun hm => by have := he _ hm; simp at this
  have n3 : Flag.tryIndirect ∉ extra := fun hm => by have := he _ hm; simp at this
  have n4 : Flag.func ∉ extra := fun hm => by have := he _ hm; simp at this
  have n5 : Flag.funcIndirect ∉ extra := fun hm => by have := he _ hm; simp at this
  have k1 : s1.kind .loopDirect = decide (Flag.loopDirect ∈ extra) := by rw [h4]; simp [inherit]
  have k2 : s1.kind .loopIndirect = (s.kind .loopDirect || s.kind .loopIndirect) := by
    rw [h4]; simp [inherit, n1]
  have k3 : s1.kind .switch = decide (Flag.switch ∈ extra) := by rw [h4]; simp [inherit]
  have k4 : s1.kind .switchIndirect = ((s.kind .switch || s.kind .switchIndirect) ||
      (s.kind .try_ || s.kind .tryIndirect)) := by rw [h4]; simp [inherit, n2]
  have k5 : s1.kind .try_ = decide (Flag.try_ ∈ extra) := by rw [h4]; simp [inherit]
  have k6 : s1.kind .tryIndirect = false := by rw [h4]; simp [inherit, n3]
  have k7 : s1.kind .func = false := by rw [h4]; simp [inherit, n4]
  have k8 : s1.kind .funcIndirect = (s.kind .func || s.kind .funcIndirect) := by
    rw [h4]; simp [inherit, n5]
  have hlook : ∀ l, c'.lookup l = c.lookup l := fun l => by simp only [Ctx.lookup, hl]
  refine ⟨j1, s1, h1, ⟨⟨h2, ?_, ?_, ?_, ?_, ?_, ?_, ?_, ?_, ?_⟩, ?_⟩, h3⟩
  · obtain ⟨rest, hr⟩ := h.loops
    exact ⟨rest, by rw [h3, hj1, hr, hn, List.append_assoc]⟩
  · rw [k1, k2, hn]
    have := h.loop
    simp only [Bool.or_eq_true, decide_eq_true_eq, ne_eq, List.append_eq_nil_iff] at this ⊢
    rw [this, ← hnl]
    grind
  · rw [k1, k2, k3, k4]
    intro hc
    have h1 := h.brk1
    simp only [Bool.or_eq_true, decide_eq_true_eq]
    rcases hb.1 hc with hc | hc | hc
    · rcases h1 hc with h | h | h | h <;> simp [h]
    · simp [hc]
    · simp [hc]
  · rw [k1, k2, k3, k4]
    simp only [Bool.or_eq_true, decide_eq_true_eq]
    intro hk
    have h2 := h.brk2
    have h3 := h.try2
    rcases hk with hk | (hk | hk) | hk | ((hk | hk) | hk)
    · exact .inl (hb.2 (.inr (.inl hk)))
    · rcases h2 (.inl hk) with h | h
      · exact .inl (hb.2 (.inl h))
      · exact .inr (ht.2 (.inl h))
    · rcases h2 (.inr (.inl hk)) with h | h
      · exact .inl (hb.2 (.inl h))
      · exact .inr (ht.2 (.inl h))
    · exact .inl (hb.2 (.inr (.inr hk)))
    · rcases h2 (.inr (.inr (.inl hk))) with h | h
      · exact .inl (hb.2 (.inl h))
      · exact .inr (ht.2 (.inl h))
    · rcases h2 (.inr (.inr (.inr hk))) with h | h
      · exact .inl (hb.2 (.inl h))
      · exact .inr (ht.2 (.inl h))
    · exact .inr (ht.2 (.inl (h3 hk)))
  · rw [k5, k6]
    simp only [decide_eq_true_eq, Bool.false_eq_true, or_false]
    intro hk; exact ht.2 (.inr hk)
  · rw [hn]
    intro hne
    apply hb.2
    cases ns with
    | nil => exact .inl (h.loopBrk hne)
    | cons n ns => exact .inr (.inl (hnl.1 (by simp)))
  · rw [k7, k8, hf]
    intro hc
    rcases h.fn1 hc with h | h <;> simp [h]
  · rw [k7, k8, hf]
    simp only [Bool.false_eq_true, false_or, Bool.or_eq_true]
    exact h.fn2
  · rw [h5]
    intro l n hln
    rw [hlook]
    exact h.own l n hln
  · intro l
    rw [k7, hlook]
    exact h.lab l

/-- Entering a function or a class. -/
theorem enter_fn {j s up} (hc : j.tab.chain = s :: up) (c' : Ctx) (st : Bool) (extra : List Flag)
    (he : ∀ f ∈ extra, f = .strict ∨ f = .cls)
    (hl : c'.labels = []) (hlo : c'.loops = []) (hb : c'.brk = false) (hf : c'.fn = true ∨ st = true) :
    ∃ j1 s1, enterJ j true extra = .ok (j1, []) ∧ InvL j1 s1 (s :: up) c' false st ∧ j1.loops = j.loops := by
  obtain ⟨j1, s1, h1, h2, h3, h4, h5⟩ := enterJ_ok j true extra s up hc
  have n : ∀ g, g ≠ .strict → g ≠ .cls → g ∉ extra := fun g a b hm => by
    rcases he g hm with h | h
    · exact a h
    · exact b h
  have k1 : s1.kind .loopDirect = false := by rw [h4]; simp [inherit, n]
  have k2 : s1.kind .loopIndirect = false := by rw [h4]; simp [inherit, n]
  have k3 : s1.kind .switch = false := by rw [h4]; simp [inherit, n]
  have k4 : s1.kind .switchIndirect = false := by rw [h4]; simp [inherit, n]
  have k5 : s1.kind .try_ = false := by rw [h4]; simp [inherit, n]
  have k6 : s1.kind .tryIndirect = false := by rw [h4]; simp [inherit, n]
  have k7 : s1.kind .func = true := by rw [h4]; simp [inherit]
  have hlook : ∀ l, c'.lookup l = none := fun l => by simp only [Ctx.lookup, hl]; rfl
  refine ⟨j1, s1, h1, ⟨⟨h2, ?_, ?_, ?_, ?_, ?_, ?_, ?_, ?_, ?_⟩, ?_⟩, h3⟩
  · exact ⟨_, by rw [hlo]; rfl⟩
  · simp [k1, k2, hlo]
  · rw [hb]; intro h; cases h
  · simp [k1, k2, k3, k4]
  · simp [k5, k6]
  · rw [hlo]; intro h; exact absurd rfl h
  · intro _; exact .inl k7
  · intro _; exact hf
  · intro l n hln; rw [h5] at hln; cases hln
  · intro l; rw [k7, hlook]; rfl

/-- Leaving again. -/
theorem leave_post {j1 s1 p up b j2 m1 j0 : _} {_j : JS} (hp : Post b j1 s1 (p :: up) j2 m1)
    (hl : j1.loops = j0) :
    ∃ j3, leaveJ j2 = .ok (j3, []) ∧ j3.tab.chain = p :: up ∧ j3.loops = j0 := by
  obtain ⟨j3, h1, h2, h3⟩ := leaveJ_ok j2 _ p up hp.chain
  exact ⟨j3, h1, h2, by rw [h3, hp.loops, hl]⟩

theorem both_some {a b : Option (List Tgt)} {ts} (h : both a b = some ts) :
    ∃ x y, a = some x ∧ b = some y ∧ ts = x ++ y := by
  cases a <;> cases b <;> simp [both] at h
  exact ⟨_, _, rfl, rfl, h.symm⟩

theorem both_none {a b : Option (List Tgt)} (h : both a b = none) : a = none ∨ ∃ x, a = some x ∧ b = none := by
  cases a <;> cases b <;> simp [both] at h ⊢

end Mole.Parser.Sym
