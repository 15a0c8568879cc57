import Verif.Parser.ProgPlaceSpec
import Verif.Parser.ProgAccS

/-! # What the scopes are after a function of the parser: rules for proofs (for C77) -/

namespace Mole.Parser.Prog

/-- Without what is set for a part of a statement. -/
def core (c : Ctx) : Ctx := { c with interim := false }

/-- The scopes and the loops. -/
structure Env where
  c : Ctx
  u : List Ctx
  n : Nat
  /-- no part of the state: if `true`, a return statement where `retsStk` is empty is accounted for by a `return` among the tokens -/
  nr : Bool

/-- The scopes and loops of a state. -/
def S.env (s : S) (nr : Bool) : Env := ⟨core s.cur, s.up.map core, s.loops, nr⟩

/-- No odd use of `async`. -/
def NoOdd (ts : List Tok) : Prop := ¬AsyncCall ts ∧ ¬AsyncStarArrow ts

/-- What tokens account for a return statement where `retsStk` is empty. -/
def Lone (nr : Bool) (ts : List Tok) : Prop := ReturnAfterStatic ts ∨ (nr = true ∧ ∃ t ∈ ts, t.k = .kw .return_)

/-- From `A` to `B` without a panic, and the result is so. -/
def TrAt (ts : List Tok) (A : Env) {α : Type} (m : M α) (B : Env) (P : α → Prop) : Prop :=
  ∀ (s : S) (nr : Bool), s.ts = ts → s.env nr = A → NoOdd s.ts →
    match m s with
    | .ok a s' => s'.env nr = B ∧ s'.ts <:+ s.ts ∧ P a
    | .err => True
    | .panic => False
    | .noRets => Lone nr s.ts

/-- The same for all tokens. -/
def Tr (A : Env) {α : Type} (m : M α) (B : Env) (P : α → Prop) : Prop := ∀ ts, TrAt ts A m B P

/-- The scope inside a scope. -/
def sub1 (c : Ctx) : Ctx := { gen := c.gen, async := c.async, loop := c.loop, sw := c.sw || c.try_, fn := c.fn, rets := c.rets }

def Env.enter (A : Env) (f : Ctx → Ctx) : Env := ⟨f (sub1 A.c), A.c :: A.u, A.n, A.nr⟩
def Env.enterFn (A : Env) (async gen notIn : Bool) : Env :=
  ⟨{ gen := gen, async := async, notIn := notIn, fn := true, rets := true }, A.c :: A.u, A.n, A.nr⟩
def Env.enterCls (A : Env) : Env := ⟨{ fn := true, rets := A.c.rets }, A.c :: A.u, A.n, A.nr⟩
def Env.push (A : Env) : Env := ⟨A.c, A.u, A.n + 1, A.nr⟩
def Env.notIn (A : Env) (b : Bool) : Env := ⟨{ A.c with notIn := b }, A.u, A.n, A.nr⟩

theorem suffix_noOdd {a b : List Tok} (h : b <:+ a) (ha : NoOdd a) : NoOdd b := by
  obtain ⟨x, rfl⟩ := h
  refine ⟨fun hb => ha.1 ?_, fun hb => ha.2 ?_⟩
  · obtain ⟨a, t, w, q, l, q', b, rfl, h⟩ := hb
    exact ⟨x ++ a, t, w, q, l, q', b, by simp, h⟩
  · obtain ⟨a, t, m, w, q, b, rfl, h⟩ := hb
    exact ⟨x ++ a, t, m, w, q, b, by simp, h⟩

theorem suffix_lone {nr : Bool} {a b : List Tok} (h : b <:+ a) (hb : Lone nr b) : Lone nr a := by
  rcases hb with ⟨w, st, br, b', r, c, rfl, h'⟩ | ⟨h1, t, ht, h2⟩
  · obtain ⟨x, rfl⟩ := h
    exact Or.inl ⟨x ++ w, st, br, b', r, c, by simp, h'⟩
  · exact Or.inr ⟨h1, t, h.mem ht, h2⟩

section
variable {α β : Type} {A B C : Env} {ts : List Tok}

theorem tr_at {m : M α} {P : α → Prop} (h : Tr A m B P) : TrAt ts A m B P := h ts

theorem trAt_bind {m : M α} {f : α → M β} {P : α → Prop} {Q : β → Prop} (h1 : TrAt ts A m B P) (h2 : ∀ a, P a → Tr B (f a) C Q) :
    TrAt ts A (m >>= f) C Q := by
  intro s nr hs hA hN
  have := h1 s nr hs hA hN
  change (match (match m s with | .ok a s' => f a s' | .err => .err | .panic => .panic | .noRets => .noRets) with
    | .ok a s' => s'.env nr = C ∧ s'.ts <:+ s.ts ∧ Q a | .err => True | .panic => False | .noRets => Lone nr s.ts)
  cases hm : m s with
  | ok a s1 =>
    rw [hm] at this
    obtain ⟨e1, e2, e3⟩ := this
    have h := h2 a e3 s1.ts s1 nr rfl e1 (suffix_noOdd e2 hN)
    dsimp only
    cases hf : f a s1 with
    | ok b s2 =>
      rw [hf] at h
      exact ⟨h.1, h.2.1.trans e2, h.2.2⟩
    | err => trivial
    | panic => rw [hf] at h; exact h
    | noRets => rw [hf] at h; exact suffix_lone e2 h
  | err => trivial
  | panic => rw [hm] at this; exact this
  | noRets => rw [hm] at this; exact this

theorem tr_bind {m : M α} {f : α → M β} {P : α → Prop} {Q : β → Prop} (h1 : Tr A m B P) (h2 : ∀ a, P a → Tr B (f a) C Q) :
    Tr A (m >>= f) C Q := fun ts => trAt_bind (h1 ts) h2

theorem trAt_pure {a : α} {P : α → Prop} (h : P a) : TrAt ts A (pure a : M α) A P := by
  intro s nr _ hA _
  exact ⟨hA, List.suffix_refl _, h⟩

theorem tr_pure {a : α} {P : α → Prop} (h : P a) : Tr A (pure a : M α) A P := fun _ => trAt_pure h

theorem trAt_ite {c : Prop} [Decidable c] {m n : M α} {P : α → Prop} (h1 : c → TrAt ts A m B P) (h2 : ¬c → TrAt ts A n B P) :
    TrAt ts A (if c then m else n) B P := by
  split
  · exact h1 ‹_›
  · exact h2 ‹_›

theorem tr_ite {c : Prop} [Decidable c] {m n : M α} {P : α → Prop} (h1 : c → Tr A m B P) (h2 : ¬c → Tr A n B P) :
    Tr A (if c then m else n) B P := fun _ => trAt_ite (fun h => h1 h _) (fun h => h2 h _)

theorem tr_left {f : List Tok → M β} {Q : β → Prop} (h : ∀ ts, TrAt ts A (f ts) B Q) : Tr A (left >>= f) B Q := by
  intro ts s nr hs hA hN
  subst hs
  exact h s.ts s nr rfl hA hN

theorem tr_leftT : Tr A left A (fun _ => True) := by
  intro ts s nr _ hA _
  exact ⟨hA, List.suffix_refl _, trivial⟩

theorem trAt_left {f : List Tok → M β} {Q : β → Prop} (h : TrAt ts A (f ts) B Q) : TrAt ts A (left >>= f) B Q := by
  intro s nr hs hA hN
  subst hs
  exact h s nr rfl hA hN

theorem tr_imp {m : M α} {P Q : α → Prop} (h : Tr A m B P) (hPQ : ∀ a, P a → Q a) : Tr A m B Q := by
  intro ts s nr hs hA hN
  have := h ts s nr hs hA hN
  cases hm : m s with
  | ok a s1 => rw [hm] at this; exact ⟨this.1, this.2.1, hPQ a this.2.2⟩
  | err => trivial
  | panic => rw [hm] at this; exact this
  | noRets => rw [hm] at this; exact this

theorem tr_fail {P : α → Prop} : Tr A (fail : M α) B P := by
  intro ts s _ _ _ _
  trivial

theorem tr_peek : Tr A peek A (fun _ => True) := by
  intro ts s nr _ hA _
  exact ⟨hA, List.suffix_refl _, trivial⟩

theorem tr_nl : Tr A nl A (fun _ => True) := by
  intro ts s nr _ hA _
  exact ⟨hA, List.suffix_refl _, trivial⟩

theorem tr_scope : Tr A scope A (fun c => core c = A.c) := by
  intro ts s nr _ hA _
  exact ⟨hA, List.suffix_refl _, by rw [← hA]; rfl⟩

theorem tr_scopeRef : Tr A scopeRef A (fun d => d = A.u.length) := by
  intro ts s nr _ hA _
  refine ⟨hA, List.suffix_refl _, ?_⟩
  rw [← hA]
  simp [S.env]

theorem tr_next : Tr A next A (fun _ => True) := by
  intro ts s nr _ hA _
  exact ⟨hA, List.tail_suffix _, trivial⟩

theorem next_ts (s : S) : WP next (fun _ s' => s'.ts = s.ts.tail) s := by
  intro a s' h
  cases h
  rfl

theorem tr_must {k : K} : Tr A (must k) A (fun _ => True) := by
  intro ts s nr _ hA _
  unfold must
  by_cases h : hd s.ts = k
  · simp only [h, if_true]
    exact ⟨hA, List.tail_suffix _, trivial⟩
  · simp only [h, if_false]

theorem tr_req {b : Bool} : Tr A (req b) A (fun _ => b = true) := by
  intro ts s nr _ hA _
  unfold req
  cases b
  · simp
  · simp only [if_true]
    exact ⟨hA, List.suffix_refl _, trivial⟩

theorem tr_chk {o : Chk} {n : Nat} {t : Node} : Tr A (chk o n t) A (fun _ => True) := by
  intro ts s nr _ hA _
  unfold chk
  by_cases h : o n t s.ts = true
  · simp only [h, if_true]
    exact ⟨hA, List.suffix_refl _, trivial⟩
  · simp [h]

theorem tr_opening : Tr A opening A (fun _ => True) := by
  intro ts s nr _ hA _
  unfold opening
  by_cases h : isOpening s.ts = true
  · simp only [h, if_true]
    exact ⟨hA, List.suffix_refl _, trivial⟩
  · simp [h]

theorem tr_semi {b : Bool} : Tr A (semi b) A (fun _ => True) := by
  intro ts s nr _ hA _
  unfold semi
  by_cases h : (b && !isOpening s.ts) = true
  · simp [h]
  · simp only [h, if_false, Bool.false_eq_true]
    by_cases h' : hd s.ts = .pu .semi
    · simp only [h', if_true]
      exact ⟨hA, List.tail_suffix _, trivial⟩
    · simp only [h', if_false]
      exact ⟨hA, List.suffix_refl _, trivial⟩

theorem tr_enter {f : Ctx → Ctx} (hf : ∀ c, core (f (sub1 c)) = f (sub1 (core c))) : Tr A (enter f) (A.enter f) (fun _ => True) := by
  intro ts s nr _ hA _
  subst hA
  refine ⟨?_, List.suffix_refl _, trivial⟩
  simp only [S.env, Env.enter, List.map_cons]
  rw [← hf]
  rfl

theorem tr_enterFn {a g n : Bool} : Tr A (enterFn a g n) (A.enterFn a g n) (fun _ => True) := by
  intro ts s nr _ hA _
  subst hA
  exact ⟨rfl, List.suffix_refl _, trivial⟩

theorem tr_enterCls : Tr A enterCls A.enterCls (fun _ => True) := by
  intro ts s nr _ hA _
  subst hA
  exact ⟨rfl, List.suffix_refl _, trivial⟩

theorem tr_pushRet (h : A.c.rets = true) : Tr A pushRet A (fun _ => True) := by
  intro ts s nr _ hA _
  have hr : s.cur.rets = true := by rw [← hA] at h; exact h
  unfold pushRet
  simp only [hr, if_true]
  exact ⟨hA, List.suffix_refl _, trivial⟩

theorem tr_peekAt {f : K → M β} {Q : β → Prop} (h : ∀ ts, TrAt ts A (f (hd ts)) B Q) : Tr A (peek >>= f) B Q := by
  intro ts s nr hs hA hN
  subst hs
  exact h s.ts s nr rfl hA hN

theorem tr_leave {c : Ctx} : Tr ⟨c, A.c :: A.u, A.n, A.nr⟩ leave A (fun _ => True) := by
  intro ts s nr _ hA _
  unfold leave
  cases h : s.up with
  | nil => simp [S.env, h] at hA
  | cons c' l =>
    refine ⟨?_, List.suffix_refl _, trivial⟩
    simp only [S.env, h, List.map_cons, Env.mk.injEq, List.cons.injEq] at hA ⊢
    obtain ⟨_, ⟨h1, h2⟩, h3, h4⟩ := hA
    rw [h1, h2, h3, h4]

theorem tr_pushLoop : Tr A pushLoop A.push (fun _ => True) := by
  intro ts s nr _ hA _
  subst hA
  exact ⟨rfl, List.suffix_refl _, trivial⟩

theorem tr_popLoop : Tr A.push popLoop A (fun _ => True) := by
  intro ts s nr _ hA _
  have hn : s.loops = A.n + 1 := congrArg Env.n hA
  unfold popLoop
  simp only [hn, Nat.succ_ne_zero, if_false]
  refine ⟨?_, List.suffix_refl _, trivial⟩
  cases A
  simp only [S.env, Env.push, Env.mk.injEq] at hA ⊢
  exact ⟨hA.1, hA.2.1, by omega, hA.2.2.2⟩

theorem tr_lastLoop (h : 0 < A.n) : Tr A lastLoop A (fun _ => True) := by
  intro ts s nr _ hA _
  have hn : s.loops = A.n := congrArg Env.n hA
  unfold lastLoop
  have : s.loops ≠ 0 := by omega
  simp only [this, if_false]
  exact ⟨hA, List.suffix_refl _, trivial⟩

theorem modAt_core {f : Ctx → Ctx} (hf : ∀ c, core (f c) = core c) (d : Nat) :
    ∀ (c : Ctx) (l : List Ctx), core (modAt f d c l).1 = core c ∧ (modAt f d c l).2.map core = l.map core
  | c, [] => ⟨hf c, rfl⟩
  | c, c' :: l => by
    unfold modAt
    split
    · exact ⟨hf c, rfl⟩
    · obtain ⟨h1, h2⟩ := modAt_core hf d c' l
      exact ⟨rfl, by simp [h1, h2]⟩

theorem tr_interim {d : Nat} {b : Bool} : Tr A (setKind d (fun c => { c with interim := b })) A (fun _ => True) := by
  intro ts s nr _ hA _
  subst hA
  refine ⟨?_, List.suffix_refl _, trivial⟩
  obtain ⟨h1, h2⟩ := modAt_core (f := fun c => { c with interim := b }) (fun _ => rfl) d s.cur s.up
  simp only [S.env]
  rw [h1, h2]

theorem modAt_top (f : Ctx → Ctx) (c : Ctx) (l : List Ctx) : modAt f l.length c l = (f c, l) := by
  cases l with
  | nil => rfl
  | cons c' l => simp [modAt]

theorem tr_notIn {d : Nat} {b : Bool} (hd : d = A.u.length) : Tr A (setKind d (fun c => { c with notIn := b })) (A.notIn b) (fun _ => True) := by
  intro ts s nr _ hA _
  subst hA
  have : d = s.up.length := by simpa [S.env] using hd
  subst this
  refine ⟨?_, List.suffix_refl _, trivial⟩
  simp only [S.env, modAt_top]
  rfl

end

end Mole.Parser.Prog
