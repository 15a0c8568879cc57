import Verif.Graph.CfgHandle3
import Verif.Graph.CfgSem

/-! Every run is a walk: the induction over the program. -/

namespace Mole.Cfg

/-! ## What is evaluated has been evaluated so far -/

mutual

theorem Expr.eval_part : ∀ (e : Expr) {ns : List Nat} {v : Val}, e.eval ns v → e.part ns
  | .atom _, _, _, q => .inr q
  | .unary _ e, _, _, ⟨_, q⟩ => Expr.eval_part e q
  | .wrap _ e, _, _, ⟨_, q⟩ => Expr.eval_part e q
  | .chain _ e, _, _, ⟨_, q⟩ => Expr.eval_part e q
  | .bin _ _ r, _, _, ⟨_, _, a, b, _, q⟩ => .inr ⟨_, _, a, b, Expr.eval_part r q⟩
  | .logic _ _ l r, _, _, q => q.elim (fun q => .inl (Expr.eval_part l q.2)) (fun ⟨_, _, a, b, q⟩ => .inr ⟨_, _, a, b, Expr.eval_part r q⟩)
  | .cond _ _ c a, _, _, ⟨_, _, k, q⟩ => .inr ⟨_, _, k, q.imp (fun q => ⟨q.1, Expr.eval_part c q.2⟩) (fun q => ⟨q.1, Expr.eval_part a q.2⟩)⟩
  | .pair _ _ r, _, _, ⟨_, _, a, b, _, q⟩ => .inr ⟨_, _, a, b, Expr.eval_part r q⟩
  | .list _ es, _, _, q => Exprs.eval_part es q
  | .call _ _ es, _, _, ⟨_, _, a, b, q⟩ => .inr ⟨_, _, a, b, Exprs.eval_part es q⟩
  | .new _ _ es, _, _, ⟨_, _, a, b, q⟩ => .inr ⟨_, _, a, b, Exprs.eval_part es q⟩
  | .member _ _ p, _, _, ⟨_, _, a, b, _, q⟩ => .inr ⟨_, _, a, b, Expr.eval_part p q⟩

theorem Exprs.eval_part : ∀ (es : Exprs) {ns : List Nat}, es.eval ns → es.part ns
  | .nil, _, q => q
  | .cons _ es, _, ⟨_, _, a, b, q⟩ => .inr ⟨_, _, a, b, Exprs.eval_part es q⟩

end

/-! ## The ways out of an expression -/

/-- A way out that only falls through counts. -/
def Ex.le (x y : Ex) : Prop := (x.q = true → y.q = true) ∧ (x.t = true → y.t = true) ∧ (x.f = true → y.f = true)

/-- The ways an expression is left with a value like `v`. -/
def Expr.leaves : Expr → Val → Ex
  | .logic _ .and _ r, v => { r.leaves v with f := (r.leaves v).f || decide (v ≠ .truthy) }
  | .logic _ .or _ r, v => { r.leaves v with t := (r.leaves v).t || decide (v = .truthy) }
  | .logic _ .nul _ r, v => { r.leaves v with t := (r.leaves v).t || decide (v ≠ .nullish) }
  | _, _ => { q := true }

theorem leaves_plain {e : Expr} (k : e.cls = .plain) (v : Val) : e.leaves v = { q := true } := by
  cases e <;> first | rfl | cases k

theorem leaves_and : ∀ {e : Expr}, e.ok = true → LOp.and.takes e.cls = true → ∀ v, (e.leaves v).le { q := true, f := decide (v ≠ .truthy) }
  | .logic _ .and _ r, o, _, v => by
    simp only [Expr.ok, Bool.and_eq_true] at o
    obtain ⟨a, b, c⟩ := leaves_and o.2 o.1.1.2 v
    refine ⟨a, b, ?_⟩
    simp only [Expr.leaves, Bool.or_eq_true]
    rintro (k | k)
    · exact c k
    · exact k
  | .logic _ .or _ _, _, k, _ => by cases k
  | .logic _ .nul _ _, _, k, _ => by cases k
  | .atom _, _, _, _ | .unary .., _, _, _ | .wrap .., _, _, _ | .chain .., _, _, _ | .bin .., _, _, _ | .cond .., _, _, _ | .pair .., _, _, _ | .list .., _, _, _
  | .call .., _, _, _ | .new .., _, _, _ | .member .., _, _, _ => by simp [Expr.leaves, Ex.le]

theorem leaves_or : ∀ {e : Expr}, e.ok = true → LOp.or.takes e.cls = true → ∀ v, (e.leaves v).le { q := true, t := decide (v = .truthy), f := decide (v ≠ .truthy) }
  | .logic i .and l r, o, _, v => by
    obtain ⟨a, b, c⟩ := leaves_and (e := .logic i .and l r) o rfl v
    exact ⟨a, fun k => absurd (b k) (by simp), c⟩
  | .logic _ .or _ r, o, _, v => by
    simp only [Expr.ok, Bool.and_eq_true] at o
    obtain ⟨a, b, c⟩ := leaves_or o.2 o.1.1.2 v
    refine ⟨a, ?_, c⟩
    simp only [Expr.leaves, Bool.or_eq_true]
    rintro (k | k)
    · exact b k
    · exact k
  | .logic _ .nul _ _, _, k, _ => by cases k
  | .atom _, _, _, _ | .unary .., _, _, _ | .wrap .., _, _, _ | .chain .., _, _, _ | .bin .., _, _, _ | .cond .., _, _, _ | .pair .., _, _, _ | .list .., _, _, _
  | .call .., _, _, _ | .new .., _, _, _ | .member .., _, _, _ => by simp [Expr.leaves, Ex.le]

theorem leaves_nul : ∀ {e : Expr}, e.ok = true → LOp.nul.takes e.cls = true → ∀ v, (e.leaves v).le { q := true, t := decide (v ≠ .nullish) }
  | .logic _ .nul _ r, o, _, v => by
    simp only [Expr.ok, Bool.and_eq_true] at o
    obtain ⟨a, b, c⟩ := leaves_nul o.2 o.1.1.2 v
    refine ⟨a, ?_, c⟩
    simp only [Expr.leaves, Bool.or_eq_true]
    rintro (k | k)
    · exact b k
    · exact k
  | .logic _ .or _ _, _, k, _ => by cases k
  | .logic _ .and _ _, _, k, _ => by cases k
  | .atom _, _, _, _ | .unary .., _, _, _ | .wrap .., _, _, _ | .chain .., _, _, _ | .bin .., _, _, _ | .cond .., _, _, _ | .pair .., _, _, _ | .list .., _, _, _
  | .call .., _, _, _ | .new .., _, _, _ | .member .., _, _, _ => by simp [Expr.leaves, Ex.le]

theorem test_takes {e : Expr} (k : (e.cls != .log .nul) = true) : LOp.or.takes e.cls = true := by
  revert k
  cases e.cls with
  | plain => simp [LOp.takes]
  | log op => cases op <;> simp [LOp.takes]

theorem test_falls {e : Expr} (k : (e.cls != .log .nul) = true) (l : (e.cls != .log .or) = true) : LOp.and.takes e.cls = true := by
  revert k l
  cases e.cls with
  | plain => simp [LOp.takes]
  | log op => cases op <;> simp [LOp.takes]

/-! ## Expressions -/

/-- The walks through a piece cover the runs of an expression. -/
structure Runs (stmt : Bool) (e : Expr) (F : Fr) : Prop where
  ex : ∀ x ns v, e.eval ns v → (if stmt then x.q = true else (e.leaves v).le x) → F.run (.ex x) ns
  part : ∀ ns, e.part ns → F.run .pre ns

theorem Runs.plain {e : Expr} {F : Fr} (r : Runs false e F) (k : e.cls = .plain) {ns : List Nat} {v : Val} (q : e.eval ns v) : F.run .seq ns :=
  r.ex _ ns v q (by rw [leaves_plain k]; exact ⟨id, id, id⟩)

theorem Runs.thru {s : Bool} {e : Expr} {F : Fr} (r : Runs s e F) {ns : List Nat} {v : Val} (q : e.eval ns v) : Thru F ns :=
  ⟨{ q := true, t := true, f := true }, r.ex _ ns v q (by cases s <;> simp [Ex.le])⟩

theorem Runs.yes {e : Expr} {F : Fr} (r : Runs false e F) (o : e.ok = true) (k : LOp.or.takes e.cls = true) {ns : List Nat} (q : e.eval ns .truthy) :
    F.run (.ex { q := true, t := true }) ns := r.ex _ ns _ q (leaves_or o k _)

theorem Runs.on {e : Expr} {F : Fr} (r : Runs false e F) (o : e.ok = true) (k : LOp.and.takes e.cls = true) {ns : List Nat} (q : e.eval ns .truthy) :
    F.run .seq ns := r.ex _ ns _ q (leaves_and o k _)

theorem Runs.no {e : Expr} {F : Fr} (r : Runs false e F) (o : e.ok = true) (k : LOp.or.takes e.cls = true) {ns : List Nat} {v : Val} (n : v ≠ .truthy) (q : e.eval ns v) :
    F.run (.ex { q := true, f := true }) ns := r.ex _ ns _ q (by
      have := leaves_or o k v
      simpa [n] using this)

/-- Handlers whose result is left in one way only. -/
theorem Runs.of {stmt : Bool} {e : Expr} {F : Fr} (l : ∀ v, e.leaves v = { q := true }) (a : ∀ x : Ex, x.q = true → ∀ ns v, e.eval ns v → F.run (.ex x) ns)
    (b : ∀ ns, e.part ns → F.run .pre ns) : Runs stmt e F :=
  ⟨fun x ns v q k => a x (by cases stmt with
    | true => exact k
    | false => rw [l v] at k; exact k.1 rfl) ns v q, b⟩

theorem accE_snoc (Ls : List Fr) (F : Fr) : ∀ ev, accE (Ls ++ [F]) ev = Then (Thru F) (accE Ls ev) := by
  induction Ls with
  | nil => intro ev; rfl
  | cons G Ls ih => intro ev; exact ih _

theorem accP_snoc (Ls : List Fr) (F : Fr) : ∀ pa, accP (Ls ++ [F]) pa = fun ns => F.run .pre ns ∨ Then (Thru F) (accP Ls pa) ns := by
  induction Ls with
  | nil => intro pa; rfl
  | cons G Ls ih => intro pa; exact ih _

/-- Like `Exprs.part`, but inside one of them. -/
def Exprs.part' : Exprs → List Nat → Prop
  | .nil, _ => False
  | .cons e es, ns => e.part ns ∨ ∃ n1 n2, ns = n1 ++ n2 ∧ (∃ v, e.eval n1 v) ∧ es.part' n2

theorem Exprs.part_cons (e : Expr) : ∀ (es : Exprs) {ns : List Nat}, (Exprs.cons e es).part ns → (Exprs.cons e es).part' ns := by
  have key : ∀ (es : Exprs) {ns : List Nat}, es.part ns → (es = .nil ∧ ns = []) ∨ es.part' ns := by
    intro es
    induction es using Exprs.rec (motive_1 := fun _ => True) with
    | nil => intro ns q; exact .inl ⟨rfl, q⟩
    | cons e es _ ih =>
      rintro ns (q | ⟨n1, n2, rfl, ⟨v, q⟩, r⟩)
      · exact .inr (.inl q)
      · rcases ih r with ⟨_, rfl⟩ | k
        · rw [List.append_nil]; exact .inr (.inl (e.eval_part q))
        · exact .inr (.inr ⟨n1, n2, rfl, ⟨v, q⟩, k⟩)
    | _ => trivial
  intro es ns q
  rcases key _ q with ⟨k, _⟩ | k
  · cases k
  · exact k

variable {ω : Order} (fair : ω.Fair)

theorem push_expr {h0 : Heap} {Fs : List Fr} (c : Ctx) (w : W h0 c.heap Fs) (id : Nat) :
    ∃ E, W h0 (c.pushExpr [.enter id]).heap (E :: Fs) ∧ (c.pushExpr [.enter id]).exprs = E.out :: c.exprs ∧ Blank E := by
  obtain ⟨E, e, b, _, _, _, w⟩ := w.blank .basic [.enter id] (.inl rfl) rfl
  exact ⟨E, w, by rw [e]; rfl, b⟩

/-- What building an expression gives. -/
def Built (h0 : Heap) (Fs : List Fr) (c : Ctx) (r : Option Ctx) (P : Fr → Prop) : Prop :=
  ∃ c' N, r = some c' ∧ W h0 c'.heap (N :: Fs) ∧ c'.exprs = N.out :: c.exprs ∧ c'.stmts = c.stmts ∧ Good N ∧ P N

section

include fair

mutual

theorem Expr.build_ok : ∀ (e : Expr), e.ok = true → ∀ (stmt : Bool) (c : Ctx) {h0 : Heap} {Fs : List Fr}, W h0 c.heap Fs →
    Built h0 Fs c (e.build ω stmt c) (Runs stmt e)
  | .atom i, _, stmt, c, h0, Fs, w => by
    obtain ⟨_, w⟩ := w.newBlk .basic [.atom i] (.inl rfl)
    refine ⟨_, _, rfl, w, rfl, rfl, ⟨rfl, List.mem_singleton.mpr rfl⟩, .of (fun _ => rfl) ?_ ?_⟩
    · rintro x xq ns v rfl
      exact ⟨xq, rfl⟩
    · rintro ns (rfl | rfl)
      · exact List.nil_prefix
      · exact List.prefix_rfl
  | .unary i e, o, stmt, c, h0, Fs, w => by
    simp only [Expr.ok, Bool.and_eq_true, beq_iff_eq] at o
    obtain ⟨E, w, eE, bE⟩ := push_expr c w i
    obtain ⟨c1, N1, e1, w, x1, s1, g1, r1⟩ := Expr.build_ok e o.2 false _ w
    obtain ⟨h', N, eq, w, gN, ra, rb⟩ := w.unary fair g1 bE i
    refine ⟨{ c1 with heap := h', exprs := N.out :: c.exprs }, N, ?_, w, rfl, s1, gN, .of (fun _ => rfl) ?_ ?_⟩
    · simp only [Expr.build, e1, Option.bind_some, Ctx.expr1, x1, eE, eq, Option.map_some]
    · rintro x xq ns v ⟨u, q⟩
      exact ra x ns xq (r1.plain o.1 q)
    · exact fun ns q => rb ns (r1.part ns q)
  | .wrap i e, o, stmt, c, h0, Fs, w => by
    simp only [Expr.ok, Bool.and_eq_true, beq_iff_eq] at o
    obtain ⟨E, w, eE, bE⟩ := push_expr c w i
    obtain ⟨c1, N1, e1, w, x1, s1, g1, r1⟩ := Expr.build_ok e o false _ w
    obtain ⟨h', N, eq, w, gN, ra, rb⟩ := w.wrap fair g1 bE i
    refine ⟨{ c1 with heap := h', exprs := N.out :: c.exprs }, N, ?_, w, rfl, s1, gN, .of (fun _ => rfl) ?_ ?_⟩
    · simp only [Expr.build, e1, Option.bind_some, Ctx.expr1, x1, eE, eq, Option.map_some]
    · rintro x xq ns v ⟨u, q⟩
      exact ra x ns xq (r1.thru q)
    · exact fun ns q => rb ns (r1.part ns q)
  | .chain i e, o, stmt, c, h0, Fs, w => by
    simp only [Expr.ok, Bool.and_eq_true, beq_iff_eq] at o
    obtain ⟨E, w, eE, bE⟩ := push_expr c w i
    obtain ⟨c1, N1, e1, w, x1, s1, g1, r1⟩ := Expr.build_ok e o false _ w
    obtain ⟨h', N, eq, w, gN, ra, rb⟩ := w.chain fair g1 bE i
    refine ⟨{ c1 with heap := h', exprs := N.out :: c.exprs }, N, ?_, w, rfl, s1, gN, .of (fun _ => rfl) ?_ ?_⟩
    · simp only [Expr.build, e1, Option.bind_some, Ctx.expr1, x1, eE, eq, Option.map_some]
    · rintro x xq ns v ⟨u, q⟩
      exact ra x ns xq (r1.thru q)
    · exact fun ns q => rb ns (r1.part ns q)
  | .bin i l r, o, stmt, c, h0, Fs, w => by
    simp only [Expr.ok, Bool.and_eq_true, beq_iff_eq] at o
    obtain ⟨E, w, eE, bE⟩ := push_expr c w i
    obtain ⟨c1, N1, e1, w, x1, s1, g1, r1⟩ := Expr.build_ok l o.1.2 false _ w
    obtain ⟨c2, N2, e2, w, x2, s2, g2, r2⟩ := Expr.build_ok r o.2 false _ w
    obtain ⟨h', N, eq, w, gN, ra, rb⟩ := w.bin fair g2 g1 bE i
    refine ⟨{ c2 with heap := h', exprs := N.out :: c.exprs }, N, ?_, w, rfl, s2.trans s1, gN, .of (fun _ => rfl) ?_ ?_⟩
    · simp only [Expr.build, e1, e2, Option.bind_some, Ctx.expr2, x2, x1, eE, eq, Option.map_some]
    · rintro x xq _ v ⟨n1, n2, rfl, ⟨u, q1⟩, u', q2⟩
      exact ra x _ xq ⟨n1, n2, rfl, r1.plain o.1.1.1 q1, r2.plain o.1.1.2 q2⟩
    · rintro ns (k | ⟨n1, n2, rfl, ⟨u, q1⟩, q2⟩)
      · exact rb ns (.inl (r1.part ns k))
      · exact rb _ (.inr ⟨n1, n2, rfl, r1.plain o.1.1.1 q1, r2.part _ q2⟩)
  | .logic i op l r, o, stmt, c, h0, Fs, w => by
    simp only [Expr.ok, Bool.and_eq_true] at o
    obtain ⟨⟨⟨tl, tr⟩, ol⟩, or⟩ := o
    obtain ⟨E, w, eE, bE⟩ := push_expr c w i
    obtain ⟨c1, N1, e1, w, x1, s1, g1, r1⟩ := Expr.build_ok l ol false _ w
    obtain ⟨c2, N2, e2, w, x2, s2, g2, r2⟩ := Expr.build_ok r or false _ w
    obtain ⟨h', N, eq, w, gN, ra⟩ := w.logicOp fair g2 g1 bE stmt op i
    -- the left operand decides, or does not
    have stop : ∀ ns v, op.stops v → l.eval ns v → N1.run (.ex { q := true, t := decide (op ≠ .and), f := !decide (op ≠ .and) }) ns := by
      intro ns v k q
      refine r1.ex _ ns v q ?_
      cases op with
      | and => have := leaves_and ol tl v; exact ⟨this.1, this.2.1, fun _ => rfl⟩
      | or => have := leaves_or ol tl v; rw [LOp.stops] at k; subst k; simpa using this
      | nul => have := leaves_nul ol tl v; rw [LOp.stops] at k; simpa [k] using this
    have go : ∀ ns v, ¬ op.stops v → l.eval ns v → N1.run (.ex { q := true, f := decide (op ≠ .and) }) ns := by
      intro ns v k q
      refine r1.ex _ ns v q ?_
      cases op with
      | and => have := leaves_and ol tl v; simp only [LOp.stops, Decidable.not_not] at k; subst k; simpa using this
      | or => have := leaves_or ol tl v; simp only [LOp.stops] at k; simpa [k] using this
      | nul => have := leaves_nul ol tl v; simp only [LOp.stops, Decidable.not_not] at k; subst k; exact ⟨this.1, this.2.1, fun q => absurd (this.2.2 q) (by simp)⟩
    have lr : ∀ v, (r.leaves v).le ((Expr.logic i op l r).leaves v) ∧ (op.stops v → ((Expr.logic i op l r).leaves v).jmp (decide (op ≠ .and)) = true) := by
      intro v
      cases op <;> simp only [Expr.leaves, Ex.le, LOp.stops, Ex.jmp] <;> refine ⟨⟨id, ?_, ?_⟩, ?_⟩ <;> simp +contextual
    have runs : ∀ ns v, (Expr.logic i op l r).eval ns v → ∀ x, ((Expr.logic i op l r).leaves v).le x → LogicRun (decide (op ≠ .and)) N1 N2 (.ex x) ns := by
      rintro ns v (⟨k, q⟩ | ⟨n1, n2, rfl, ⟨u, k, q1⟩, q2⟩) x le
      · refine .inr ⟨?_, stop _ _ k q⟩
        have := (lr v).2 k
        revert this
        cases decide (op ≠ .and)
        · exact le.2.2
        · exact le.2.1
      · exact .inl (.cat (go _ _ k q1) (r2.ex _ _ v q2 ⟨fun k => le.1 ((lr v).1.1 k), fun k => le.2.1 ((lr v).1.2.1 k), fun k => le.2.2 ((lr v).1.2.2 k)⟩))
    refine ⟨{ c2 with heap := h', exprs := N.out :: c.exprs }, N, ?_, w, rfl, s2.trans s1, gN, ⟨?_, ?_⟩⟩
    · simp only [Expr.build, e1, e2, Option.bind_some, Ctx.expr2, x2, x1, eE, eq, Option.map_some]
    · intro x ns v q k
      cases stmt with
      | true => exact ra _ _ (runs ns v q _ ⟨id, id, id⟩) x k
      | false => exact ra _ _ (runs ns v q x k)
    · rintro ns (q | ⟨n1, n2, rfl, ⟨u, k, q1⟩, q2⟩)
      · exact ra .pre _ (.pre (r1.part _ q))
      · exact ra .pre _ (.cat (go _ _ k q1) (r2.part _ q2))
  | .cond i t k a, o, stmt, c, h0, Fs, w => by
    simp only [Expr.ok, Bool.and_eq_true] at o
    obtain ⟨⟨⟨tt, ot⟩, ok⟩, oa⟩ := o
    have tt := test_takes tt
    obtain ⟨E, w, eE, bE⟩ := push_expr c w i
    obtain ⟨c1, N1, e1, w, x1, s1, g1, r1⟩ := Expr.build_ok t ot false _ w
    obtain ⟨c2, N2, e2, w, x2, s2, g2, r2⟩ := Expr.build_ok k ok false _ w
    obtain ⟨c3, N3, e3, w, x3, s3, g3, r3⟩ := Expr.build_ok a oa false _ w
    obtain ⟨h', N, eq, w, gN, ra, rb⟩ := w.cond fair g3 g2 g1 bE i
    refine ⟨{ c3 with heap := h', exprs := N.out :: c.exprs }, N, ?_, w, rfl, s3.trans (s2.trans s1), gN, .of (fun _ => rfl) ?_ ?_⟩
    · simp only [Expr.build, e1, e2, e3, Option.bind_some, Ctx.expr3, x3, x2, x1, eE, eq, Option.map_some]
    · rintro x xq _ v ⟨n1, n2, rfl, ⟨q1, q2⟩ | ⟨⟨u, ne, q1⟩, q2⟩⟩
      · exact ra x _ xq (.inl ⟨n1, n2, rfl, r1.yes ot tt q1, r2.thru q2⟩)
      · exact ra x _ xq (.inr ⟨n1, n2, rfl, r1.no ot tt ne q1, r3.thru q2⟩)
    · rintro ns (q | ⟨n1, n2, rfl, ⟨q1, q2⟩ | ⟨⟨u, ne, q1⟩, q2⟩⟩)
      · exact rb _ (.inl (r1.part _ q))
      · exact rb _ (.inr (.inl ⟨n1, n2, rfl, r1.yes ot tt q1, r2.part _ q2⟩))
      · exact rb _ (.inr (.inr ⟨n1, n2, rfl, r1.no ot tt ne q1, r3.part _ q2⟩))
  | .pair i l r, o, stmt, c, h0, Fs, w => by
    simp only [Expr.ok, Bool.and_eq_true, beq_iff_eq] at o
    obtain ⟨E, w, eE, bE⟩ := push_expr c w i
    obtain ⟨c1, N1, e1, w, x1, s1, g1, r1⟩ := Expr.build_ok l o.1.2 false _ w
    obtain ⟨c2, N2, e2, w, x2, s2, g2, r2⟩ := Expr.build_ok r o.2 false _ w
    obtain ⟨h', N, eq, w, gN, ra, rb⟩ := w.pair fair g2 g1 bE i
    refine ⟨{ c2 with heap := h', exprs := N.out :: c.exprs }, N, ?_, w, rfl, s2.trans s1, gN, .of (fun _ => rfl) ?_ ?_⟩
    · simp only [Expr.build, e1, e2, Option.bind_some, Ctx.expr2, x2, x1, eE, eq, Option.map_some]
    · rintro x xq _ v ⟨n1, n2, rfl, ⟨u, q1⟩, u', q2⟩
      exact ra x _ xq ⟨n1, n2, rfl, r1.plain o.1.1 q1, r2.thru q2⟩
    · rintro ns (k | ⟨n1, n2, rfl, ⟨u, q1⟩, q2⟩)
      · exact rb ns (.inl (r1.part ns k))
      · exact rb _ (.inr ⟨n1, n2, rfl, r1.plain o.1.1 q1, r2.part _ q2⟩)
  | .member i l r, o, stmt, c, h0, Fs, w => by
    simp only [Expr.ok, Bool.and_eq_true, beq_iff_eq] at o
    obtain ⟨E, w, eE, bE⟩ := push_expr c w i
    obtain ⟨c1, N1, e1, w, x1, s1, g1, r1⟩ := Expr.build_ok l o.1 false _ w
    obtain ⟨c2, N2, e2, w, x2, s2, g2, r2⟩ := Expr.build_ok r o.2 false _ w
    obtain ⟨h', N, eq, w, gN, ra, rb⟩ := w.member fair g2 g1 bE i
    refine ⟨{ c2 with heap := h', exprs := N.out :: c.exprs }, N, ?_, w, rfl, s2.trans s1, gN, .of (fun _ => rfl) ?_ ?_⟩
    · simp only [Expr.build, e1, e2, Option.bind_some, Ctx.expr2, x2, x1, eE, eq, Option.map_some]
    · rintro x xq _ v ⟨n1, n2, rfl, ⟨u, q1⟩, u', q2⟩
      exact ra x _ xq ⟨n1, n2, rfl, r1.thru q1, r2.thru q2⟩
    · rintro ns (k | ⟨n1, n2, rfl, ⟨u, q1⟩, q2⟩)
      · exact rb ns (.inl (r1.part ns k))
      · exact rb _ (.inr ⟨n1, n2, rfl, r1.thru q1, r2.part _ q2⟩)
  | .list i .nil, o, stmt, c, h0, Fs, w => by
    obtain ⟨E, w, eE, bE⟩ := push_expr c w i
    obtain ⟨h', N, eq, w, gN, ra, rb⟩ := w.list0 fair bE i
    refine ⟨{ c with heap := h', exprs := N.out :: c.exprs }, N, ?_, w, rfl, rfl, gN, .of (fun _ => rfl) ?_ ?_⟩
    · simp only [Expr.build, Exprs.build, Exprs.length, Option.bind_some, Ctx.exprs0, Heap.popLink, eE, eq, Option.map_some]
      rfl
    · rintro x xq _ v rfl
      exact ra x xq
    · rintro _ rfl
      exact rb
  | .list i (.cons e es), o, stmt, c, h0, Fs, w => by
    obtain ⟨E, w, eE, bE⟩ := push_expr c w i
    obtain ⟨c2, Ls, e2, w, x2, s2, gs, ln, ra, rb⟩ := Exprs.build_ok (.cons e es) o _ w
    obtain ⟨T, Ls, rfl⟩ : ∃ T Ls', Ls = T :: Ls' := by
      cases Ls with
      | nil => cases ln
      | cons T Ls => exact ⟨T, Ls, rfl⟩
    obtain ⟨h3, G, hd, e3, w, mG, oG, rc, rd⟩ := W.popLink fair w (gs T (by simp)) (fun F m => gs F (by simp [m])) (c.pushExpr [.enter i]).exprs
    obtain ⟨h', N, eq, w, gN, re, rf⟩ := w.list fair mG oG bE i
    refine ⟨{ c2 with heap := h', exprs := N.out :: c.exprs }, N, ?_, w, rfl, s2, gN, .of (fun _ => rfl) ?_ ?_⟩
    · have x2 : c2.exprs = T.out :: (Ls.map Fr.out ++ (c.pushExpr [.enter i]).exprs) := x2
      rw [x2.symm, show Ls.length + 1 = (Exprs.cons e es).length from ln] at e3
      simp only [Expr.build, e2, Option.bind_some, Ctx.exprs0, e3, eE, eq, Option.map_some]
    · intro x xq ns v q
      exact re x _ xq (rc _ (ra _ _ ⟨ns, [], by simp, q, rfl⟩))
    · intro ns q
      exact rf _ (rd _ (rb _ _ (.inl (Exprs.part_cons e es q))))
  | .call i f .nil, o, stmt, c, h0, Fs, w => by
    simp only [Expr.ok, Bool.and_eq_true, beq_iff_eq] at o
    obtain ⟨E, w, eE, bE⟩ := push_expr c w i
    obtain ⟨c1, N1, e1, w, x1, s1, g1, r1⟩ := Expr.build_ok f o.1.2 false _ w
    obtain ⟨h', N, eq, w, gN, ra, rb⟩ := w.call0 fair g1 bE i
    refine ⟨{ c1 with heap := h', exprs := N.out :: c.exprs }, N, ?_, w, rfl, s1, gN, .of (fun _ => rfl) ?_ ?_⟩
    · simp only [Expr.build, Exprs.build, Exprs.length, e1, Option.bind_some, Ctx.exprs1, Heap.popLink, x1, eE, eq, Option.map_some]
    · rintro x xq _ v ⟨n1, n2, rfl, ⟨u, q⟩, rfl⟩
      rw [List.append_nil]
      exact ra x _ xq (r1.plain o.1.1 q)
    · rintro ns (q | ⟨n1, n2, rfl, ⟨u, q⟩, rfl⟩)
      · exact rb _ (r1.part _ q)
      · rw [List.append_nil]
        exact rb _ (r1.part _ (f.eval_part q))
  | .call i f (.cons e es), o, stmt, c, h0, Fs, w => by
    simp only [Expr.ok, Bool.and_eq_true, beq_iff_eq] at o
    obtain ⟨E, w, eE, bE⟩ := push_expr c w i
    obtain ⟨c1, N1, e1, w, x1, s1, g1, r1⟩ := Expr.build_ok f o.1.2 false _ w
    obtain ⟨c2, Ls, e2, w, x2, s2, gs, ln, ra, rb⟩ := Exprs.build_ok (.cons e es) o.2 _ w
    obtain ⟨T, Ls, rfl⟩ : ∃ T Ls', Ls = T :: Ls' := by
      cases Ls with
      | nil => cases ln
      | cons T Ls => exact ⟨T, Ls, rfl⟩
    obtain ⟨h3, G, hd, e3, w, mG, oG, rc, rd⟩ := W.popLink fair w (gs T (by simp)) (fun F m => gs F (by simp [m])) c1.exprs
    obtain ⟨h', N, eq, w, gN, re, rf⟩ := w.call fair mG oG g1 bE i
    refine ⟨{ c2 with heap := h', exprs := N.out :: c.exprs }, N, ?_, w, rfl, s2.trans s1, gN, .of (fun _ => rfl) ?_ ?_⟩
    · have x2 : c2.exprs = T.out :: (Ls.map Fr.out ++ c1.exprs) := x2
      rw [x2.symm, show Ls.length + 1 = (Exprs.cons e es).length from ln] at e3
      simp only [Expr.build, e1, e2, Option.bind_some, Ctx.exprs1, e3, x1, eE, eq, Option.map_some]
    · rintro x xq _ v ⟨n1, n2, rfl, ⟨u, q1⟩, q2⟩
      exact re x _ xq ⟨n1, n2, rfl, r1.plain o.1.1 q1, rc _ (ra _ _ ⟨n2, [], by simp, q2, rfl⟩)⟩
    · rintro ns (q | ⟨n1, n2, rfl, ⟨u, q1⟩, q2⟩)
      · exact rf _ (.inl (r1.part _ q))
      · exact rf _ (.inr ⟨n1, n2, rfl, r1.plain o.1.1 q1, rd _ (rb _ _ (.inl (Exprs.part_cons e es q2)))⟩)
  | .new i f .nil, o, stmt, c, h0, Fs, w => by
    simp only [Expr.ok, Bool.and_eq_true, beq_iff_eq] at o
    obtain ⟨E, w, eE, bE⟩ := push_expr c w i
    obtain ⟨c1, N1, e1, w, x1, s1, g1, r1⟩ := Expr.build_ok f o.1 false _ w
    obtain ⟨h', N, eq, w, gN, ra, rb⟩ := w.newExpr0 fair g1 bE i
    refine ⟨{ c1 with heap := h', exprs := N.out :: c.exprs }, N, ?_, w, rfl, s1, gN, .of (fun _ => rfl) ?_ ?_⟩
    · simp only [Expr.build, Exprs.build, Exprs.length, e1, Option.bind_some, Ctx.exprs1, Heap.popLink, x1, eE, eq, Option.map_some]
    · rintro x xq _ v ⟨n1, n2, rfl, ⟨u, q⟩, rfl⟩
      rw [List.append_nil]
      exact ra x _ xq (r1.thru q)
    · rintro ns (q | ⟨n1, n2, rfl, ⟨u, q⟩, rfl⟩)
      · exact rb _ (r1.part _ q)
      · rw [List.append_nil]
        exact rb _ (r1.part _ (f.eval_part q))
  | .new i f (.cons e es), o, stmt, c, h0, Fs, w => by
    simp only [Expr.ok, Bool.and_eq_true, beq_iff_eq] at o
    obtain ⟨E, w, eE, bE⟩ := push_expr c w i
    obtain ⟨c1, N1, e1, w, x1, s1, g1, r1⟩ := Expr.build_ok f o.1 false _ w
    obtain ⟨c2, Ls, e2, w, x2, s2, gs, ln, ra, rb⟩ := Exprs.build_ok (.cons e es) o.2 _ w
    obtain ⟨T, Ls, rfl⟩ : ∃ T Ls', Ls = T :: Ls' := by
      cases Ls with
      | nil => cases ln
      | cons T Ls => exact ⟨T, Ls, rfl⟩
    obtain ⟨h3, G, hd, e3, w, mG, oG, rc, rd⟩ := W.popLink fair w (gs T (by simp)) (fun F m => gs F (by simp [m])) c1.exprs
    obtain ⟨h', N, eq, w, gN, re, rf⟩ := w.newExpr fair mG oG g1 bE i
    refine ⟨{ c2 with heap := h', exprs := N.out :: c.exprs }, N, ?_, w, rfl, s2.trans s1, gN, .of (fun _ => rfl) ?_ ?_⟩
    · have x2 : c2.exprs = T.out :: (Ls.map Fr.out ++ c1.exprs) := x2
      rw [x2.symm, show Ls.length + 1 = (Exprs.cons e es).length from ln] at e3
      simp only [Expr.build, e1, e2, Option.bind_some, Ctx.exprs1, e3, x1, eE, eq, Option.map_some]
    · rintro x xq _ v ⟨n1, n2, rfl, ⟨u, q1⟩, q2⟩
      exact re x _ xq ⟨n1, n2, rfl, r1.thru q1, rc _ (ra _ _ ⟨n2, [], by simp, q2, rfl⟩)⟩
    · rintro ns (q | ⟨n1, n2, rfl, ⟨u, q1⟩, q2⟩)
      · exact rf _ (.inl (r1.part _ q))
      · exact rf _ (.inr ⟨n1, n2, rfl, r1.thru q1, rd _ (rb _ _ (.inl (Exprs.part_cons e es q2)))⟩)

theorem Exprs.build_ok : ∀ (es : Exprs), es.ok = true → ∀ (c : Ctx) {h0 : Heap} {Fs : List Fr}, W h0 c.heap Fs →
    ∃ c' Ls, es.build ω c = some c' ∧ W h0 c'.heap (Ls ++ Fs) ∧ c'.exprs = Ls.map Fr.out ++ c.exprs ∧ c'.stmts = c.stmts ∧ (∀ F ∈ Ls, Good F) ∧ Ls.length = es.length ∧
      (∀ ev ns, Then es.eval ev ns → accE Ls ev ns) ∧ (∀ pa ns, (es.part' ns ∨ Then es.eval pa ns) → accP Ls pa ns)
  | .nil, _, c, h0, Fs, w => by
    refine ⟨c, [], rfl, w, rfl, rfl, by simp, rfl, ?_, ?_⟩
    · rintro ev _ ⟨n1, n2, rfl, rfl, q⟩
      exact q
    · rintro pa _ (k | ⟨n1, n2, rfl, rfl, q⟩)
      · exact k.elim
      · exact q
  | .cons e es, o, c, h0, Fs, w => by
    simp only [Exprs.ok, Bool.and_eq_true] at o
    obtain ⟨c1, N1, e1, w, x1, s1, g1, r1⟩ := Expr.build_ok e o.1 false _ w
    obtain ⟨c2, Ls, e2, w, x2, s2, gs, ln, ra, rb⟩ := Exprs.build_ok es o.2 _ w
    refine ⟨c2, Ls ++ [N1], ?_, ?_, ?_, s2.trans s1, ?_, ?_, ?_, ?_⟩
    · rw [Exprs.build, e1, Option.bind_some, e2]
    · rw [List.append_assoc]; exact w
    · rw [x2, x1]; simp
    · intro F m
      rcases List.mem_append.mp m with m | m
      · exact gs F m
      · rw [List.mem_singleton.mp m]; exact g1
    · simp [ln, Exprs.length]
    · rintro ev _ ⟨_, n3, rfl, ⟨n1, n2, rfl, ⟨u, q1⟩, q2⟩, q3⟩
      rw [accE_snoc]
      exact ⟨n1, n2 ++ n3, by simp, r1.thru q1, ra _ _ ⟨n2, n3, rfl, q2, q3⟩⟩
    · intro pa ns q
      rw [accP_snoc]
      rcases q with (q | ⟨n1, n2, rfl, ⟨u, q1⟩, q2⟩) | ⟨_, n3, rfl, ⟨n1, n2, rfl, ⟨u, q1⟩, q2⟩, q3⟩
      · exact .inl (r1.part _ q)
      · exact .inr ⟨n1, n2, rfl, r1.thru q1, rb _ _ (.inl q2)⟩
      · exact .inr ⟨n1, n2 ++ n3, by simp, r1.thru q1, rb _ _ (.inr ⟨n2, n3, rfl, q2, q3⟩)⟩

end

/-! ## Statements -/

omit fair in
/-- A piece with the runs cut short added. -/
theorem W.fill {h0 h : Heap} {F : Fr} {Fs : List Fr} (w : W h0 h (F :: Fs)) :
    W h0 h ({ F with run := fun k ns => F.run k ns ∨ (k = .pre ∧ Thru F ns) } :: Fs) := by
  obtain ⟨e, s, f⟩ := w.frag F (by simp)
  refine W.step (Os := [F]) w w.clean (Nat.le_refl _) (.refl _ _) (e := e) (s := s)
    ⟨f.ent, f.sX, f.bX, f.blks, fun o => ⟨(f.last o).out, (f.last o).tidy, (f.last o).multi, (f.last o).mark⟩, f.jump, ?_, f.head⟩ ?_
  · rintro k ns (q | ⟨rfl, x, q⟩)
    · exact f.run k ns q
    · obtain ⟨d, _, _, _, p⟩ := f.run _ ns q
      exact p.pre
  · intro i q
    exact .inl ⟨F, by simp, q⟩

/-- What building a statement gives, after a piece `P`. -/
def Done (h0 : Heap) (Fs : List Fr) (hd : Option Nat) (P : Fr) (es st : List Nat) (r : Option Ctx) (ex pa : List Nat → Prop) : Prop :=
  ∃ c' N, r = some c' ∧ W h0 c'.heap (N :: Fs) ∧ c'.exprs = es ∧ c'.stmts = N.out :: st ∧ Tail hd N ∧
    (∀ ns, Then (P.run .seq) ex ns → N.run .seq ns) ∧ (∀ ns, (P.run .pre ns ∨ Then (P.run .seq) pa ns) → N.run .pre ns)

omit fair in
theorem Done.nil {h0 : Heap} {Fs : List Fr} {hd : Option Nat} {P : Fr} (c : Ctx) {st : List Nat} (w : W h0 c.heap (P :: Fs)) (tP : Tail hd P) (k : c.stmts = P.out :: st) :
    Done h0 Fs hd P c.exprs st (some c) (· = []) (· = []) := by
  refine ⟨c, _, rfl, w.fill, rfl, k, ⟨⟨tP.one, tP.mem⟩, tP.tidy, tP.head⟩, ?_, ?_⟩
  · rintro _ ⟨n1, n2, rfl, q, rfl⟩
    rw [List.append_nil]; exact .inl q
  · rintro _ (q | ⟨n1, n2, rfl, q, rfl⟩)
    · exact .inl q
    · rw [List.append_nil]; exact .inr ⟨rfl, _, q⟩

omit fair in
theorem Then.assoc {p q r : List Nat → Prop} {ns : List Nat} : Then (Then p q) r ns ↔ Then p (Then q r) ns := by
  constructor
  · rintro ⟨_, n3, rfl, ⟨n1, n2, rfl, a, b⟩, c⟩
    exact ⟨n1, n2 ++ n3, by simp, a, n2, n3, rfl, b, c⟩
  · rintro ⟨n1, _, rfl, a, n2, n3, rfl, b, c⟩
    exact ⟨n1 ++ n2, n3, by simp, ⟨n1, n2, rfl, a, b⟩, c⟩

omit fair in
theorem Then.mono {p q p' q' : List Nat → Prop} {ns : List Nat} (a : ∀ ns, p ns → p' ns) (b : ∀ ns, q ns → q' ns) : Then p q ns → Then p' q' ns :=
  fun ⟨n1, n2, e, x, y⟩ => ⟨n1, n2, e, a _ x, b _ y⟩

theorem push_stmt {h0 : Heap} {Fs : List Fr} {hd : Option Nat} {P : Fr} (c : Ctx) {st : List Nat} (w : W h0 c.heap (P :: Fs)) (tP : Tail hd P) (k : c.stmts = P.out :: st) (id : Nat) :
    ∃ c' N, c.pushStmt ω false id = some c' ∧ W h0 c'.heap (N :: Fs) ∧ c'.exprs = c.exprs ∧ c'.stmts = N.out :: st ∧ Tail hd N ∧
      (∀ ns, P.run .seq ns → N.run .seq ns) ∧ (∀ ns, P.run .pre ns → N.run .pre ns) := by
  obtain ⟨h', N, eq, w, tN, ra, rb⟩ := w.follow fair tP id
  refine ⟨{ c with heap := h', stmts := N.out :: st }, N, ?_, w, rfl, rfl, tN, fun ns q => ra _ ns rfl q, rb⟩
  obtain ⟨h1, e1, e2⟩ := Option.map_eq_some_iff.mp eq
  simp only [Ctx.pushStmt, k, e1, Option.map_some, Bool.false_eq_true, if_false, e2]

omit fair in
theorem push_branch {h0 : Heap} {Fs : List Fr} (c : Ctx) (w : W h0 c.heap Fs) (id : Nat) :
    ∃ c' N, c.pushStmt ω true id = some c' ∧ W h0 c'.heap (N :: Fs) ∧ c'.exprs = c.exprs ∧ c'.stmts = N.out :: c.stmts ∧ Tail (some N.out) N ∧ Blank N := by
  obtain ⟨N, e, b, t, _, hd, w⟩ := w.blank .basic [.enter id] (.inl rfl) rfl
  refine ⟨{ c with heap := (c.heap.enter id).1, stmts := N.out :: c.stmts }, N, ?_, w, rfl, rfl, ⟨b.toGood, t, ?_⟩, b⟩
  · rw [e]; rfl
  · rw [e]; exact hd

theorem Decs.build_ok : ∀ (ds : Decs), ds.ok = true → ∀ (c : Ctx) {h0 : Heap} {Fs : List Fr} {hd : Option Nat} {P : Fr} {st : List Nat}, W h0 c.heap (P :: Fs) → Tail hd P →
    c.stmts = P.out :: st → Done h0 Fs hd P c.exprs st (ds.build ω c) ds.exec ds.part
  | .nil, _, c, _, _, _, _, _, w, tP, k => Done.nil c w tP k
  | .bare i e ds, o, c, h0, Fs, hd, P, st, w, tP, k => by
    simp only [Decs.ok, Bool.and_eq_true, beq_iff_eq] at o
    obtain ⟨E, w, eE, bE⟩ := push_expr c w i
    obtain ⟨c1, N1, e1, w, x1, s1, g1, r1⟩ := Expr.build_ok fair e o.1.2 false _ w
    obtain ⟨h', N, eq, w, tN, ra, rb⟩ := w.decBare fair g1 bE tP i
    obtain ⟨c2, M, e2, w, x2, s2, tM, rc, rd⟩ := Decs.build_ok ds o.2 { heap := h', exprs := c.exprs, stmts := N.out :: st } w tN rfl
    refine ⟨c2, M, ?_, w, x2, s2, tM, ?_, ?_⟩
    · have s1 : c1.stmts = P.out :: st := s1.trans k
      simp only [Decs.build, e1, Option.bind_some, x1, eE, s1, eq, e2]
    · rintro _ ⟨n1, _, rfl, p, n2, n3, rfl, ⟨u, q⟩, r⟩
      rw [← List.append_assoc]
      exact rc _ ⟨n1 ++ n2, n3, rfl, ra _ _ rfl ⟨n1, n2, rfl, p, r1.plain o.1.1 q⟩, r⟩
    · rintro _ (p | ⟨n1, _, rfl, p, q | ⟨n2, n3, rfl, ⟨u, q⟩, r⟩⟩)
      · exact rd _ (.inl (rb _ (.inl p)))
      · exact rd _ (.inl (rb _ (.inr ⟨n1, _, rfl, p, r1.part _ q⟩)))
      · rw [← List.append_assoc]
        exact rd _ (.inr ⟨n1 ++ n2, n3, rfl, ra _ _ rfl ⟨n1, n2, rfl, p, r1.plain o.1.1 q⟩, r⟩)
  | .init i e v ds, o, c, h0, Fs, hd, P, st, w, tP, k => by
    simp only [Decs.ok, Bool.and_eq_true, beq_iff_eq] at o
    obtain ⟨⟨⟨oc, oe⟩, ov⟩, od⟩ := o
    obtain ⟨E, w, eE, bE⟩ := push_expr c w i
    obtain ⟨c1, N1, e1, w, x1, s1, g1, r1⟩ := Expr.build_ok fair e oe false _ w
    obtain ⟨c3, N2, e3, w, x3, s3, g2, r2⟩ := Expr.build_ok fair v ov false _ w
    obtain ⟨h', N, eq, w, tN, ra, rb⟩ := w.decInit fair g2 g1 bE tP i
    obtain ⟨c2, M, e2, w, x2, s2, tM, rc, rd⟩ := Decs.build_ok ds od { heap := h', exprs := c.exprs, stmts := N.out :: st } w tN rfl
    refine ⟨c2, M, ?_, w, x2, s2, tM, ?_, ?_⟩
    · have s3 : c3.stmts = P.out :: st := s3.trans (s1.trans k)
      simp only [Decs.build, e1, e3, Option.bind_some, x3, x1, eE, s3, eq, e2]
    · rintro _ ⟨n1, _, rfl, p, n2, n3, n4, rfl, ⟨u, q⟩, ⟨u', q'⟩, r⟩
      exact rc _ ⟨n1 ++ (n2 ++ n3), n4, by simp, ra _ _ rfl ⟨n1, _, rfl, p, n2, n3, rfl, r1.plain oc q, r2.thru q'⟩, r⟩
    · rintro _ (p | ⟨n1, _, rfl, p, q | ⟨n2, n3, rfl, ⟨u, q⟩, r⟩ | ⟨n2, n3, n4, rfl, ⟨u, q⟩, ⟨u', q'⟩, r⟩⟩)
      · exact rd _ (.inl (rb _ (.inl p)))
      · exact rd _ (.inl (rb _ (.inr ⟨n1, _, rfl, p, .inl (r1.part _ q)⟩)))
      · exact rd _ (.inl (rb _ (.inr ⟨n1, _, rfl, p, .inr ⟨n2, n3, rfl, r1.plain oc q, r2.part _ r⟩⟩)))
      · exact rd _ (.inr ⟨n1 ++ (n2 ++ n3), n4, by simp, ra _ _ rfl ⟨n1, _, rfl, p, n2, n3, rfl, r1.plain oc q, r2.thru q'⟩, r⟩)

/-- The number that names a statement. -/
def Stmt.name : Stmt → Nat
  | .expr i _ | .var i _ | .block i _ | .ifThen i _ _ | .ifElse i _ _ _ | .while i _ _ | .doWhile i _ _ | .for i _ _ _ _ | .each i _ _ _ => i

omit fair in
/-- A statement on its own. -/
theorem Done.alone {h0 : Heap} {Fs : List Fr} {hd : Option Nat} {P : Fr} {es st : List Nat} {r : Option Ctx} {ex pa : List Nat → Prop}
    (d : Done h0 Fs hd P es st r ex pa) (b : Blank P) :
    ∃ c' N, r = some c' ∧ W h0 c'.heap (N :: Fs) ∧ c'.exprs = es ∧ c'.stmts = N.out :: st ∧ Good N ∧ (∀ ns, ex ns → N.run .seq ns) ∧ (∀ ns, pa ns → N.run .pre ns) := by
  obtain ⟨c', N, e, w, x, s, t, ra, rb⟩ := d
  exact ⟨c', N, e, w, x, s, t.toGood, fun ns q => ra ns ⟨[], ns, rfl, b.run _ rfl, q⟩, fun ns q => rb ns (.inr ⟨[], ns, rfl, b.run _ rfl, q⟩)⟩

omit fair in
/-- Going through a piece that may be missing. -/
def Fr.opt : Option Fr → Kd → List Nat → Prop
  | none, _, ns => ns = []
  | some F, k, ns => F.run k ns

/-- What building a part that may be missing gives. -/
def Perhaps (h0 : Heap) (Fs : List Fr) (c : Ctx) (there : Bool) (r : Option Ctx) (ex pa : List Nat → Prop) : Prop :=
  ∃ c' I, r = some c' ∧ W h0 c'.heap (I.toList ++ Fs) ∧ c'.exprs = (I.map Fr.out).toList ++ c.exprs ∧ c'.stmts = c.stmts ∧ (∀ F ∈ I, Good F) ∧ I.isSome = there ∧
    (∀ ns, ex ns → Fr.opt I .seq ns) ∧ (∀ ns, pa ns → Fr.opt I .pre ns)

theorem Expr.build_perhaps (e : Expr) (o : (e.cls == .plain && e.ok) = true) (c : Ctx) {h0 : Heap} {Fs : List Fr} (w : W h0 c.heap Fs) :
    Perhaps h0 Fs c true (e.build ω false c) (fun ns => ∃ v, e.eval ns v) e.part := by
  simp only [Bool.and_eq_true, beq_iff_eq] at o
  obtain ⟨c1, N1, e1, w, x1, s1, g1, r1⟩ := Expr.build_ok fair e o.2 false c w
  refine ⟨c1, some N1, e1, w, x1, s1, ?_, rfl, ?_, ?_⟩
  · rintro _ ⟨⟩; exact g1
  · rintro ns ⟨v, q⟩; exact r1.plain o.1 q
  · exact fun ns q => r1.part _ q

theorem Init.build_ok (i : Init) (o : i.ok = true) (c : Ctx) {h0 : Heap} {Fs : List Fr} (w : W h0 c.heap Fs) :
    Perhaps h0 Fs c i.some (i.build ω c) i.exec i.part := by
  cases i with
  | none => exact ⟨c, Option.none, rfl, w, rfl, rfl, by simp, rfl, fun _ q => q, fun _ q => q⟩
  | expr e => exact Expr.build_perhaps fair e o c w
  | var i ds =>
    obtain ⟨c1, Q, e1, w, x1, s1, t1, b1⟩ := push_branch (ω := ω) c w i
    obtain ⟨c2, N2, e2, w, x2, s2, t2, ra, rb⟩ := Decs.build_ok fair ds o c1 w t1 s1
    obtain ⟨h', N, eq, w, tN, rc, rd⟩ := w.block fair t2 i
    refine ⟨{ heap := h', exprs := N.out :: c.exprs, stmts := c.stmts }, Option.some N, ?_, w, rfl, rfl, ?_, rfl, ?_, ?_⟩
    · simp only [Init.build, e1, e2, Option.bind_some, s2, eq, Option.map_some, x2, x1]
    · rintro _ ⟨⟩; exact tN.toGood
    · exact fun ns q => rc _ _ rfl (ra _ ⟨[], ns, rfl, b1.run _ rfl, q⟩)
    · exact fun ns q => rd _ (rb _ (.inr ⟨[], ns, rfl, b1.run _ rfl, q⟩))

theorem buildOpt_ok (u : Option Expr) (o : Opt.ok u = true) (c : Ctx) {h0 : Heap} {Fs : List Fr} (w : W h0 c.heap Fs) :
    Perhaps h0 Fs c u.isSome (buildOpt ω u c) (Opt.exec u) (Opt.part u) := by
  cases u with
  | none => exact ⟨c, none, rfl, w, rfl, rfl, by simp, rfl, fun _ q => q, fun _ q => q⟩
  | some e => exact Expr.build_perhaps fair e o c w

omit fair in
theorem popIf_ok (I : Option Fr) (es : List Nat) : popIf I.isSome ((I.map Fr.out).toList ++ es) = some (I.map Fr.out, es) := by
  cases I <;> rfl

omit fair in
theorem andThen_seq {E : Fr} {I : Option Fr} {ns : List Nat} (q : Then (E.run .seq) (Fr.opt I .seq) ns) : (E.andThen I).run .seq ns := by
  obtain ⟨n1, n2, rfl, a, b⟩ := q
  cases I with
  | none => cases b; rw [List.append_nil]; exact a
  | some I => exact .cat a b

omit fair in
theorem andThen_pre {E : Fr} {I : Option Fr} {ns : List Nat} (q : E.run .pre ns ∨ (∃ F, I = some F ∧ Then (E.run .seq) (F.run .pre) ns)) : (E.andThen I).run .pre ns := by
  rcases q with q | ⟨F, rfl, n1, n2, rfl, a, b⟩
  · cases I with
    | none => exact q
    | some I => exact .pre q
  · exact .cat a b

omit fair in
theorem round_seq {T B : Fr} {U : Option Fr} {n1 n2 n3 : List Nat} (a : T.run .seq n1) (b : B.run .seq n2) (d : Fr.opt U .seq n3) : (T.round B U).run .seq (n1 ++ (n2 ++ n3)) := by
  cases U with
  | none => cases d; rw [List.append_nil]; exact Seqd.cat (F := T) a b
  | some U => rw [← List.append_assoc]; exact .cat (Seqd.cat (F := T) a b) d

omit fair in
theorem round_pre {T B : Fr} {U : Option Fr} {ns : List Nat} (q : T.run .pre ns ∨ Then (T.run .seq) (B.run .pre) ns) : (T.round B U).run .pre ns := by
  have q' : Seqd (T.run .seq) T B .pre ns := by
    rcases q with q | ⟨n1, n2, rfl, a, b⟩
    · exact .pre q
    · exact .cat a b
  cases U with
  | none => exact q'
  | some U => exact .pre (F := { B with run := Seqd (T.run .seq) T B }) q'

mutual

theorem Stmt.build_ok : ∀ (s : Stmt), s.ok = true → ∀ (branch : Bool) (c c1 : Ctx) {h0 : Heap} {Fs : List Fr} {hd : Option Nat} {P : Fr} {es st : List Nat},
    c.pushStmt ω branch s.name = some c1 → W h0 c1.heap (P :: Fs) → Tail hd P → c1.exprs = es → c1.stmts = P.out :: st →
    Done h0 Fs hd P es st (s.build ω branch c) s.exec s.part
  | .expr i e, o, br, c, c1, h0, Fs, hd, P, es, st, ec, w, tP, xe, xs => by
    obtain ⟨c2, N2, e2, w, x2, s2, g2, r2⟩ := Expr.build_ok fair e o true _ w
    obtain ⟨h', N, eq, w, tN, ra, rb⟩ := w.exprStmt fair g2 tP i
    refine ⟨{ heap := h', exprs := es, stmts := N.out :: st }, N, ?_, w, rfl, rfl, tN, ?_, ?_⟩
    · have ec : c.pushStmt ω br i = some c1 := ec
      have s2 := s2.trans xs
      have x2 := x2.trans (by rw [xe])
      simp only [Stmt.build, ec, e2, Option.bind_some, x2, s2, eq, Option.map_some]
    · rintro ns ⟨n1, n2, rfl, p, v, q⟩
      exact ra _ _ rfl ⟨n1, n2, rfl, p, r2.thru q⟩
    · rintro ns (p | ⟨n1, n2, rfl, p, q⟩)
      · exact rb _ (.inl p)
      · exact rb _ (.inr ⟨n1, n2, rfl, p, r2.part _ q⟩)
  | .var i ds, o, br, c, c1, h0, Fs, hd, P, es, st, ec, w, tP, xe, xs => by
    obtain ⟨c2, N2, e2, w, x2, s2, t2, ra, rb⟩ := Decs.build_ok fair ds o c1 w tP xs
    obtain ⟨h', N, eq, w, tN, rc, rd⟩ := w.block fair t2 i
    refine ⟨{ heap := h', exprs := es, stmts := N.out :: st }, N, ?_, w, rfl, rfl, tN, fun ns q => rc _ _ rfl (ra _ q), fun ns q => rd _ (rb _ q)⟩
    have ec : c.pushStmt ω br i = some c1 := ec
    have x2 := x2.trans xe
    simp only [Stmt.build, ec, e2, Option.bind_some, s2, eq, Option.map_some, x2]
  | .block i ss, o, br, c, c1, h0, Fs, hd, P, es, st, ec, w, tP, xe, xs => by
    obtain ⟨c2, N2, e2, w, x2, s2, t2, ra, rb⟩ := Stmts.build_ok ss o c1 w tP xs
    obtain ⟨h', N, eq, w, tN, rc, rd⟩ := w.block fair t2 i
    refine ⟨{ heap := h', exprs := es, stmts := N.out :: st }, N, ?_, w, rfl, rfl, tN, fun ns q => rc _ _ rfl (ra _ q), fun ns q => rd _ (rb _ q)⟩
    have ec : c.pushStmt ω br i = some c1 := ec
    have x2 := x2.trans xe
    simp only [Stmt.build, ec, e2, Option.bind_some, s2, eq, Option.map_some, x2]
  | .ifThen i t k, o, br, c, c1, h0, Fs, hd, P, es, st, ec, w, tP, xe, xs => by
    simp only [Stmt.ok, Bool.and_eq_true] at o
    have tt := test_takes o.1.1
    obtain ⟨c2, N2, e2, w, x2, s2, g2, r2⟩ := Expr.build_ok fair t o.1.2 false _ w
    obtain ⟨c3, Q3, e3, w, x3, s3, t3, b3⟩ := push_branch (ω := ω) c2 w k.name
    obtain ⟨c4, N4, e4, w, x4, s4, g4, ra, rb⟩ := (Stmt.build_ok k o.2 true c2 c3 e3 w t3 rfl s3).alone b3
    obtain ⟨h', N, eq, w, tN, rc, rd⟩ := w.ifThen fair g4 g2 tP i
    refine ⟨{ heap := h', exprs := es, stmts := N.out :: st }, N, ?_, w, rfl, rfl, tN, ?_, ?_⟩
    · have ec : c.pushStmt ω br i = some c1 := ec
      have x4 := x4.trans (x3.trans (x2.trans (by rw [xe])))
      have s4 := s4.trans (by rw [s2, xs])
      simp only [Stmt.build, ec, e2, e4, Option.bind_some, s4, x4, eq, Option.map_some]
    · rintro ns ⟨n1, _, rfl, p, ⟨n2, n3, rfl, q1, q2⟩ | ⟨u, ne, q⟩⟩
      · exact rc _ _ rfl ⟨n1, _, rfl, p, .inl ⟨n2, n3, rfl, r2.yes o.1.2 tt q1, _, ra _ q2⟩⟩
      · exact rc _ _ rfl ⟨n1, _, rfl, p, .inr (r2.no o.1.2 tt ne q)⟩
    · rintro ns (p | ⟨n1, _, rfl, p, q | ⟨n2, n3, rfl, q1, q2⟩⟩)
      · exact rd _ (.inl p)
      · exact rd _ (.inr ⟨n1, _, rfl, p, .inl (r2.part _ q)⟩)
      · exact rd _ (.inr ⟨n1, _, rfl, p, .inr ⟨n2, n3, rfl, r2.yes o.1.2 tt q1, rb _ q2⟩⟩)
  | .ifElse i t k a, o, br, c, c1, h0, Fs, hd, P, es, st, ec, w, tP, xe, xs => by
    simp only [Stmt.ok, Bool.and_eq_true] at o
    obtain ⟨⟨⟨tt, ot⟩, ok⟩, oa⟩ := o
    have tt := test_takes tt
    obtain ⟨c2, N2, e2, w, x2, s2, g2, r2⟩ := Expr.build_ok fair t ot false _ w
    obtain ⟨c3, Q3, e3, w, x3, s3, t3, b3⟩ := push_branch (ω := ω) c2 w k.name
    obtain ⟨c4, N4, e4, w, x4, s4, g4, ra, rb⟩ := (Stmt.build_ok k ok true c2 c3 e3 w t3 rfl s3).alone b3
    obtain ⟨c5, Q5, e5, w, x5, s5, t5, b5⟩ := push_branch (ω := ω) c4 w a.name
    obtain ⟨c6, N6, e6, w, x6, s6, g6, re, rf⟩ := (Stmt.build_ok a oa true c4 c5 e5 w t5 rfl s5).alone b5
    obtain ⟨h', N, eq, w, tN, rc, rd⟩ := w.ifElse fair g6 g4 g2 tP i
    refine ⟨{ heap := h', exprs := es, stmts := N.out :: st }, N, ?_, w, rfl, rfl, tN, ?_, ?_⟩
    · have ec : c.pushStmt ω br i = some c1 := ec
      have x6 := x6.trans (x5.trans (x4.trans (x3.trans (x2.trans (by rw [xe])))))
      have s6 := s6.trans (by rw [s4, s2, xs])
      simp only [Stmt.build, ec, e2, e4, e6, Option.bind_some, s6, x6, eq, Option.map_some]
    · rintro ns ⟨n1, _, rfl, p, n2, n3, rfl, ⟨q1, q2⟩ | ⟨⟨u, ne, q1⟩, q2⟩⟩
      · exact rc _ _ rfl ⟨n1, _, rfl, p, .inl ⟨n2, n3, rfl, r2.yes ot tt q1, _, ra _ q2⟩⟩
      · exact rc _ _ rfl ⟨n1, _, rfl, p, .inr ⟨n2, n3, rfl, r2.no ot tt ne q1, _, re _ q2⟩⟩
    · rintro ns (p | ⟨n1, _, rfl, p, q | ⟨n2, n3, rfl, ⟨q1, q2⟩ | ⟨⟨u, ne, q1⟩, q2⟩⟩⟩)
      · exact rd _ (.inl p)
      · exact rd _ (.inr ⟨n1, _, rfl, p, .inl (r2.part _ q)⟩)
      · exact rd _ (.inr ⟨n1, _, rfl, p, .inr (.inl ⟨n2, n3, rfl, r2.yes ot tt q1, rb _ q2⟩)⟩)
      · exact rd _ (.inr ⟨n1, _, rfl, p, .inr (.inr ⟨n2, n3, rfl, r2.no ot tt ne q1, rf _ q2⟩)⟩)
  | .while i t b, o, br, c, c1, h0, Fs, hd, P, es, st, ec, w, tP, xe, xs => by
    simp only [Stmt.ok, Bool.and_eq_true] at o
    have tt := test_takes o.1.1
    obtain ⟨c2, N2, e2, w, x2, s2, g2, r2⟩ := Expr.build_ok fair t o.1.2 false _ w
    obtain ⟨c3, Q3, e3, w, x3, s3, t3, b3⟩ := push_branch (ω := ω) c2 w b.name
    obtain ⟨c4, N4, e4, w, x4, s4, g4, ra, rb⟩ := (Stmt.build_ok b o.2 true c2 c3 e3 w t3 rfl s3).alone b3
    obtain ⟨h', N, eq, w, tN, J, jr, rc, rd⟩ := w.whileStmt fair g4 g2 tP i
    have yes : ∀ ns, t.eval ns .truthy → J.run (.ex { q := true, t := true }) ns := by
      intro ns q; rw [jr]; exact .inl (r2.yes o.1.2 tt q)
    refine ⟨{ heap := h', exprs := es, stmts := N.out :: st }, N, ?_, w, rfl, rfl, tN, ?_, ?_⟩
    · have ec : c.pushStmt ω br i = some c1 := ec
      have x4 := x4.trans (x3.trans (x2.trans (by rw [xe])))
      have s4 := s4.trans (by rw [s2, xs])
      simp only [Stmt.build, ec, e2, e4, Option.bind_some, s4, x4, eq, Option.map_some]
    · rintro ns ⟨n1, n2, rfl, p, q⟩
      refine rc _ _ rfl ⟨n1, n2, rfl, p, ?_⟩
      change Loop t.eval (fun ms => b.exec ms) n2 at q
      induction q with
      | stop ne q => exact .exit (by rw [jr]; exact .inr ⟨false, rfl, rfl, r2.no o.1.2 tt ne q⟩) rfl
      | again q1 q2 _ ih => exact .again (yes _ q1) (ra _ q2) ih
    · rintro ns (p | ⟨n1, n2, rfl, p, q⟩)
      · exact rd _ (.inl p)
      · refine rd _ (.inr ⟨n1, n2, rfl, p, ?_⟩)
        change LoopPart t.eval b.exec t.part (fun ms => b.part ms) n2 at q
        induction q with
        | test q => exact .test (by rw [jr]; exact r2.part _ q)
        | body q1 q2 => exact .body (yes _ q1) (rb _ q2)
        | again q1 q2 _ ih => exact .again (yes _ q1) (ra _ q2) ih
  | .doWhile i b t, o, br, c, c1, h0, Fs, hd, P, es, st, ec, w, tP, xe, xs => by
    simp only [Stmt.ok, Bool.and_eq_true] at o
    have tt := test_takes o.1.1
    obtain ⟨c3, Q3, e3, w, x3, s3, t3, b3⟩ := push_branch (ω := ω) c1 w b.name
    obtain ⟨c4, N4, e4, w, x4, s4, g4, ra, rb⟩ := (Stmt.build_ok b o.2 true c1 c3 e3 w t3 rfl s3).alone b3
    obtain ⟨c2, N2, e2, w, x2, s2, g2, r2⟩ := Expr.build_ok fair t o.1.2 false _ w
    obtain ⟨h', N, eq, w, tN, J, jr, rc, rd⟩ := w.doStmt fair g4 g2 tP i
    have yes : ∀ ns, t.eval ns .truthy → J.run (.ex { q := true, t := true }) ns := by
      intro ns q; rw [jr]; exact .inl (r2.yes o.1.2 tt q)
    refine ⟨{ heap := h', exprs := es, stmts := N.out :: st }, N, ?_, w, rfl, rfl, tN, ?_, ?_⟩
    · have ec : c.pushStmt ω br i = some c1 := ec
      have x2 := x2.trans (by rw [x4, x3, xe])
      have s2 := s2.trans (s4.trans (by rw [xs]))
      simp only [Stmt.build, ec, e2, e4, Option.bind_some, s2, x2, eq, Option.map_some]
    · rintro ns ⟨n1, n2, rfl, p, q⟩
      refine rc _ _ rfl (.cat p ?_)
      change DoLoop t.eval (fun ms => b.exec ms) n2 at q
      induction q with
      | stop q1 ne q2 => exact .exit (.cat (ra _ q1) (by rw [jr]; exact .inr ⟨false, rfl, rfl, r2.no o.1.2 tt ne q2⟩)) rfl
      | again q1 q2 _ ih => exact .again (.cat (ra _ q1) (yes _ q2)) ih
    · rintro ns (p | ⟨n1, n2, rfl, p, q⟩)
      · exact rd _ (.pre p)
      · refine rd _ (.cat p ?_)
        change DoLoopPart t.eval b.exec t.part (fun ms => b.part ms) n2 at q
        induction q with
        | body q => exact .part (.pre (rb _ q))
        | test q1 q2 => exact .part (.cat (ra _ q1) (by rw [jr]; exact r2.part _ q2))
        | again q1 q2 _ ih => exact .again (.cat (ra _ q1) (yes _ q2)) ih
  | .for i a t u b, o, br, c, c1, h0, Fs, hd, P, es, st, ec, w, tP, xe, xs => by
    simp only [Stmt.ok, Bool.and_eq_true] at o
    obtain ⟨⟨⟨⟨⟨oi, k1⟩, k2⟩, ot⟩, ou⟩, ob⟩ := o
    have tt := test_takes k1
    have ta := test_falls k1 k2
    have w := w.fill
    obtain ⟨P', hP', tP', pa, pb⟩ : ∃ P', P' = { P with run := fun k ns => P.run k ns ∨ (k = .pre ∧ Thru P ns) } ∧ Tail hd P' ∧ (∀ ns, P.run .seq ns → P'.run .seq ns) ∧
        (∀ ns, (P.run .pre ns ∨ P.run .seq ns) → P'.run .pre ns) :=
      ⟨{ P with run := fun k ns => P.run k ns ∨ (k = .pre ∧ Thru P ns) }, rfl, ⟨⟨tP.one, tP.mem⟩, tP.tidy, tP.head⟩, fun ns q => .inl q, fun ns q => q.elim .inl fun q => .inr ⟨rfl, _, q⟩⟩
    rw [← hP'] at w
    have xs : c1.stmts = P'.out :: st := by rw [hP']; exact xs
    clear hP'
    obtain ⟨c2, I, e2, w, x2, s2, gI, nI, ia, ib⟩ := Init.build_ok fair a oi c1 w
    obtain ⟨c3, T, e3, w, x3, s3, g3, r3⟩ := Expr.build_ok fair t ot false _ w
    obtain ⟨c4, U, e4, w, x4, s4, gU, nU, ua, ub⟩ := buildOpt_ok fair u ou c3 w
    obtain ⟨c5, Q5, e5, w, x5, s5, t5, b5⟩ := push_branch (ω := ω) c4 w b.name
    obtain ⟨c6, B, e6, w, x6, s6, g6, ra, rb⟩ := (Stmt.build_ok b ob true c4 c5 e5 w t5 rfl s5).alone b5
    have w := w.fill
    obtain ⟨B', hB', gB', ba, bb⟩ : ∃ B', B' = { B with run := fun k ns => B.run k ns ∨ (k = .pre ∧ Thru B ns) } ∧ Good B' ∧ (∀ ns, B.run .seq ns → B'.run .seq ns) ∧
        (∀ ns, (B.run .pre ns ∨ B.run .seq ns) → B'.run .pre ns) :=
      ⟨{ B with run := fun k ns => B.run k ns ∨ (k = .pre ∧ Thru B ns) }, rfl, ⟨g6.one, g6.mem⟩, fun ns q => .inl q, fun ns q => q.elim .inl fun q => .inr ⟨rfl, _, q⟩⟩
    rw [← hB'] at w
    have s6 : c6.stmts = B'.out :: c4.stmts := by rw [hB']; exact s6
    clear hB'
    have w : W h0 c6.heap (T :: P' :: B' :: I.toList ++ U.toList ++ Fs) := w.perm (by
      cases I <;> cases U <;> simp only [Option.toList, List.nil_append, List.cons_append]
      all_goals
        classical
        rw [List.perm_iff_count]
        intro F
        simp only [List.count_cons]
        omega)
    obtain ⟨h', N, eq, w, tN, J, jr, rc, rd⟩ := w.forStmt fair gB' g3 gI gU tP' i
    have yes : ∀ ns, t.eval ns .truthy → J.run .seq ns := by
      intro ns q; rw [jr]; exact .inl (r3.on ot ta q)
    refine ⟨{ heap := h', exprs := es, stmts := N.out :: st }, N, ?_, w, rfl, rfl, tN, ?_, ?_⟩
    · have ec : c.pushStmt ω br i = some c1 := ec
      have x6 : c6.exprs = (U.map Fr.out).toList ++ T.out :: ((I.map Fr.out).toList ++ es) := by rw [x6, x5, x4, x3, x2, xe]
      have s6 : c6.stmts = B'.out :: P'.out :: st := by rw [s6, s4, s3, s2, xs]
      simp only [Stmt.build, ec, e2, e3, e4, e6, Option.bind_some, ← nU, ← nI, x6, popIf_ok, s6, eq, Option.map_some]
    · rintro ns ⟨n1, _, rfl, p, n2, n3, rfl, q1, q2⟩
      refine rc _ _ rfl ?_
      rw [← List.append_assoc]
      refine .cat (andThen_seq ⟨n1, n2, rfl, pa _ p, ia _ q1⟩) ?_
      induction q2 with
      | stop ne q => exact .exit (by rw [jr]; exact .inr ⟨false, rfl, rfl, r3.no ot tt ne q⟩) rfl
      | again q1 q2 _ ih =>
        obtain ⟨m1, m2, rfl, q2, q3⟩ := q2
        exact .again (round_seq (yes _ q1) (ba _ (ra _ q2)) (ua _ q3)) ih
    · rintro ns (p | ⟨n1, _, rfl, p, q | ⟨n2, n3, rfl, q1, q2⟩⟩)
      · exact rd _ (.pre (andThen_pre (.inl (pb _ (.inl p)))))
      · have q := ib _ q
        refine rd _ (.pre (andThen_pre ?_))
        cases I with
        | none =>
          cases q
          rw [List.append_nil]
          exact .inl (pb _ (.inr p))
        | some F => exact .inr ⟨F, rfl, n1, _, rfl, pa _ p, q⟩
      · refine rd _ ?_
        rw [← List.append_assoc]
        refine .cat (andThen_seq ⟨n1, n2, rfl, pa _ p, ia _ q1⟩) ?_
        induction q2 with
        | test q => exact .part (round_pre (.inl (by rw [jr]; exact r3.part _ q)))
        | body q1 q2 =>
          rcases q2 with q2 | ⟨m1, m2, rfl, q2, q3⟩
          · exact .part (round_pre (.inr ⟨_, _, rfl, yes _ q1, bb _ (.inl (rb _ q2))⟩))
          · have q3 := ub _ q3
            cases U with
            | none =>
              cases q3
              rw [List.append_nil]
              exact .part (round_pre (U := none) (.inr ⟨_, _, rfl, yes _ q1, bb _ (.inr (ra _ q2))⟩))
            | some F =>
              rw [← List.append_assoc]
              exact .part (.cat (Seqd.cat (F := J) (yes _ q1) (ba _ (ra _ q2))) q3)
        | again q1 q2 _ ih =>
          obtain ⟨m1, m2, rfl, q2, q3⟩ := q2
          exact .again (round_seq (yes _ q1) (ba _ (ra _ q2)) (ua _ q3)) ih
  | .each .., o, _, _, _, _, _, _, _, _, _, _, _, _, _, _ => by cases o

theorem Stmts.build_ok : ∀ (ss : Stmts), ss.ok = true → ∀ (c : Ctx) {h0 : Heap} {Fs : List Fr} {hd : Option Nat} {P : Fr} {st : List Nat}, W h0 c.heap (P :: Fs) → Tail hd P →
    c.stmts = P.out :: st → Done h0 Fs hd P c.exprs st (ss.build ω c) ss.exec ss.part
  | .nil, _, c, _, _, _, _, _, w, tP, k => Done.nil c w tP k
  | .cons s ss, o, c, h0, Fs, hd, P, st, w, tP, k => by
    simp only [Stmts.ok, Bool.and_eq_true] at o
    obtain ⟨c1, N1, e1, w, x1, s1, t1, ra, rb⟩ := push_stmt fair c w tP k s.name
    obtain ⟨c2, N2, e2, w, x2, s2, t2, rc, rd⟩ := Stmt.build_ok s o.1 false c c1 e1 w t1 x1 s1
    obtain ⟨c3, N3, e3, w, x3, s3, t3, re, rf⟩ := Stmts.build_ok ss o.2 c2 w t2 s2
    refine ⟨c3, N3, ?_, w, x3.trans x2, s3, t3, ?_, ?_⟩
    · rw [Stmts.build, e2, Option.bind_some, e3]
    · rintro ns ⟨n1, _, rfl, p, n2, n3, rfl, q, r⟩
      rw [← List.append_assoc]
      exact re _ ⟨n1 ++ n2, n3, rfl, rc _ ⟨n1, n2, rfl, ra _ p, q⟩, r⟩
    · rintro ns (p | ⟨n1, _, rfl, p, q | ⟨n2, n3, rfl, q, r⟩⟩)
      · exact rf _ (.inl (rd _ (.inl (rb _ p))))
      · exact rf _ (.inl (rd _ (.inr ⟨n1, _, rfl, ra _ p, q⟩)))
      · rw [← List.append_assoc]
        exact rf _ (.inr ⟨n1 ++ n2, n3, rfl, rc _ ⟨n1, n2, rfl, ra _ p, q⟩, r⟩)

end

/-- What the analysis of a program gives. -/
theorem analyse_ok (id : Nat) (ss : Stmts) (o : ss.ok = true) :
    ∃ h, analyse ω id ss = some h ∧
      (∀ ns, ss.exec ns → ∃ x, Walk h headBlock ns x ∧ .exit id ∈ (h.blk x).nodes) ∧
      (∀ ns, ss.part ns → ∃ x w, Walk h headBlock w x ∧ ns <+: w) ∧
      (∀ ns x, Walk h headBlock ns x → h.Ng x ∧ ∀ d ∈ h.I x, (h.edge d).dst = some x) := by
  have c0 : Clean Heap.empty := fun i _ k => k rfl
  obtain ⟨B, eB, bB, tB, _, hB, w⟩ := (W.start c0).blank .start [] (.inr rfl) rfl
  obtain ⟨c1, N1, e1, w, x1, s1, t1, ra, rb⟩ := push_stmt fair Ctx.start (hd := some headBlock) (st := []) w ⟨bB.toGood, tB, hB⟩ (by rw [eB]; rfl) id
  obtain ⟨c2, N2, e2, w, x2, s2, t2, rc, rd⟩ := Stmts.build_ok fair ss o c1 w t1 s1
  obtain ⟨h', N, eq, w, tN, mk, re, rf⟩ := w.prog fair t2 id
  obtain ⟨e, s, f⟩ := w.frag N (by simp)
  have he : e = headBlock := f.head _ tN.head
  subst he
  refine ⟨h', ?_, ?_, ?_, ?_⟩
  · simp only [analyse, e1, e2, Option.bind_some, s2, eq, Option.map_some]
  · intro ns q
    have q := rc _ ⟨[], ns, rfl, ra _ (bB.run _ rfl), q⟩
    obtain ⟨x, wk, ex, _⟩ := (f.run _ _ (re { q := true } _ rfl q)).seq (f.last tN.one).out
    obtain ⟨y, ey, m⟩ := (f.last tN.one).mark _ mk
    rw [ex] at ey
    cases ey
    exact ⟨x, wk, m⟩
  · intro ns q
    exact f.run _ _ (rf _ (rd _ (.inr ⟨[], ns, rfl, ra _ (bB.run _ rfl), q⟩)))
  · intro ns x wk
    have nx : N.S x ∧ h'.Ng x := by
      induction wk with
      | one => exact ⟨f.ent.se, f.ent.ne⟩
      | step _ m e ih => exact f.ent.reg.dstO _ ih.1 ih.2.isB _ m _ e
    exact ⟨nx.2, f.ent.reg.insDst x nx.1 nx.2⟩

end

end Mole.Cfg
