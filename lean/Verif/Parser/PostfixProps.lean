import Verif.Parser.PostfixNew
/-!
# Member, call and `new` expressions are grouped as the language says

Full statement: for every token sequence the parser gives a tree exactly if the grammar of ECMA-262 13.3
(`Spec.Lhs`) derives it from the longest run of postfixes at the front, and it is that tree.  This is false of the code
(`_violated` below).
-/
namespace Mole.Parser.Postfix
open Spec

/-- The grammar gives a token sequence one tree at most, the one `group` computes. -/
theorem grammar_unambiguous (s : List Tok) (t u : T) (h : Lhs s t) (h' : Lhs s u) : t = u := by
  rw [group_iff] at h h'
  rw [h] at h'
  exact Option.some.inj h'

example : Lhs [.new, .new, .name 1, .dot 2, .args 3 true, .args 4 true]
    (.new (.new (.dot (.name 1) 2 false) (some 3)) (some 4)) := (group_iff _ _).2 (by simp [group, tail])

theorem lhs_some {s : List Tok} (h : (group 0 s).isSome = true) : ∃ t, Lhs s t := by
  obtain ⟨t, ht⟩ := Option.isSome_iff_exists.1 h
  exact ⟨t, (group_iff _ _).2 ht⟩

theorem lhs_none {s : List Tok} (h : group 0 s = none) (t : T) : ¬ Lhs s t := by
  rw [group_iff, h]; simp

/-- The parse of member, call and `new` expressions ends for every input. -/
theorem postfix_total (ts : List Tok) : (parse ts).isSome = true := by
  obtain ⟨x, h⟩ := parse_some ts
  rw [h]; rfl

theorem parse_eq {ts : List Tok} {t : T} {b : Bool} {w : List Tok}
    (h : lhs (3 * ts.length + 10) ts = some (.ok (t, b, w))) : parse ts = some (.ok (t, w)) := by
  rw [parse, h]; rfl

theorem lhsEnd_stop {f : Nat} {t : T} {b : Bool} {w : List Tok} (hw : Stops w) :
    lhsEnd f (some (.ok (t, b, w))) = some (.ok (t, b, w)) := by
  match w, hw with
  | [], _ => rfl
  | x :: w, hw => cases x <;> simp [Stops] at hw <;> rfl

theorem group_prim {p : Tok} {t : T} (h : prim p = some t) (j : Nat) (r : List Tok) :
    group j (p :: r) = tail j false t r := by
  cases p <;> simp [prim] at h <;> subst h <;> simp [group]

theorem prim_lhs {p : Tok} {t : T} (h : prim p = some t) (f : Nat) (r : List Tok) :
    lhs f (p :: r) = lhsEnd f (callLoop f true false false t r) := by
  cases p <;> simp [prim] at h <;> subst h <;> rfl

theorem prim_node {p : Tok} {t : T} (h : prim p = some t) : t.isChain = false := by
  cases p <;> simp [prim] at h <;> subst h <;> rfl

theorem plain_clean : ∀ (ms : List Tok) (o a : Bool), plain ms = true →
    clean o a ms = true ∧ hasOpt ms = false ∧ late ms = true := by
  intro ms
  induction ms with
  | nil => intro o a _; exact ⟨rfl, rfl, rfl⟩
  | cons m ms ih =>
    intro o a h
    cases m <;> simp [plain] at h
    all_goals
      obtain ⟨h1, h2, h3⟩ := ih o false h
      refine ⟨by simpa [clean] using h1, ?_, by simpa [late] using h3⟩
      simpa [hasOpt] using h2

/-- Every expression of the language that has one of these forms is read up to its end and grouped as the grammar says. -/
theorem postfix_grouping_partial (s : List Tok) (t : T) (w : List Tok) (h : Lhs s t) (hs : Fine s) (hw : Stops w) :
    parse (s ++ w) = some (.ok (t, w)) := by
  have hg := (group_iff s t).1 h
  cases hs with
  | @plain p u ops hp hd =>
    rw [group_prim hp] at hg
    have hc := clean_of_tail 0 false u ops rfl hg hd false (by simp)
    rw [tail_clean _ _ _ _ hc] at hg
    have hl := (loopsOk (3 * (p :: ops ++ w).length + 10)).1 true false false u ops w hw hc (by simp) (by simp)
      (by simp [prim_node hp]) (by simp; omega) (by intro; simp; omega)
    refine parse_eq (b := false || hasOpt ops) ?_
    rw [List.cons_append, prim_lhs hp, ← List.cons_append, hl, lhsEnd_stop hw, Option.some.inj hg]
  | target =>
    simp [group, tail] at hg
    subst hg
    refine parse_eq (b := false) ?_
    simp only [lhs, List.cons_append, List.nil_append, List.length_cons]
    rw [show 3 * (w.length + 1 + 1) + 10 = (3 * w.length + 15) + 1 by omega]
    simp only [newExpr, if_true]
    exact lhsEnd_stop hw
  | @targetDot n ops hd =>
    simp only [group, if_true] at hg
    have hc := clean_of_tail 0 false .newTarget (.dot n :: ops) rfl hg (by simpa [noDouble] using hd) false (by simp)
    rw [tail_clean _ _ _ _ hc] at hg
    have hl := (loopsOk (3 * (.new :: .dot target :: .dot n :: ops ++ w).length + 10)).1 true false false .newTarget
      (.dot n :: ops) w hw hc (by simp) (by simp) (by simp [T.isChain]) (by simp; omega) (by intro; simp; omega)
    refine parse_eq (b := false || hasOpt (.dot n :: ops)) ?_
    have : ∀ f, lhs (f + 1) (.new :: .dot target :: .dot n :: ops ++ w) =
        callLoop (f + 1) true false false .newTarget (.dot n :: ops ++ w) := by
      intro f; simp [lhs, newExpr, lhsEnd]
    rw [this, hl, Option.some.inj hg]
  | @new b u ms n e post hb hm hl hd =>
    have hgb : group 0 (.new :: b ++ ms ++ .args n e :: post) =
        tail 0 false (.new (fold u ms) (some n)) post := by
      obtain ⟨p, r, rfl, _, hp⟩ := base_head hb
      have hx : ∀ n, p ≠ .dot n := by rintro n rfl; cases hp
      have := group_member hb.member 1 (ms ++ .args n e :: post)
      simp only [List.cons_append, List.append_assoc] at this ⊢
      rw [group_new hx, this, tail_plain _ _ _ _ _ hm, tail]
    rw [hgb] at hg
    have hc := clean_of_tail 0 false _ post rfl hg hd false (by simp)
    rw [tail_clean _ _ _ _ hc] at hg
    refine parse_eq (b := false) ?_
    have hbl : 1 ≤ b.length := by
      obtain ⟨p, r, rfl, _, hp⟩ := base_head hb
      simp
    have := newExpr_args (f := 3 * (.new :: b ++ ms ++ .args n e :: post ++ w).length + 10) (n := n) (e := e) hb hm hc hl hw
      (by simp; omega)
    rw [show (.new :: b ++ ms ++ .args n e :: post ++ w) = .new :: (b ++ (ms ++ (.args n e :: (post ++ w)))) by simp]
      at this ⊢
    simp only [lhs]
    rw [this, lhsEnd_stop hw]
    rw [Bool.false_or] at hg
    rw [Option.some.inj hg]
  | @bare b u ms k hb hm =>
    obtain ⟨p, r, hbe, _, hp⟩ := base_head hb
    have hx : ∀ n, p ≠ .dot n := by rintro n rfl; cases hp
    have hgb : group 0 (List.replicate (k + 1) .new ++ b ++ ms) = tail (k + 1) false (fold u ms) [] := by
      have h1 := group_news (k + 1) 0 p (r ++ ms) hx
      have h2 := group_member hb.member (k + 1) ms
      rw [hbe] at h2 ⊢
      simp only [List.cons_append, List.append_assoc, Nat.zero_add] at h1 h2 ⊢
      rw [h1, h2]
      simpa using tail_plain ms (k + 1) false u [] hm
    rw [hgb, tail_bare] at hg
    have hbl : 1 ≤ b.length := by rw [hbe]; simp
    let f := 3 * (List.replicate (k + 1) Tok.new ++ b ++ ms ++ w).length + 9 - 2 * k
    have hfe : 3 * (List.replicate (k + 1) Tok.new ++ b ++ ms ++ w).length + 10 = f + 2 * k + 1 := by
      simp only [f]; simp; omega
    have h1 := newExpr_bare (f := f + 1) hb hm hw (by simp only [f]; simp; omega)
    obtain ⟨o, h2⟩ := newExpr_nest_many k h1 hw
    refine parse_eq (b := o) ?_
    rw [hfe, show List.replicate (k + 1) Tok.new ++ b ++ ms ++ w =
      .new :: (List.replicate k .new ++ (b ++ (ms ++ w))) by simp [List.replicate_succ]]
    simp only [lhs]
    rw [h2, lhsEnd_stop hw, ← Option.some.inj hg]
    have : ∀ (j : Nat) (t : T), Nat.repeat (fun t => T.new t none) j (.new t none) =
        .new (Nat.repeat (fun t => T.new t none) j t) none := by
      intro j; induction j with
      | zero => intro t; rfl
      | succ j ih => intro t; simp only [Nat.repeat, ih]
    rw [this]; rfl
  | @news b u ms n e ms' k hb hm hm' =>
    obtain ⟨p, r, hbe, _, hp⟩ := base_head hb
    have hx : ∀ n, p ≠ .dot n := by rintro n rfl; cases hp
    obtain ⟨hc, ho, hl⟩ := plain_clean ms' false false hm'
    have hgb : group 0 (List.replicate (k + 1) .new ++ b ++ ms ++ .args n e :: ms') =
        tail k false (fold (.new (fold u ms) (some n)) ms') [] := by
      have h1 := group_news (k + 1) 0 p (r ++ (ms ++ .args n e :: ms')) hx
      have h2 := group_member hb.member (k + 1) (ms ++ .args n e :: ms')
      rw [hbe] at h2 ⊢
      simp only [List.cons_append, List.append_assoc, Nat.zero_add] at h1 h2 ⊢
      rw [h1, h2, tail_plain _ _ _ _ _ hm, tail]
      simpa using tail_plain ms' k false _ [] hm'
    rw [hgb, tail_bare] at hg
    have hbl : 1 ≤ b.length := by rw [hbe]; simp
    let f := 3 * (List.replicate (k + 1) Tok.new ++ b ++ ms ++ .args n e :: ms' ++ w).length + 9 - 2 * k
    have hfe : 3 * (List.replicate (k + 1) Tok.new ++ b ++ ms ++ .args n e :: ms' ++ w).length + 10 = f + 2 * k + 1 := by
      simp only [f]; simp; omega
    have h1 := newExpr_args (f := f + 1) (n := n) (e := e) hb hm hc hl hw (by simp only [f]; simp; omega)
    obtain ⟨o, h2⟩ := newExpr_nest_many k h1 hw
    refine parse_eq (b := o) ?_
    rw [hfe, show List.replicate (k + 1) Tok.new ++ b ++ ms ++ .args n e :: ms' ++ w =
      .new :: (List.replicate k .new ++ (b ++ (ms ++ (.args n e :: (ms' ++ w))))) by simp [List.replicate_succ]]
    simp only [lhs]
    rw [h2, lhsEnd_stop hw, ← Option.some.inj hg, ho]
    simp [close]

/-- ``a?.b[0]().c`t` `` is no expression, the others are. -/
example : Lhs [.name 1, .opt, .name 2, .sub 0, .args 5 true, .dot 3] (.chain (.dot (.call (.sub (.dot (.name 1) 2 true) 0 false) 5 false) 3 false)) ∧
    Fine [.name 1, .opt, .name 2, .sub 0, .args 5 true, .dot 3] :=
  ⟨(group_iff _ _).2 (by simp [group, tail]), .plain (t := .name 1) rfl rfl⟩

example : Fine [.new, .name 1, .tpl 4, .dot 2, .args 5 true, .dot 3, .opt, .args 6 false] :=
  .new (b := [.name 1, .tpl 4]) (ms := [.dot 2]) (.tagged 4 rfl) rfl rfl rfl

example : Fine [.new, .new, .name 1, .sub 2, .args 5 true, .dot 3] :=
  .news (b := [.name 1]) (ms := [.sub 2]) 1 (.prim rfl) rfl rfl

theorem noDouble_prefix : ∀ s w : List Tok, noDouble (s ++ w) = true → noDouble s = true := by
  intro s
  induction s with
  | nil => intro w _; rfl
  | cons x s ih =>
    intro w hd
    have := ih w (noDouble_tail hd)
    rw [noDouble.eq_def]
    split
    · next e => cases e; simp [noDouble] at hd
    · next e => cases e; exact this
    · rfl

theorem chain_sound {p : Tok} {u t : T} {r w : List Tok} (hp : prim p = some u) (h2 : noTpl (p :: r) = true)
    (h3 : noDouble (p :: r) = true) (h : parse (p :: r) = some (.ok (t, w))) :
    ∃ s, p :: r = s ++ w ∧ Lhs s t ∧ Stops w := by
  have h2' : noTpl r = true := by cases p <;> simp [prim] at hp <;> simpa [noTpl] using h2
  obtain ⟨s, w', rfl, hc, ht, hw⟩ := split_run r.length false false r (Nat.le_refl _) h2' (noDouble_tail h3) (by simp)
  rcases hw with hw | ⟨x, rfl, hx⟩
  · have hl := (group_iff (p :: s) _).2 ((group_prim hp 0 s).trans (tail_clean false false s u hc))
    have hf := postfix_grouping_partial _ _ w' hl (.plain hp (noDouble_prefix s w' (noDouble_tail h3))) hw
    rw [List.cons_append, h] at hf
    obtain ⟨rfl, rfl⟩ := Prod.mk.inj (Except.ok.inj (Option.some.inj hf))
    exact ⟨_, rfl, hl, hw⟩
  · exfalso
    have := (loops_bad hx (3 * (p :: (s ++ .opt :: x)).length + 10)).1 true false false u s hc ht (by simp; omega)
    rw [parse, prim_lhs hp, this] at h
    cases h

/-- Without `new`, templates, and arguments directly after `?.( )`: a tree comes out exactly if the grammar derives it from
the longest run of postfixes. -/
theorem chain_decides_partial (ts : List Tok) (t : T) (w : List Tok) (h1 : ts.head? ≠ some .new) (h2 : noTpl ts = true)
    (h3 : noDouble ts = true) :
    parse ts = some (.ok (t, w)) ↔ ∃ s, ts = s ++ w ∧ Lhs s t ∧ Stops w := by
  constructor
  · intro h
    match ts, h1 with
    | [], _ => cases h
    | .dot _ :: _, _ | .sub _ :: _, _ | .args _ _ :: _, _ | .tpl _ :: _, _ | .opt :: _, _ | .stop _ :: _, _ => cases h
    | .new :: _, h1 => exact absurd rfl h1
    | .name n :: r, _ => exact chain_sound rfl h2 h3 h
    | .lit n :: r, _ => exact chain_sound rfl h2 h3 h
  · rintro ⟨s, rfl, hl, hw⟩
    have hg := (group_iff s t).1 hl
    have hd := noDouble_prefix s w h3
    refine postfix_grouping_partial s t w hl ?_ hw
    match s, hg with
    | .name n :: r, _ | .lit n :: r, _ => exact .plain (t := _) rfl (noDouble_tail hd)
    | .new :: _, _ => exact absurd rfl h1
    | [], hg | .dot _ :: _, hg | .sub _ :: _, hg | .args _ _ :: _, hg | .tpl _ :: _, hg | .opt :: _, hg | .stop _ :: _, hg =>
      simp [group] at hg

/-! ## Disagreements -/

/-- ``new C()`t` `` calls the result of `new C()` with the template; the code constructs ``C`t` ``. -/
theorem new_then_template_violated :
    Lhs [.new, .name 1, .args 2 true, .tpl 3] (.tagged (.new (.name 1) (some 2)) 3) ∧
    parse [.new, .name 1, .args 2 true, .tpl 3] = some (.ok (.new (.tagged (.name 1) 3) (some 2), [])) :=
  ⟨(group_iff _ _).2 (by simp [group, tail]), rfl⟩

/-- ``new C(x)`t` ``, ``new C().m`t` `` and ``new a.b`t` ``: the template is left over, so the expression is rejected. -/
theorem template_after_new_violated :
    (∃ t, Lhs [.new, .name 1, .args 2 false, .tpl 3] t) ∧
    parse [.new, .name 1, .args 2 false, .tpl 3] = some (.ok (.new (.name 1) (some 2), [.tpl 3])) ∧
    (∃ t, Lhs [.new, .name 1, .args 2 true, .dot 4, .tpl 3] t) ∧
    parse [.new, .name 1, .args 2 true, .dot 4, .tpl 3] = some (.ok (.dot (.new (.name 1) (some 2)) 4 false, [.tpl 3])) ∧
    (∃ t, Lhs [.new, .name 1, .dot 4, .tpl 3] t) ∧
    parse [.new, .name 1, .dot 4, .tpl 3] = some (.ok (.new (.dot (.name 1) 4 false) none, [.tpl 3])) :=
  ⟨lhs_some (by simp [group, tail, target]), rfl, lhs_some (by simp [group, tail, target]), rfl, lhs_some (by simp [group, tail, target]), rfl⟩

/-- `new new a()()`: the second arguments belong to the first `new`; the code makes a call of them. -/
theorem nested_new_violated :
    Lhs [.new, .new, .name 1, .args 2 true, .args 3 true] (.new (.new (.name 1) (some 2)) (some 3)) ∧
    parse [.new, .new, .name 1, .args 2 true, .args 3 true] =
      some (.ok (.new (.call (.new (.name 1) (some 2)) 3 false) none, [])) :=
  ⟨(group_iff _ _).2 (by simp [group, tail]), rfl⟩

/-- `new new a()?.b` is no expression, but accepted. -/
theorem new_optional_violated :
    (∀ t, ¬ Lhs [.new, .new, .name 1, .args 2 true, .opt, .name 3] t) ∧
    ∃ t, parse [.new, .new, .name 1, .args 2 true, .opt, .name 3] = some (.ok (t, [])) :=
  ⟨lhs_none (by simp [group, tail]), _, rfl⟩

/-- `a?.()()`: the second call is not optional, but flagged so. -/
theorem optional_call_violated :
    Lhs [.name 1, .opt, .args 2 true, .args 3 true] (.chain (.call (.call (.name 1) 2 true) 3 false)) ∧
    parse [.name 1, .opt, .args 2 true, .args 3 true] = some (.ok (.chain (.call (.call (.name 1) 2 true) 3 true), [])) :=
  ⟨(group_iff _ _).2 (by simp [group, tail]), rfl⟩

/-- ``a?.b()`t` `` is an early error, but accepted; only a template directly after a member access is rejected. -/
theorem template_in_chain_violated :
    (∀ t, ¬ Lhs [.name 1, .opt, .name 2, .args 3 true, .tpl 4] t) ∧
    (∃ t, parse [.name 1, .opt, .name 2, .args 3 true, .tpl 4] = some (.ok (t, []))) ∧
    parse [.name 1, .opt, .name 2, .tpl 4] = some (.error ()) :=
  ⟨lhs_none (by simp [group, tail]), ⟨_, rfl⟩, rfl⟩

/-- `new.target()` and `new.target[0]` are cut off after `new.target`. -/
theorem new_target_violated :
    (∃ t, Lhs [.new, .dot target, .args 2 true] t) ∧
    parse [.new, .dot target, .args 2 true] = some (.ok (.newTarget, [.args 2 true])) ∧
    (∃ t, Lhs [.new, .dot target, .sub 2] t) ∧
    parse [.new, .dot target, .sub 2] = some (.ok (.newTarget, [.sub 2])) :=
  ⟨lhs_some (by simp [group, tail, target]), rfl, lhs_some (by simp [group, tail, target]), rfl⟩

/-! ## `delete` -/

/-- What `unaryExpr` does with the operand of `delete`. -/
inductive Del where
  | ok | err | panic
  deriving DecidableEq, Repr

/-- parser.go:4314-4330: `pvt n`: the name after the dot is private.  The type assertion on what is in the chain panics. -/
def deleteOperand (pvt : Nat → Bool) : T → Del
  | .dot _ n _ => if pvt n then .err else .ok
  | .chain (.dot _ n _) => if pvt n then .err else .ok
  | .chain (.sub _ _ _) => .ok
  | .chain _ => .panic
  | _ => .ok

/-- The parser panics on `delete` exactly if the operand is an optional chain that does not end in a member access. -/
theorem delete_panic_iff (pvt : Nat → Bool) (t : T) :
    deleteOperand pvt t = .panic ↔ ∃ e, t = .chain e ∧ (∀ o n b, e ≠ .dot o n b) ∧ ∀ o n b, e ≠ .sub o n b := by
  fun_cases deleteOperand pvt t <;> simp_all
  all_goals exact ⟨_, _, fun _ => ⟨rfl, rfl⟩⟩

/-- Otherwise it rejects exactly the deletion of a private member. -/
theorem delete_err_iff (pvt : Nat → Bool) (t : T) :
    deleteOperand pvt t = .err ↔ ∃ o n b, pvt n = true ∧ (t = .dot o n b ∨ t = .chain (.dot o n b)) := by
  fun_cases deleteOperand pvt t <;> simp_all

/-- `delete a?.b()` is legal, but makes the parser panic. -/
theorem delete_chain_violated (pvt : Nat → Bool) : ∃ t,
    parse [.name 1, .opt, .name 2, .args 3 true] = some (.ok (t, [])) ∧ deleteOperand pvt t = .panic :=
  ⟨_, rfl, rfl⟩

example : deleteOperand (· == 7) (.chain (.dot (.name 1) 7 true)) = .err := rfl

end Mole.Parser.Postfix
