import Verif.Parser.SymLemmas
/-!
# C21, C22: declarations and resolution
-/
namespace Mole.Parser.Sym
open Spec

theorem put_put {α : Type} (m : Nat → Option α) (x : Nat) (r : α) : put (put m x r) x r = put m x r := by
  funext y; simp only [put]; split <;> rfl

/-- A `var` where the specification allows it. -/
theorem sim_var {P c ss ss'} (h : Sim P c ss) {x : Nat} {r : Ref} (hb : r.bind = .var) (ht : r.typ = {})
    (hs : r.scope.isSome = true)
    (hP : P → ∃ s rest, ss = s :: rest ∧ (s.fn = true ∨ ∃ s2 r2, rest = s2 :: r2 ∧ s2.fn = true))
    (hh : hoist x r.dec ss = some ss') : Sim P (putCur x r (putFn x r c)) ss' := by
  have hv : r.bind.vary := .inl hb
  cases h with
  | root h1 h2 =>
    obtain ⟨hx, rest, rfl, ha, _⟩ := hoist_head hh
    rw [putFn, if_pos (by rw [h1.fn, h2]), ha h2, putCur, put_put]
    exact .root (h1.putVar hx hv ht hs) h2
  | @cons f s g t fs ss h1 h2 h3 =>
    obtain ⟨hx, rest, rfl, ha, hb'⟩ := hoist_head hh
    by_cases hf : s.fn = true
    · rw [putFn, if_pos (by rw [h1.fn, hf]), ha hf, putCur, put_put]
      exact .cons (h1.putVar hx hv ht hs) (by simp [hf]) h3
    · have hf : s.fn = false := by simpa using hf
      rw [putFn, if_neg (by rw [h1.fn, hf]; simp), putCur]
      have hrest := hb' hf
      have hsim : Sim P (putFn x r (g :: fs)) rest := by
        refine sim_putFn h3 hv ht hs ?_ hrest
        intro hp
        obtain ⟨a, b, he, hc⟩ := hP hp
        cases he
        rcases hc with hc | hc
        · rw [hf] at hc; cases hc
        · exact hc
      obtain ⟨_, rest', rfl, _, _⟩ := hoist_head hrest
      obtain ⟨g', fs', t', rest2, he, he2, _⟩ := hsim.head
      rw [he] at hsim ⊢
      refine .cons (h1.putVar hx hv ht hs) ?_ hsim
      intro _ p hp
      rcases List.mem_cons.1 hp with rfl | hp
      · exact List.mem_cons_self ..
      · exact List.mem_cons_of_mem _ (h2 hf p hp)

/-- Changing the first frame only. -/
theorem sim_top {P f fs s ss} (h : Sim P (f :: fs) (s :: ss)) {f' s'} (hr : FrameRel P f' s')
    (hf : s'.fn = s.fn) (hv : s.fn = true ∨ s'.vars = s.vars) : Sim P (f' :: fs) (s' :: ss) := by
  cases h with
  | root h1 h2 => exact .root hr (by rw [hf, h2])
  | cons h1 h2 h3 =>
    refine .cons hr ?_ h3
    intro hn
    rw [hf] at hn
    rcases hv with hv | hv
    · rw [hn] at hv; cases hv
    · rw [hv]; exact h2 hn

/-- The three outcomes of a `var`. -/
theorem addLocal_var {P f fs s ss} (h : Sim P (f :: fs) (s :: ss)) (x d : Nat) :
    ∃ g, g ∈ s :: ss ∧ g.fn = true ∧ (∀ d, named x g.lex → hoist x d (s :: ss) = none) ∧
    ((s.fn = true → g = s) ∧ (∀ s2 r2, s.fn = false → ss = s2 :: r2 → s2.fn = true → g = s2)) ∧
    addLocal (f :: fs) { dec := d, bind := .var } x true =
      if named x g.lex ∨ named x s.lex then .error .err
      else .ok (putCur x { dec := d, bind := .var, scope := some f.id }
        (putFn x { dec := d, bind := .var, scope := some f.id } (f :: fs))) := by
  have hrel : FrameRel P f s := by
    cases h with
    | root h1 h2 => exact h1
    | cons h1 h2 h3 => exact h1
  have key : ∃ u g, upperFn (f :: fs) = some u ∧ FrameRel P u g ∧ g.fn = true ∧ g ∈ s :: ss ∧
      (∀ x d, named x g.lex → hoist x d (s :: ss) = none) ∧
      ((s.fn = true → g = s) ∧ (∀ s2 r2, s.fn = false → ss = s2 :: r2 → s2.fn = true → g = s2)) := by
    by_cases hf : s.fn = true
    · refine ⟨f, s, by rw [upperFn, if_pos (by rw [hrel.fn, hf])], hrel, hf, List.mem_cons_self .., ?_,
        fun _ => rfl, by simp [hf]⟩
      intro x d hx; rw [hoist, if_pos hx]
    · have hf : s.fn = false := by simpa using hf
      cases h with
      | root h1 h2 => rw [hf] at h2; cases h2
      | @cons _ _ g' t fs ss h1 h2 h3 =>
        by_cases ht : t.fn = true
        · have hrel' : FrameRel P g' t := by
            cases h3 with
            | root h1 h2 => exact h1
            | cons h1 h2 h3 => exact h1
          refine ⟨g', t, ?_, hrel', ht, by simp, ?_, by simp [hf], ?_⟩
          · rw [upperFn, if_neg (by rw [hrel.fn, hf]; simp), upperFn, if_pos (by rw [hrel'.fn, ht])]
          · intro x d hx
            rw [hoist]; split
            · rfl
            · rw [hf, hoist, if_pos hx]
          · intro s2 r2 _ he _; cases he; rfl
        · obtain ⟨u, g, h4, h5, h6, h7, h8⟩ := sim_upperFn h3
          refine ⟨u, g, ?_, h5, h6, List.mem_cons_of_mem _ h7, ?_, by simp [hf], ?_⟩
          · rw [upperFn, if_neg (by rw [hrel.fn, hf]; simp), h4]
          · intro x d hx
            rw [hoist]; split
            · rfl
            · rw [hf, h8 x d hx]
          · intro s2 r2 _ he h2'; cases he; exact absurd h2' ht
  obtain ⟨u, g, hu, hug, hgf, hg, hno, hsh⟩ := key
  refine ⟨g, hg, hgf, hno x, hsh, ?_⟩
  unfold addLocal
  simp only [hrel.notCatch, Bool.false_and, Bool.false_eq_true, if_false, if_true, hu, fnClash_eq hug x]
  by_cases hgl : named x g.lex
  · rw [decide_eq_true hgl]
    simp only [hug.typ_getD x, checkRefDup_none]
    simp [hgl]
  · rw [decide_eq_false hgl]
    simp only [addCur, Bool.not_true, Bool.false_eq_true, if_false, if_true,
      curClash_var hrel x { dec := d, bind := .var } rfl]
    by_cases hsl : named x s.lex
    · have hid : f.id ≠ 0 := by
        intro h0
        have := hsh.1 (hrel.root h0)
        exact hgl (this ▸ hsl)
      rw [decide_eq_true (show named x s.lex ∧ f.id ≠ 0 from ⟨hsl, hid⟩)]
      simp only [hrel.typ_getD x, checkRefDup_none]
      simp [hsl]
    · rw [decide_eq_false (show ¬ (named x s.lex ∧ f.id ≠ 0) from fun h => hsl h.1)]
      simp [hgl, hsl]

theorem addLocal_lex {P f fs s ss} (h : Sim P (f :: fs) (s :: ss)) (b : Bind) (hb : b.lexical) (x d : Nat) :
    addLocal (f :: fs) { dec := d, bind := b } x true =
      if (f.refs x).isSome = true then .error .err
      else .ok (putCur x { dec := d, bind := b, scope := some f.id } (f :: fs)) := by
  have hrel : FrameRel P f s := by
    cases h with
    | root h1 h2 => exact h1
    | cons h1 h2 h3 => exact h1
  have hnv : b ≠ .var := by rcases hb with rfl | rfl <;> simp
  unfold addLocal
  simp only [hrel.notCatch, Bool.false_and, Bool.false_eq_true, if_false, if_neg hnv]
  unfold addCur
  simp only [if_neg hnv, Bool.not_true, Bool.false_eq_true, if_false, if_true,
    curClash_other hrel x { dec := d, bind := b } hnv]
  cases hr : f.refs x with
  | none => simp
  | some r => simp [(hrel.typ x r hr).1, checkRefDup_none]

theorem addLocal_param {P f fs s ss} (h : Sim P (f :: fs) (s :: ss)) (x d : Nat) :
    addLocal (f :: fs) { dec := d, bind := .param } x false =
      .ok (putCur x { dec := d, bind := .param, scope := some f.id } (f :: fs)) := by
  have hrel : FrameRel P f s := by
    cases h with
    | root h1 h2 => exact h1
    | cons h1 h2 h3 => exact h1
  simp [addLocal, addCur, hrel.notCatch]

theorem frame_empty (P : Prop) (f : Scope) (fn : Bool) (hr : ∀ x, f.refs x = none) (hf : f.isFn = fn)
    (hc : f.kind .catch_ = false) (h0 : f.id = 0 → fn = true) : FrameRel P f { fn } where
  fn := hf
  notCatch := hc
  typ x r h := by rw [hr] at h; cases h
  lexIn x r h := by rw [hr] at h; cases h
  varIn x r h := by rw [hr] at h; cases h
  lexOut := by rintro x ⟨d, hd⟩; cases hd
  varOut := by rintro x ⟨d, hd⟩; cases hd
  disj := by rintro x ⟨d, hd⟩; cases hd
  root := h0

/-- The top of the program. -/
theorem sim_new (P : Prop) : Sim P Tab.new.chain top :=
  .root (frame_empty P _ true (fun _ => rfl) rfl rfl (fun _ => rfl)) rfl

/-- One event the specification allows. -/
theorem step_sim {P t ss ss' e} (h : Sim P t.chain ss)
    (hP : P → ∀ x d, e = .decl .var x d →
      ∃ f g, ss = f :: g ∧ (f.fn = true ∨ ∃ h k, g = h :: k ∧ h.fn = true))
    (hs : step ss e = some ss') :
    ∃ t', codeStep t e = .ok t' ∧ Sim P t'.chain ss' := by
  obtain ⟨f, fs, s, rest, hc, rfl, hrel⟩ := h.head
  cases e with
  | enter fn =>
    cases hs
    simp only [codeStep, Tab.enter, hc]
    refine ⟨_, rfl, ?_⟩
    rw [hc] at h
    refine .cons ?_ (by intro _ p hp; cases hp) h
    exact frame_empty P _ fn (fun _ => rfl) (by cases fn <;> rfl) rfl (by intro h0; simp at h0)
  | leave =>
    rw [hc] at h
    cases h with
    | root h1 h2 => cases hs
    | cons h1 h2 h3 =>
      cases hs
      simp only [codeStep, Tab.leave, hc]
      exact ⟨_, rfl, h3⟩
  | decl k x d =>
    simp only [codeStep, hc]
    rw [hc] at h
    cases k with
    | var =>
      simp only [step, declare] at hs
      obtain ⟨g, hg, hgf, hno, hsh, heq⟩ := addLocal_var h x d
      simp only [Decl.bind, show (Decl.var != Decl.param) = true from rfl, heq]
      have h1 : ¬ (named x g.lex ∨ named x s.lex) := by
        rintro (h1 | h1)
        · rw [hno d h1] at hs; cases hs
        · rw [hoist, if_pos h1] at hs; cases hs
      rw [if_neg h1]
      exact ⟨_, rfl, sim_var h rfl rfl rfl (fun hp => hP hp x d rfl) hs⟩
    | param =>
      simp only [step, declare] at hs
      split at hs
      · rename_i hcond
        cases hs
        simp only [Decl.bind, show (Decl.param != Decl.param) = false from rfl, addLocal_param h]
        exact ⟨_, rfl, sim_top h (hrel.putVar (r := { dec := d, bind := .param, scope := some f.id })
          hcond.2 (.inr rfl) rfl rfl) rfl (.inl hcond.1)⟩
      · cases hs
    | _ =>
      simp only [step, declare] at hs
      split at hs
      · cases hs
      · rename_i hcond
        cases hs
        have hno : (f.refs x).isSome = false := by
          cases hr : f.refs x with
          | none => rfl
          | some r =>
            exfalso
            rcases (hrel.typ x r hr).2.2 with hl | hv
            · exact hcond (.inl ⟨_, (hrel.lexIn x r hr hl).1⟩)
            · exact hcond (.inr ⟨_, hrel.varIn x r hr hv⟩)
        simp only [Decl.bind, show (Decl.let != Decl.param) = true from rfl,
          show (Decl.const != Decl.param) = true from rfl]
        first
        | rw [addLocal_lex h .let (.inl rfl) x d, hno]
          exact ⟨_, rfl, sim_top h (hrel.putLex (r := { dec := d, bind := .let, scope := some f.id })
            (fun hl => hcond (.inl hl)) (fun hl => hcond (.inr hl)) (.inl rfl) rfl rfl) rfl (.inr rfl)⟩
        | rw [addLocal_lex h .const (.inr rfl) x d, hno]
          exact ⟨_, rfl, sim_top h (hrel.putLex (r := { dec := d, bind := .const, scope := some f.id })
            (fun hl => hcond (.inl hl)) (fun hl => hcond (.inr hl)) (.inr rfl) rfl rfl) rfl (.inr rfl)⟩

/-- One event the specification forbids, where every `var` is shallow. -/
theorem step_none {t ss e} (h : Sim True t.chain ss)
    (hv : ∀ x d, e = .decl .var x d →
      ∃ f g, ss = f :: g ∧ (f.fn = true ∨ ∃ h k, g = h :: k ∧ h.fn = true))
    (hp : ∀ x d, e = .decl .param x d → ∃ f g, ss = f :: g ∧ f.fn = true ∧ f.lex = [])
    (hs : step ss e = none) : ∀ t', codeStep t e ≠ .ok t' := by
  intro t'
  obtain ⟨f, fs, s, rest, hc, rfl, hrel⟩ := h.head
  cases e with
  | enter fn => cases hs
  | leave =>
    rw [hc] at h
    cases h with
    | root h1 h2 => simp [codeStep, Tab.leave, hc]
    | cons h1 h2 h3 => cases hs
  | decl k x d =>
    simp only [codeStep, hc]
    rw [hc] at h
    cases k with
    | var =>
      simp only [step, declare] at hs
      obtain ⟨g, hg, hgf, hno, hsh, heq⟩ := addLocal_var h x d
      simp only [Decl.bind, show (Decl.var != Decl.param) = true from rfl, heq]
      have h1 : named x g.lex ∨ named x s.lex := by
        obtain ⟨a, b, he, hcase⟩ := hv x d rfl
        cases he
        by_cases hsl : named x s.lex
        · exact .inr hsl
        rw [hoist, if_neg hsl] at hs
        by_cases hf : s.fn = true
        · rw [if_pos hf] at hs; cases hs
        · have hf' : s.fn = false := by simpa using hf
          rw [if_neg hf] at hs
          rcases hcase with hcase | ⟨h2, k2, rfl, h3⟩
          · exact absurd hcase hf
          · have hg2 := hsh.2 h2 k2 hf' rfl h3
            subst hg2
            left
            by_cases hgl : named x g.lex
            · exact hgl
            · rw [hoist, if_neg hgl, if_pos h3] at hs; cases hs
      rw [if_pos h1]
      simp
    | param =>
      obtain ⟨a, b, he, hf, hl⟩ := hp x d rfl
      cases he
      simp only [step, declare] at hs
      rw [if_pos ⟨hf, by rw [hl]; rintro ⟨d, hd⟩; cases hd⟩] at hs
      cases hs
    | _ =>
      simp only [step, declare] at hs
      split at hs
      · rename_i hcond
        have hno : (f.refs x).isSome = true := by
          rcases hcond with hl | hv
          · obtain ⟨r, hr, _⟩ := hrel.lexOut x hl
            rw [hr]; rfl
          · obtain ⟨r, hr, _⟩ := hrel.varOut x hv (.inr trivial)
            rw [hr]; rfl
        simp only [Decl.bind, show (Decl.let != Decl.param) = true from rfl,
          show (Decl.const != Decl.param) = true from rfl]
        first
        | rw [addLocal_lex h .let (.inl rfl) x d, hno]; simp
        | rw [addLocal_lex h .const (.inr rfl) x d, hno]; simp
      · cases hs

/-! ## Resolution -/

theorem resolve_hoisted {P c ss} (h : Sim P c ss) {x d : Nat} :
    ∀ s rest, ss = s :: rest → (x, d) ∈ s.vars → ∃ ds, resolve x ss = some ds ∧ d ∈ ds := by
  induction h with
  | @root f s h1 h2 =>
    intro s' rest he hd
    cases he
    rw [resolve, if_neg (fun hl => h1.disj x hl ⟨d, hd⟩), if_pos ⟨h2, d, hd⟩]
    exact ⟨_, rfl, by simp only [decs, List.mem_map, List.mem_filter]; exact ⟨(x, d), ⟨hd, by simp⟩, rfl⟩⟩
  | @cons f s g t fs ss h1 h2 h3 ih =>
    intro s' rest he hd
    cases he
    rw [resolve, if_neg (fun hl => h1.disj x hl ⟨d, hd⟩)]
    by_cases hf : s.fn = true
    · rw [if_pos ⟨hf, d, hd⟩]
      exact ⟨_, rfl, by simp only [decs, List.mem_map, List.mem_filter]; exact ⟨(x, d), ⟨hd, by simp⟩, rfl⟩⟩
    · rw [if_neg (fun h => hf h.1)]
      exact ih t ss rfl (h2 (by simpa using hf) _ hd)

theorem resolve_sim {P c ss} (h : Sim P c ss) (x : Nat) :
    (bindingOf x c = none ∧ resolve x ss = none) ∨
    ∃ r ds, bindingOf x c = some r ∧ resolve x ss = some ds ∧ r.dec ∈ ds := by
  have lexical : ∀ (f : Scope) (s : Frame) (rest : List Frame) (r : Ref), FrameRel P f s →
      f.refs x = some r → r.bind.lexical → ∃ ds, resolve x (s :: rest) = some ds ∧ r.dec ∈ ds := by
    intro f s rest r h1 hr hl
    have := (h1.lexIn x r hr hl).1
    rw [resolve, if_pos ⟨_, this⟩]
    exact ⟨_, rfl, by
      simp only [decs, List.mem_map, List.mem_filter]; exact ⟨(x, r.dec), ⟨this, by simp⟩, rfl⟩⟩
  induction h with
  | @root f s h1 h2 =>
    cases hr : f.refs x with
    | none =>
      left
      have := h1.none_iff hr
      simp [bindingOf, hr, resolve, this.1, this.2 (.inl h2)]
    | some r =>
      right
      rcases (h1.typ x r hr).2.2 with hl | hv
      · obtain ⟨ds, h3, h4⟩ := lexical f s [] r h1 hr hl
        exact ⟨r, ds, by simp [bindingOf, hr], h3, h4⟩
      · obtain ⟨ds, h3, h4⟩ := resolve_hoisted (.root h1 h2) s [] rfl (h1.varIn x r hr hv)
        exact ⟨r, ds, by simp [bindingOf, hr], h3, h4⟩
  | @cons f s g t fs ss h1 h2 h3 ih =>
    cases hr : f.refs x with
    | none =>
      have hn := h1.none_iff hr
      have hb : bindingOf x (f :: g :: fs) = bindingOf x (g :: fs) := by rw [bindingOf, hr]
      have hres : resolve x (s :: t :: ss) = resolve x (t :: ss) := by
        rw [resolve, if_neg hn.1, if_neg]
        intro h
        exact hn.2 (.inl h.1) h.2
      rw [hb, hres]
      exact ih
    | some r =>
      right
      rcases (h1.typ x r hr).2.2 with hl | hv
      · obtain ⟨ds, h4, h5⟩ := lexical f s (t :: ss) r h1 hr hl
        exact ⟨r, ds, by simp [bindingOf, hr], h4, h5⟩
      · obtain ⟨ds, h4, h5⟩ := resolve_hoisted (.cons h1 h2 h3) s _ rfl (h1.varIn x r hr hv)
        exact ⟨r, ds, by simp [bindingOf, hr], h4, h5⟩

/-! ## C21 -/

theorem run_sim {t ss ss' es} (h : Sim False t.chain ss) (hr : run ss es = some ss') :
    ∃ t', codeRun t es = .ok t' ∧ Sim False t'.chain ss' := by
  induction es generalizing t ss with
  | nil => cases hr; exact ⟨t, rfl, h⟩
  | cons e es ih =>
    rw [run] at hr
    split at hr
    · cases hr
    · rename_i s1 hs
      obtain ⟨t1, h1, h2⟩ := step_sim h (fun hp => hp.elim) hs
      obtain ⟨t', h3, h4⟩ := ih h2 hr
      exact ⟨t', by rw [codeRun, h1]; exact h3, h4⟩

/-- **C21, no false errors.** A program whose `var`, `let`, `const` and parameter declarations the
language allows is accepted, whatever the nesting of functions and blocks. -/
theorem declarations_accepted (es : List Ev) (fs : List Frame) (h : run top es = some fs) :
    ∃ t, codeRun Tab.new es = .ok t := by
  obtain ⟨t, h1, _⟩ := run_sim (sim_new False) h
  exact ⟨t, h1⟩

theorem run_iff {t ss es} (h : Sim True t.chain ss) (hp : Proper ss es) :
    (∃ t', codeRun t es = .ok t') ↔ ∃ ss', run ss es = some ss' := by
  induction es generalizing t ss with
  | nil => simp [codeRun, run]
  | cons e es ih =>
    obtain ⟨hv, hpar, hnext⟩ := hp
    rw [codeRun, run]
    cases hs : step ss e with
    | none =>
      have := step_none h hv hpar hs
      cases hc : codeStep t e with
      | ok t1 => exact absurd hc (this t1)
      | error x => simp
    | some s1 =>
      obtain ⟨t1, h1, h2⟩ := step_sim h (fun _ => hv) hs
      rw [h1]
      exact ih h2 (hnext s1 hs)

/-- **C21** (partial: for declarations by `var`, `let`, `const` and parameters, with every `var` in its
function or in a block directly in it; deeper ones are not compared with the blocks between, see
`deep_var_violated`).  A program is accepted exactly when no declaration is forbidden: when no `var`
meets a lexical declaration in its block or its function, and no lexical declaration another
declaration in its block. -/
theorem declarations_iff_partial (es : List Ev) (hp : Proper top es) :
    (∃ t, codeRun Tab.new es = .ok t) ↔ ∃ fs, run top es = some fs :=
  run_iff (sim_new True) hp

/-! ## C22 -/

/-- **C22.** After a program without forbidden declarations, at every point and for every name:
`BindingOf` finds nothing exactly when no enclosing function or block declares the name, and
otherwise a declaration of the variable the name denotes, the innermost one. -/
theorem binding_resolves (es : List Ev) (fs : List Frame) (h : run top es = some fs) :
    ∃ t, codeRun Tab.new es = .ok t ∧ ∀ x,
      (bindingOf x t.chain = none ↔ resolve x fs = none) ∧
      ∀ r, bindingOf x t.chain = some r → ∃ ds, resolve x fs = some ds ∧ r.dec ∈ ds := by
  obtain ⟨t, h1, h2⟩ := run_sim (sim_new False) h
  refine ⟨t, h1, fun x => ?_⟩
  rcases resolve_sim h2 x with ⟨h3, h4⟩ | ⟨r, ds, h3, h4, h5⟩
  · exact ⟨by simp [h3, h4], by rw [h3]; nofun⟩
  · refine ⟨by simp [h3, h4], ?_⟩
    intro r' hr'
    rw [h3] at hr'
    cases hr'
    exact ⟨ds, h4, h5⟩

/-- **C22**, for any chain of scopes: the binding found is that of the nearest scope that has one. -/
theorem binding_nearest (x : Nat) (c : List Scope) (r : Ref) :
    bindingOf x c = some r ↔
      ∃ inner s outer, c = inner ++ s :: outer ∧ s.refs x = some r ∧ ∀ i ∈ inner, i.refs x = none := by
  induction c with
  | nil => simp [bindingOf]
  | cons f fs ih =>
    rw [bindingOf]
    cases hr : f.refs x with
    | some q =>
      constructor
      · rintro ⟨⟩
        exact ⟨[], f, fs, rfl, hr, by simp⟩
      · rintro ⟨inner, s, outer, he, hs, hi⟩
        cases inner with
        | nil => cases he; rw [hr] at hs; exact hs
        | cons i is =>
          cases he
          have := hi f (List.mem_cons_self ..)
          rw [hr] at this; cases this
    | none =>
      rw [ih]
      constructor
      · rintro ⟨inner, s, outer, rfl, hs, hi⟩
        refine ⟨f :: inner, s, outer, rfl, hs, ?_⟩
        intro i hmem
        rcases List.mem_cons.1 hmem with rfl | hmem
        · exact hr
        · exact hi i hmem
      · rintro ⟨inner, s, outer, he, hs, hi⟩
        cases inner with
        | nil => cases he; rw [hr] at hs; cases hs
        | cons i is =>
          cases he
          exact ⟨is, s, outer, rfl, hs, fun j hj => hi j (List.mem_cons_of_mem _ hj)⟩

/-- `function f(p) { let a; { var b; let a; } }` up to the inner `}`, where `a` is the inner one. -/
def sample : List Ev :=
  [.enter true, .decl .param 9 0, .decl .let 1 1, .enter false, .decl .var 2 2, .decl .let 1 3]

example : ∃ fs, run top sample = some fs ∧ resolve 1 fs = some [3] ∧ resolve 2 fs = some [2] ∧
    resolve 9 fs = some [0] ∧ resolve 5 fs = none := ⟨_, rfl, rfl, rfl, rfl, rfl⟩

example : Proper top sample := by
  simp [Proper, sample, top, step, declare, named, hoist]
  exact ⟨_, _, ⟨rfl, rfl⟩, .inr ⟨_, ⟨_, rfl⟩, rfl⟩⟩

/-- Both sides can be false: `let a; { var a }`. -/
example : Proper top [.decl .let 1 0, .enter false, .decl .var 1 1] ∧
    run top [.decl .let 1 0, .enter false, .decl .var 1 1] = none := by
  constructor
  · simp [Proper, top, step, declare, named, hoist]
    exact ⟨_, _, ⟨rfl, rfl⟩, .inr ⟨_, ⟨_, rfl⟩, rfl⟩⟩
  · rfl

/-! ## Where C21 fails -/

/-- **C21 is violated**: `{ let a; { var a } }` is accepted, the `var` passing through the block that
declares the name, and so is `{ { var a } let a }`. -/
theorem deep_var_violated :
    ((∃ t, codeRun Tab.new [.enter false, .decl .let 1 0, .enter false, .decl .var 1 1] = .ok t) ∧
      run top [.enter false, .decl .let 1 0, .enter false, .decl .var 1 1] = none) ∧
    ((∃ t, codeRun Tab.new [.enter false, .enter false, .decl .var 1 0, .leave, .decl .let 1 1] = .ok t) ∧
      run top [.enter false, .enter false, .decl .var 1 0, .leave, .decl .let 1 1] = none) :=
  ⟨⟨⟨_, rfl⟩, rfl⟩, ⟨_, rfl⟩, rfl⟩

/-- A class declaration or named class expression (parser.go:1108-1116). -/
def classRef (d : Nat) : Ref := { dec := d, bind := .const, typ := { cls := true, typ := true } }

/-- A function declaration in sloppy code, without and in strict code, with duplicate check
(parser.go:2563-2577). -/
def fnRef (strict : Bool) (d : Nat) : Ref :=
  { dec := d, bind := if strict then .let else .var, typ := { fn := true } }

/-- Declarations one after the other at the top of a chain. -/
def declareAll : List (Ref × Bool) → Nat → List Scope → Except SErr (List Scope)
  | [], _, c => .ok c
  | (r, dup) :: rs, x, c => match addLocal c r x dup with
    | .ok c' => declareAll rs x c'
    | .error e => .error e

/-- The body of a function (or block, or catch clause) at the top level. -/
def inside (f : Flag) : List Scope :=
  { addr := 1, id := 1, kind := fun g => g == f, refs := fun _ => none, labels := fun _ => none } ::
    Tab.new.chain

/-- **C21 is violated**: `class A {} let A;` and `let A; class A {}` are accepted, in any scope. -/
theorem class_redeclared_violated :
    (∃ c, declareAll [(classRef 0, true), ({ dec := 1, bind := .let }, true)] 7 (inside .block) = .ok c) ∧
    (∃ c, declareAll [({ dec := 0, bind := .let }, true), (classRef 1, true)] 7 (inside .block) = .ok c) :=
  ⟨⟨_, rfl⟩, _, rfl⟩

/-- **C21 is violated**: `x = class A {}; y = class A {};`, two class expressions of one name, are
rejected, for their names are declared in the surrounding scope. -/
theorem class_expr_violated :
    declareAll [(classRef 0, true), (classRef 1, true)] 7 Tab.new.chain = .error .err := rfl

/-- **C21 is violated**: `function f() {} var f;` at the top level of a sloppy script is rejected. -/
theorem top_fn_var_violated :
    declareAll [(fnRef false 0, false), ({ dec := 1, bind := .var }, true)] 7 Tab.new.chain =
      .error .err := rfl

/-- **C21 is violated**: in a strict function, `var f; function f() {}` and `function f() {} function
f() {}` are rejected. -/
theorem strict_fn_violated :
    declareAll [({ dec := 0, bind := .var }, true), (fnRef true 1, true)] 7 (inside .func) = .error .err ∧
    declareAll [(fnRef true 0, true), (fnRef true 1, true)] 7 (inside .func) = .error .err := ⟨rfl, rfl⟩

/-- **C21 is violated**: in a sloppy block, `let f; function f() {}` is accepted; in a strict one,
`function f() {} var f;` is. -/
theorem block_fn_violated :
    (∃ c, declareAll [({ dec := 0, bind := .let }, true), (fnRef false 1, false)] 7 (inside .block) = .ok c) ∧
    (∃ c, declareAll [(fnRef true 0, true), ({ dec := 1, bind := .var }, true)] 7 (inside .block) = .ok c) :=
  ⟨⟨_, rfl⟩, _, rfl⟩

/-- **C21 is violated**: in a catch clause, `var x; var x;` is rejected. -/
theorem catch_var_violated :
    declareAll [({ dec := 0, bind := .var }, true), ({ dec := 1, bind := .var }, true)] 7 (inside .catch_) =
      .error .err := rfl

/-- **C57 is violated**: `{ class A {} var A; } var A;` makes the parser dereference nil: the first `var` is
stored without a scope. -/
theorem class_var_panics_violated :
    ∃ c, declareAll [(classRef 0, true), ({ dec := 1, bind := .var }, true)] 7 (inside .block) = .ok c ∧
      addLocal (c.drop 1) { dec := 2, bind := .var } 7 true = .error .panic := ⟨_, rfl, rfl⟩

end Mole.Parser.Sym
