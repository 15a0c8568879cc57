import Verif.Parser.Symtab
import Verif.Parser.SymSpec
/-! Lemmas for C21 and C22. -/
namespace Mole.Parser.Sym
open Spec

/-- The binding kind of a declaration (parser.go:3164-3170, 2675, 5811). -/
def Spec.Decl.bind : Decl → Bind
  | .var => .var
  | .let => .let
  | .const => .const
  | .param => .param

/-- What the parser does at an event: `EnterScope`/`LeaveScope` and `addLocalBinding`, with the
duplicate check except for parameters (parser.go:2677, 3209). -/
def codeStep (t : Tab) : Ev → Except SErr Tab
  | .enter fn => match t.enter fn false true with
    | some t' => .ok t'
    | none => .error .panic
  | .leave => match t.leave with
    | some t' => .ok t'
    | none => .error .panic
  | .decl k x d => match addLocal t.chain { dec := d, bind := k.bind } x (k != .param) with
    | .ok c => .ok { t with chain := c }
    | .error e => .error e

def codeRun : Tab → List Ev → Except SErr Tab
  | t, [] => .ok t
  | t, e :: es => match codeStep t e with
    | .ok t' => codeRun t' es
    | .error x => .error x

def Bind.lexical (b : Bind) : Prop := b = .let ∨ b = .const
def Bind.vary (b : Bind) : Prop := b = .var ∨ b = .param

/-- One scope of the parser against one frame of the specification; with `P`, blocks record every
hoisted `var`. -/
structure FrameRel (P : Prop) (f : Scope) (s : Frame) : Prop where
  fn : f.isFn = s.fn
  notCatch : f.kind .catch_ = false
  typ : ∀ x r, f.refs x = some r → r.typ = {} ∧ r.scope.isSome = true ∧ (r.bind.lexical ∨ r.bind.vary)
  lexIn : ∀ x r, f.refs x = some r → r.bind.lexical → (x, r.dec) ∈ s.lex ∧ r.scope = some f.id
  varIn : ∀ x r, f.refs x = some r → r.bind.vary → (x, r.dec) ∈ s.vars
  lexOut : ∀ x, named x s.lex → ∃ r, f.refs x = some r ∧ r.bind.lexical
  varOut : ∀ x, named x s.vars → s.fn = true ∨ P → ∃ r, f.refs x = some r ∧ r.bind.vary
  disj : ∀ x, named x s.lex → ¬ named x s.vars
  root : f.id = 0 → s.fn = true

inductive Sim (P : Prop) : List Scope → List Frame → Prop
  | root {f s} : FrameRel P f s → s.fn = true → Sim P [f] [s]
  | cons {f s g t fs ss} : FrameRel P f s → (s.fn = false → ∀ p ∈ s.vars, p ∈ t.vars) →
      Sim P (g :: fs) (t :: ss) → Sim P (f :: g :: fs) (s :: t :: ss)

theorem not_lexical_vary {b : Bind} (h : b.lexical) : ¬ b.vary := by
  rcases h with rfl | rfl <;> simp [Bind.vary]

theorem FrameRel.none_iff {P f s} (h : FrameRel P f s) {x : Nat} (hn : f.refs x = none) :
    ¬ named x s.lex ∧ (s.fn = true ∨ P → ¬ named x s.vars) := by
  constructor
  · intro hl
    obtain ⟨r, hr, _⟩ := h.lexOut x hl
    rw [hn] at hr; cases hr
  · intro hp hv
    obtain ⟨r, hr, _⟩ := h.varOut x hv hp
    rw [hn] at hr; cases hr

theorem FrameRel.putVar {P f s} (h : FrameRel P f s) {x : Nat} (hx : ¬ named x s.lex) {r : Ref}
    (hb : r.bind.vary) (ht : r.typ = {}) (hs : r.scope.isSome = true) :
    FrameRel P { f with refs := put f.refs x r } { s with vars := (x, r.dec) :: s.vars } where
  fn := h.fn
  notCatch := h.notCatch
  typ y q hq := by
    simp only [put] at hq
    split at hq
    · cases hq; exact ⟨ht, hs, .inr hb⟩
    · exact h.typ y q hq
  lexIn y q hq hl := by
    simp only [put] at hq
    split at hq
    · cases hq; exact absurd hb (not_lexical_vary hl)
    · exact h.lexIn y q hq hl
  varIn y q hq hv := by
    simp only [put] at hq
    split at hq
    · rename_i hy; cases hq; subst hy; exact List.mem_cons_self ..
    · exact List.mem_cons_of_mem _ (h.varIn y q hq hv)
  lexOut y hy := by
    have hne : y ≠ x := fun he => hx (he ▸ hy)
    simp only [put, if_neg hne]
    exact h.lexOut y hy
  varOut y hy hp := by
    by_cases he : y = x
    · exact ⟨r, by simp [put, he], hb⟩
    · simp only [put, if_neg he]
      obtain ⟨d, hd⟩ := hy
      rcases List.mem_cons.1 hd with hd | hd
      · cases hd; exact absurd rfl he
      · exact h.varOut y ⟨d, hd⟩ hp
  disj y hy := by
    rintro ⟨d, hd⟩
    rcases List.mem_cons.1 hd with hd | hd
    · cases hd; exact hx hy
    · exact h.disj y hy ⟨d, hd⟩
  root := h.root

theorem FrameRel.through {f s} (h : FrameRel False f s) {x d : Nat} (hx : ¬ named x s.lex)
    (hfn : s.fn = false) : FrameRel False f { s with vars := (x, d) :: s.vars } where
  fn := h.fn
  notCatch := h.notCatch
  typ := h.typ
  lexIn := h.lexIn
  varIn y q hq hv := List.mem_cons_of_mem _ (h.varIn y q hq hv)
  lexOut := h.lexOut
  varOut y hy hp := by
    rcases hp with hp | hp
    · rw [hfn] at hp; cases hp
    · exact hp.elim
  disj y hy := by
    rintro ⟨d', hd⟩
    rcases List.mem_cons.1 hd with hd | hd
    · cases hd; exact hx hy
    · exact h.disj y hy ⟨d', hd⟩
  root := h.root

theorem FrameRel.putLex {P f s} (h : FrameRel P f s) {x : Nat} (hx : ¬ named x s.lex)
    (hx2 : ¬ named x s.vars) {r : Ref}
    (hb : r.bind.lexical) (ht : r.typ = {}) (hs : r.scope = some f.id) :
    FrameRel P { f with refs := put f.refs x r } { s with lex := (x, r.dec) :: s.lex } where
  fn := h.fn
  notCatch := h.notCatch
  typ y q hq := by
    simp only [put] at hq
    split at hq
    · cases hq; exact ⟨ht, by rw [hs]; rfl, .inl hb⟩
    · exact h.typ y q hq
  lexIn y q hq hl := by
    simp only [put] at hq
    split at hq
    · rename_i hy; cases hq; subst hy; exact ⟨List.mem_cons_self .., hs⟩
    · have := h.lexIn y q hq hl
      exact ⟨List.mem_cons_of_mem _ this.1, this.2⟩
  varIn y q hq hv := by
    simp only [put] at hq
    split at hq
    · cases hq; exact absurd hv (not_lexical_vary hb)
    · exact h.varIn y q hq hv
  lexOut y hy := by
    by_cases he : y = x
    · exact ⟨r, by simp [put, he], hb⟩
    · simp only [put, if_neg he]
      obtain ⟨d, hd⟩ := hy
      rcases List.mem_cons.1 hd with hd | hd
      · cases hd; exact absurd rfl he
      · exact h.lexOut y ⟨d, hd⟩
  varOut y hy hp := by
    have hne : y ≠ x := fun he => hx2 (he ▸ hy)
    simp only [put, if_neg hne]
    exact h.varOut y hy hp
  disj y hy := by
    obtain ⟨d, hd⟩ := hy
    rcases List.mem_cons.1 hd with hd | hd
    · cases hd; exact hx2
    · exact h.disj y ⟨d, hd⟩
  root := h.root

/-- Adding to the variables of the outer head keeps the closure condition. -/
theorem Sim.head {P c ss} (h : Sim P c ss) : ∃ f fs s rest, c = f :: fs ∧ ss = s :: rest ∧ FrameRel P f s := by
  cases h with
  | root h1 h2 => exact ⟨_, _, _, _, rfl, rfl, h1⟩
  | cons h1 h2 h3 => exact ⟨_, _, _, _, rfl, rfl, h1⟩

theorem hoist_head {x d : Nat} {s : Frame} {ss ss' : List Frame} (h : hoist x d (s :: ss) = some ss') :
    ¬ named x s.lex ∧ ∃ rest, ss' = { s with vars := (x, d) :: s.vars } :: rest ∧
      (s.fn = true → rest = ss) ∧ (s.fn = false → hoist x d ss = some rest) := by
  rw [hoist] at h
  split at h
  · cases h
  · rename_i hx
    refine ⟨hx, ?_⟩
    split at h
    · rename_i hf
      cases h
      exact ⟨_, rfl, fun _ => rfl, by simp [hf]⟩
    · rename_i hf
      split at h
      · cases h
      · rename_i r hr
        cases h
        exact ⟨_, rfl, by simp [hf], fun _ => hr⟩

theorem sim_putFn {P c ss ss'} (h : Sim P c ss) {x : Nat} {r : Ref} (hb : r.bind.vary) (ht : r.typ = {})
    (hs : r.scope.isSome = true) (hP : P → ∃ s rest, ss = s :: rest ∧ s.fn = true)
    (hh : hoist x r.dec ss = some ss') : Sim P (putFn x r c) ss' := by
  induction h generalizing ss' with
  | root h1 h2 =>
    obtain ⟨hx, rest, rfl, ha, _⟩ := hoist_head hh
    rw [putFn, if_pos (by rw [h1.fn, h2]), ha h2]
    exact .root (h1.putVar hx hb ht hs) h2
  | @cons f s g t fs ss h1 h2 h3 ih =>
    obtain ⟨hx, rest, rfl, ha, hb'⟩ := hoist_head hh
    by_cases hf : s.fn = true
    · rw [putFn, if_pos (by rw [h1.fn, hf]), ha hf]
      exact .cons (h1.putVar hx hb ht hs) (by simp [hf]) h3
    · have hf : s.fn = false := by simpa using hf
      have hnP : ¬ P := by
        intro hp
        obtain ⟨a, b, he, hfa⟩ := hP hp
        cases he
        rw [hf] at hfa; cases hfa
      rw [putFn, if_neg (by rw [h1.fn, hf]; simp)]
      have hrest := hb' hf
      obtain ⟨_, rest', rfl, _, _⟩ := hoist_head hrest
      have := ih (fun hp => absurd hp hnP) hrest
      have hPF : P = False := by simp [hnP]
      obtain ⟨g', fs', t', rest2, he, he2, _⟩ := this.head
      rw [he] at this ⊢
      refine .cons ?_ ?_ this
      · subst hPF
        exact h1.through hx hf
      · intro _ p hp
        rcases List.mem_cons.1 hp with rfl | hp
        · exact List.mem_cons_self ..
        · exact List.mem_cons_of_mem _ (h2 hf p hp)

theorem sim_upperFn {P c ss} (h : Sim P c ss) : ∃ f s, upperFn c = some f ∧ FrameRel P f s ∧ s.fn = true ∧
    s ∈ ss ∧ ∀ x d, named x s.lex → hoist x d ss = none := by
  induction h with
  | @root f s h1 h2 =>
    refine ⟨f, s, by rw [upperFn, if_pos (by rw [h1.fn, h2])], h1, h2, List.mem_cons_self .., ?_⟩
    intro x d hx
    rw [hoist, if_pos hx]
  | @cons f s g t fs ss h1 h2 h3 ih =>
    cases hf : s.fn with
    | true =>
      refine ⟨f, s, by rw [upperFn, if_pos (by rw [h1.fn, hf])], h1, hf, List.mem_cons_self .., ?_⟩
      intro x d hx
      rw [hoist, if_pos hx]
    | false =>
      obtain ⟨f', s', h4, h5, h6, h7, h8⟩ := ih
      refine ⟨f', s', by rw [upperFn, if_neg (by rw [h1.fn, hf]; simp), h4], h5, h6,
        List.mem_cons_of_mem _ h7, ?_⟩
      intro x d hx
      rw [hoist]
      split
      · rfl
      · rw [hf, h8 x d hx]
        simp

theorem fnClash_eq {P f s} (h : FrameRel P f s) (x : Nat) :
    fnClash true (f.refs x) = some (decide (named x s.lex)) := by
  unfold fnClash
  simp only [Bool.not_true, Bool.false_eq_true, if_false]
  cases hr : f.refs x with
  | none =>
    have := (h.none_iff hr).1
    simp [this]
  | some r =>
    obtain ⟨h1, h2, h3⟩ := h.typ x r hr
    rcases h3 with h3 | h3
    · have hl := (h.lexIn x r hr h3).1
      have hn : named x s.lex := ⟨_, hl⟩
      rcases h3 with h3 | h3 <;> simp [h3, h1, hn]
    · have hv := h.varIn x r hr h3
      have hn : ¬ named x s.lex := fun hl => h.disj x hl ⟨_, hv⟩
      obtain ⟨i, hi⟩ := Option.isSome_iff_exists.1 h2
      rcases h3 with h3 | h3 <;> simp [h3, h1, hn, hi]

theorem curClash_var {P f s} (h : FrameRel P f s) (x : Nat) (r0 : Ref) (hb : r0.bind = .var) :
    curClash r0 (f.refs x) = some (decide (named x s.lex ∧ f.id ≠ 0)) := by
  unfold curClash
  cases hr : f.refs x with
  | none =>
    have := (h.none_iff hr).1
    simp [this]
  | some r =>
    obtain ⟨h1, h2, h3⟩ := h.typ x r hr
    rcases h3 with h3 | h3
    · have hl := h.lexIn x r hr h3
      have hn : named x s.lex := ⟨_, hl.1⟩
      rcases h3 with h3 | h3 <;> simp [h3, h1, hn, hl.2, hb, bne, Bool.beq_eq_decide_eq]
    · have hv := h.varIn x r hr h3
      have hn : ¬ named x s.lex := fun hl => h.disj x hl ⟨_, hv⟩
      rcases h3 with h3 | h3 <;> simp [h3, hn, hb]

theorem curClash_other {P f s} (h : FrameRel P f s) (x : Nat) (r0 : Ref) (hb : r0.bind ≠ .var) :
    curClash r0 (f.refs x) = some (f.refs x).isSome := by
  unfold curClash
  cases hr : f.refs x with
  | none => rfl
  | some r =>
    obtain ⟨h1, h2, h3⟩ := h.typ x r hr
    rcases h3 with h3 | h3
    · have hl := h.lexIn x r hr h3
      rcases h3 with h3 | h3 <;> simp [h3, h1, hl.2, hb]
    · rcases h3 with h3 | h3 <;> simp [h3, hb]

theorem FrameRel.typ_getD {P f s} (h : FrameRel P f s) (x : Nat) :
    ((f.refs x).map Ref.typ).getD {} = {} := by
  cases hr : f.refs x with
  | none => rfl
  | some r => simp [(h.typ x r hr).1]

theorem checkRefDup_none : checkRefDup {} {} = false := by decide

end Mole.Parser.Sym
