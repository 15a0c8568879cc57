import Verif.Parser.DecoSpec
/-!
# Decorators (C89)

*Decorators belong to the class declaration, field or method they are written right before; anywhere else they are an error; and they
never stop the parser.*
-/
namespace Mole.Parser.Deco

/-! ## Helper lemmas -/

theorem then_ok {x : Out} {f : Option Nat → Out} {h : Option Nat} {l : Log} (e : x.then f = .ok h l) :
    ∃ h1 l1 l2, x = .ok h1 l1 ∧ f h1 = .ok h l2 ∧ l = l1 ++ l2 := by
  cases x with
  | ok h1 l1 =>
    simp only [Out.then] at e
    split at e
    · rename_i h2 l2 hf
      cases e
      exact ⟨h1, l1, l2, rfl, hf, rfl⟩
    · rename_i hn
      exact absurd e (hn _ _)
  | _ => cases e

theorem then_panic {x : Out} {f : Option Nat → Out} (e : x.then f = .panic) : x = .panic ∨ ∃ h1 l1, x = .ok h1 l1 ∧ f h1 = .panic := by
  cases x with
  | ok h1 l1 =>
    right
    refine ⟨h1, l1, rfl, ?_⟩
    simp only [Out.then] at e
    split at e
    · cases e
    · exact e
  | err => cases e
  | panic => exact .inl rfl

/-- An accepted result with nothing waiting, or an error. -/
def same (x : Out) (w : Option Log) : Prop :=
  match w with
  | some l => x = .ok none l
  | none => x = .err

theorem quiet_run (ts : Bool) (h : Option Nat) (t : T) : quiet t = true → run ts h t = .ok h [] := by
  induction t generalizing h with
  | nil => intro _; rfl
  | blk a b ha hb =>
    intro hq
    rw [quiet, Bool.and_eq_true] at hq
    simp [run, ha h hq.1, Out.then, hb h hq.2]
  | _ => intro hq; cases hq

theorem quiet_want (t : T) : quiet t = true → want none t = some [] := by
  induction t with
  | nil => intro _; rfl
  | blk a b ha hb =>
    intro hq
    rw [quiet, Bool.and_eq_true] at hq
    simp [want, ha hq.1, hb hq.2]
  | _ => intro hq; cases hq

theorem regular_same (ts : Bool) (t : T) : ∀ p : Option Nat, Regular ts p.isSome t = true → same (run ts p t) (want p t) := by
  induction t with
  | nil => intro p h; cases p with
    | none => rfl
    | some d => cases h
  | deco d next hn =>
    intro p h
    simp only [Regular, Bool.and_eq_true] at h
    cases p with
    | none => simpa [run, want] using hn (some d) h.2
    | some e => cases h.1
  | clsDec id a b ha hb =>
    intro p h
    simp only [Regular, Bool.and_eq_true] at h
    have h1 := ha none h.1
    have h2 := hb none h.2
    simp only [run, want]
    cases hwa : want none a with
    | none => rw [hwa] at h1; cases p <;> simp_all [same, attach, Out.then]
    | some la =>
      rw [hwa] at h1
      cases hwb : want none b <;> rw [hwb] at h2 <;> cases p <;> simp_all [same, attach, checkHang, Out.then]
  | stmt a b ha hb =>
    intro p h
    simp only [Regular, Bool.and_eq_true] at h
    have h1 := ha none h.1.2
    have h2 := hb none h.2
    cases p with
    | some d =>
      have hq : quiet a = true := by simpa using h.1.1
      simp [run, want, quiet_run ts (some d) a hq, Out.then, checkHang, same]
    | none =>
      simp only [run, want, if_true]
      cases hwa : want none a with
      | none => rw [hwa] at h1; simp_all [same, Out.then]
      | some la =>
        rw [hwa] at h1
        cases hwb : want none b <;> rw [hwb] at h2 <;> simp_all [same, checkHang, Out.then]
  | mem k id a b ha hb =>
    intro p h
    simp only [Regular, Bool.and_eq_true] at h
    have h1 := ha none h.1.2
    have h2 := hb none h.2
    cases p with
    | some d =>
      have hq : quiet a = true ∧ k ≠ .static ∧ (ts = true ∨ k ≠ .field) := by simpa [and_assoc] using h.1.1
      obtain ⟨hq, hk, hf⟩ := hq
      have hat : attachMem ts k id (some d) = .ok none [(id, d)] := by
        cases k <;> cases ts <;> simp_all [attachMem, attach]
      rw [quiet_want a hq] at *
      simp only [run, want, quiet_run ts (some d) a hq, quiet_want a hq, Out.then, hat]
      cases hwb : want none b <;> rw [hwb] at h2 <;> simp_all [same]
    | none =>
      simp only [run, want, true_or, if_true]
      cases hwa : want none a with
      | none => rw [hwa] at h1; simp_all [same, Out.then]
      | some la =>
        rw [hwa] at h1
        cases hwb : want none b <;> rw [hwb] at h2 <;> simp_all [same, attachMem, Out.then]
  | semi next hn =>
    intro p h
    simp only [Regular, Bool.and_eq_true] at h
    cases p with
    | none => simpa [run, want] using hn none h.2
    | some e => cases h.1
  | cls id a b ha hb =>
    intro p h
    simp only [Regular, Bool.and_eq_true] at h
    have h1 := ha none h.1.2
    have h2 := hb none h.2
    cases p with
    | some d => cases h.1.1
    | none =>
      simp only [run, want, if_true]
      cases hwa : want none a with
      | none => rw [hwa] at h1; simp_all [same, attach, Out.then]
      | some la =>
        rw [hwa] at h1
        cases hwb : want none b <;> rw [hwb] at h2 <;> simp_all [same, attach, Out.then]
  | blk a b ha hb =>
    intro p h
    simp only [Regular, Bool.and_eq_true] at h
    have h1 := ha none h.1.2
    have h2 := hb none h.2
    cases p with
    | some d => cases h.1.1
    | none =>
      simp only [run, want, if_true]
      cases hwa : want none a with
      | none => rw [hwa] at h1; simp_all [same, Out.then]
      | some la =>
        rw [hwa] at h1
        cases hwb : want none b <;> rw [hwb] at h2 <;> simp_all [same, Out.then]

theorem attach_ok {id : Nat} {h h' : Option Nat} {l : Log} (e : attach id h = .ok h' l) :
    h' = none ∧ l.map (·.2) = h.toList ∧ (l.map (·.1)).Sublist [id] ∧ ∀ d, h = some d → (id, d) ∈ l := by
  cases h <;> simp only [attach, Out.ok.injEq] at e <;> obtain ⟨rfl, rfl⟩ := e <;> simp

theorem attachMem_ok {ts : Bool} {k : Kind} {id : Nat} {h h' : Option Nat} {l : Log} (e : attachMem ts k id h = .ok h' l) :
    h' = none ∧ l.map (·.2) = h.toList ∧ (l.map (·.1)).Sublist [id] := by
  cases h <;> cases k <;> cases ts <;> simp [attachMem, attach] at e <;> obtain ⟨rfl, rfl⟩ := e <;> simp

theorem checkHang_ok {h h' : Option Nat} {l : Log} (e : checkHang h = .ok h' l) : h = none ∧ h' = none ∧ l = [] := by
  cases h <;> simp [checkHang] at e
  obtain ⟨rfl, rfl⟩ := e
  simp

theorem run_sub (ts : Bool) (t : T) : ∀ (h h' : Option Nat) (l : Log), run ts h t = .ok h' l →
    (l.map (·.2) ++ h'.toList).Sublist (h.toList ++ decos t) ∧ (l.map (·.1)).Sublist (owners t) := by
  induction t with
  | nil => intro h h' l e; simp only [run, Out.ok.injEq] at e; obtain ⟨rfl, rfl⟩ := e; simp [decos, owners]
  | deco d next hn =>
    intro h h' l e
    have := hn _ _ _ e
    refine ⟨?_, this.2⟩
    simpa [decos] using this.1.trans (List.sublist_append_right _ _)
  | semi next hn => intro h h' l e; exact hn _ _ _ e
  | clsDec id a b ha hb =>
    intro h h' l e
    obtain ⟨h1, l1, l2, e1, r1, rfl⟩ := then_ok e
    obtain ⟨h3, l3, l4, e3, r2, rfl⟩ := then_ok r1
    obtain ⟨h5, l5, l6, e5, r3, rfl⟩ := then_ok r2
    obtain ⟨rfl, hl1, ho1, -⟩ := attach_ok e1
    obtain ⟨rfl, rfl, rfl⟩ := checkHang_ok e5
    have h3' := ha _ _ _ e3
    have h6' := hb _ _ _ r3
    simp only [Option.toList_none, List.append_nil, List.nil_append] at h3' h6'
    constructor
    · simpa [decos, hl1] using List.Sublist.append (List.Sublist.refl h.toList) (h3'.1.append h6'.1)
    · simpa [owners] using ho1.append (h3'.2.append h6'.2)
  | cls id a b ha hb =>
    intro h h' l e
    obtain ⟨h1, l1, l2, e1, r1, rfl⟩ := then_ok e
    obtain ⟨h3, l3, l4, e3, r2, rfl⟩ := then_ok r1
    obtain ⟨rfl, hl1, ho1, -⟩ := attach_ok e1
    have h3' := ha _ _ _ e3
    have h6' := hb _ _ _ r2
    constructor
    · have s1 : (l3.map (·.2) ++ (l4.map (·.2) ++ h'.toList)).Sublist (l3.map (·.2) ++ (h3.toList ++ decos b)) :=
        (List.Sublist.refl _).append h6'.1
      have s2 : (l3.map (·.2) ++ (h3.toList ++ decos b)).Sublist (decos a ++ decos b) := by
        rw [← List.append_assoc]
        exact List.Sublist.append (by simpa using h3'.1) (List.Sublist.refl _)
      simpa [decos, hl1] using List.Sublist.append (List.Sublist.refl h.toList) (s1.trans s2)
    · simpa [owners] using ho1.append (h3'.2.append h6'.2)
  | stmt a b ha hb =>
    intro h h' l e
    obtain ⟨h3, l3, l4, e3, r1, rfl⟩ := then_ok e
    obtain ⟨h5, l5, l6, e5, r2, rfl⟩ := then_ok r1
    obtain ⟨rfl, rfl, rfl⟩ := checkHang_ok e5
    have h3' := ha _ _ _ e3
    have h6' := hb _ _ _ r2
    simp only [Option.toList_none, List.append_nil, List.nil_append] at h3' h6'
    constructor
    · simpa [decos] using h3'.1.append h6'.1
    · simpa [owners] using h3'.2.append h6'.2
  | blk a b ha hb =>
    intro h h' l e
    obtain ⟨h3, l3, l4, e3, r1, rfl⟩ := then_ok e
    have h3' := ha _ _ _ e3
    have h6' := hb _ _ _ r1
    constructor
    · have s1 : (l3.map (·.2) ++ (l4.map (·.2) ++ h'.toList)).Sublist (l3.map (·.2) ++ (h3.toList ++ decos b)) :=
        (List.Sublist.refl _).append h6'.1
      have s2 : (l3.map (·.2) ++ (h3.toList ++ decos b)).Sublist ((h.toList ++ decos a) ++ decos b) := by
        rw [← List.append_assoc]
        exact List.Sublist.append h3'.1 (List.Sublist.refl _)
      simpa [decos] using s1.trans s2
    · simpa [owners] using h3'.2.append h6'.2
  | mem k id a b ha hb =>
    intro h h' l e
    obtain ⟨h3, l3, l4, e3, r1, rfl⟩ := then_ok e
    obtain ⟨h5, l5, l6, e5, r2, rfl⟩ := then_ok r1
    obtain ⟨rfl, hl5, ho5⟩ := attachMem_ok e5
    have h3' := ha _ _ _ e3
    have h6' := hb _ _ _ r2
    simp only [Option.toList_none, List.nil_append] at h6'
    constructor
    · simpa [decos, hl5] using h3'.1.append h6'.1
    · simpa [owners] using h3'.2.append (ho5.append h6'.2)

theorem attach_total (id : Nat) (h : Option Nat) : ∃ l, attach id h = .ok none l := by cases h <;> exact ⟨_, rfl⟩

theorem run_declared (ts : Bool) (t : T) : ∀ (h h' : Option Nat) (l : Log), run ts h t = .ok h' l →
    ∀ x ∈ declared none t, x ∈ l := by
  suffices H : ∀ (p h h' : Option Nat) (l : Log), (p = none ∨ p = h) → run ts h t = .ok h' l → ∀ x ∈ declared p t, x ∈ l from
    fun h h' l e => H none h h' l (.inl rfl) e
  induction t with
  | nil => intro p h h' l _ e x hx; cases hx
  | deco d next hn => intro p h h' l _ e; exact hn _ _ _ _ (.inr rfl) e
  | semi next hn => intro p h h' l _ e; exact hn _ _ _ _ (.inl rfl) e
  | clsDec id a b ha hb =>
    intro p h h' l hp e
    obtain ⟨h1, l1, l2, e1, r1, rfl⟩ := then_ok e
    obtain ⟨h3, l3, l4, e3, r2, rfl⟩ := then_ok r1
    obtain ⟨h5, l5, l6, e5, r3, rfl⟩ := then_ok r2
    obtain ⟨-, -, -, hm⟩ := attach_ok e1
    intro x hx
    simp only [declared, List.mem_append] at hx ⊢
    rcases hx with (hx | hx) | hx
    · rcases hp with rfl | rfl
      · cases hx
      · cases p with
        | none => cases hx
        | some d => simp at hx; subst hx; exact .inl (hm d rfl)
    · exact .inr (.inl (ha _ _ _ _ (.inl rfl) e3 x hx))
    · exact .inr (.inr (.inr (hb _ _ _ _ (.inl rfl) r3 x hx)))
  | cls id a b ha hb =>
    intro p h h' l _ e
    obtain ⟨h1, l1, l2, e1, r1, rfl⟩ := then_ok e
    obtain ⟨h3, l3, l4, e3, r2, rfl⟩ := then_ok r1
    intro x hx
    simp only [declared, List.mem_append] at hx ⊢
    rcases hx with hx | hx
    · exact .inr (.inl (ha _ _ _ _ (.inl rfl) e3 x hx))
    · exact .inr (.inr (hb _ _ _ _ (.inl rfl) r2 x hx))
  | blk a b ha hb =>
    intro p h h' l _ e
    obtain ⟨h3, l3, l4, e3, r1, rfl⟩ := then_ok e
    intro x hx
    simp only [declared, List.mem_append] at hx ⊢
    rcases hx with hx | hx
    · exact .inl (ha _ _ _ _ (.inl rfl) e3 x hx)
    · exact .inr (hb _ _ _ _ (.inl rfl) r1 x hx)
  | stmt a b ha hb =>
    intro p h h' l _ e
    obtain ⟨h3, l3, l4, e3, r1, rfl⟩ := then_ok e
    obtain ⟨h5, l5, l6, e5, r2, rfl⟩ := then_ok r1
    intro x hx
    simp only [declared, List.mem_append] at hx ⊢
    rcases hx with hx | hx
    · exact .inl (ha _ _ _ _ (.inl rfl) e3 x hx)
    · exact .inr (.inr (hb _ _ _ _ (.inl rfl) r2 x hx))
  | mem k id a b ha hb =>
    intro p h h' l _ e
    obtain ⟨h3, l3, l4, e3, r1, rfl⟩ := then_ok e
    obtain ⟨h5, l5, l6, e5, r2, rfl⟩ := then_ok r1
    intro x hx
    simp only [declared, List.mem_append] at hx ⊢
    rcases hx with hx | hx
    · exact .inl (ha _ _ _ _ (.inl rfl) e3 x hx)
    · exact .inr (.inr (hb _ _ _ _ (.inl rfl) r2 x hx))

theorem run_undecorated (ts : Bool) (t : T) : decos t = [] → run ts none t = .ok none [] := by
  induction t with
  | nil => intro _; rfl
  | deco d next hn => intro h; cases h
  | semi next hn => exact hn
  | _ =>
    rename_i ha hb
    intro h
    simp only [decos, List.append_eq_nil_iff] at h
    simp [run, ha h.1, hb h.2, Out.then, attach, attachMem, checkHang]

theorem attach_np (id : Nat) (h : Option Nat) : attach id h ≠ .panic := by cases h <;> simp [attach]

theorem checkHang_np (h : Option Nat) : checkHang h ≠ .panic := by cases h <;> simp [checkHang]

theorem attachMem_np (ts : Bool) (k : Kind) (id : Nat) (h : Option Nat) (hk : ts = true ∨ k ≠ .field) :
    attachMem ts k id h ≠ .panic := by cases h <;> cases k <;> cases ts <;> simp_all [attachMem, attach]

theorem run_np (ts : Bool) (t : T) : (ts = true ∨ noFields t = true) → ∀ h, run ts h t ≠ .panic := by
  induction t with
  | nil => intro _ h e; cases e
  | deco d next hn => intro hf h; exact hn hf (some d)
  | semi next hn => intro hf h; exact hn hf h
  | clsDec id a b ha hb =>
    intro hf h e
    simp only [noFields, Bool.and_eq_true] at hf
    rcases then_panic e with e | ⟨_, _, _, e⟩
    · exact attach_np _ _ e
    rcases then_panic e with e | ⟨_, _, _, e⟩
    · exact ha (hf.imp_right And.left) _ e
    rcases then_panic e with e | ⟨_, _, _, e⟩
    · exact checkHang_np _ e
    · exact hb (hf.imp_right And.right) _ e
  | cls id a b ha hb =>
    intro hf h e
    simp only [noFields, Bool.and_eq_true] at hf
    rcases then_panic e with e | ⟨_, _, _, e⟩
    · exact attach_np _ _ e
    rcases then_panic e with e | ⟨_, _, _, e⟩
    · exact ha (hf.imp_right And.left) _ e
    · exact hb (hf.imp_right And.right) _ e
  | stmt a b ha hb =>
    intro hf h e
    simp only [noFields, Bool.and_eq_true] at hf
    rcases then_panic e with e | ⟨_, _, _, e⟩
    · exact ha (hf.imp_right And.left) _ e
    rcases then_panic e with e | ⟨_, _, _, e⟩
    · exact checkHang_np _ e
    · exact hb (hf.imp_right And.right) _ e
  | blk a b ha hb =>
    intro hf h e
    simp only [noFields, Bool.and_eq_true] at hf
    rcases then_panic e with e | ⟨_, _, _, e⟩
    · exact ha (hf.imp_right And.left) _ e
    · exact hb (hf.imp_right And.right) _ e
  | mem k i a b ha hb =>
    intro hf h e
    simp only [noFields, Bool.and_eq_true, bne_iff_ne] at hf
    rcases then_panic e with e | ⟨_, _, _, e⟩
    · exact ha (hf.imp_right (·.1.2)) _ e
    rcases then_panic e with e | ⟨_, _, _, e⟩
    · exact attachMem_np ts k i _ (hf.imp_right (·.1.1)) e
    · exact hb (hf.imp_right And.right) _ e

/-! ## What holds -/

/-- **C89, part.** A program none of the exceptions is in is read as it is meant: if every decorator is written right before a class
declaration, field or method, these get them and nothing else gets any; otherwise the program is an error.  Missing: the exceptions
(`Regular`), that are the violations below. -/
theorem decorators_read_partial (ts : Bool) (t : T) (h : Regular ts false t = true) :
    parse ts t = match want none t with
      | some l => .ok none l
      | none => .err := by
  have := regular_same ts t none h
  unfold same at this
  unfold parse
  split at this <;> simp_all

/-- **C89, part.** Whatever the program: those attached are among those written, in that order, and none is attached twice; and what
they are attached to are classes and members of the program, each at most once. -/
theorem none_invented_partial (ts : Bool) (t : T) (h : Option Nat) (l : Log) (e : parse ts t = .ok h l) :
    (l.map (·.2)).Sublist (decos t) ∧ (l.map (·.1)).Sublist (owners t) := by
  have := run_sub ts t none h l e
  exact ⟨(List.sublist_append_left _ _).trans (by simpa using this.1), this.2⟩

/-- **C89, part.** Whatever the program: if it is accepted, a class declaration gets the decorators right before it. -/
theorem class_decorated_partial (ts : Bool) (t : T) (h : Option Nat) (l : Log) (e : parse ts t = .ok h l) (id d : Nat)
    (hd : (id, d) ∈ declared none t) : (id, d) ∈ l := run_declared ts t none h l e _ hd

/-- **C89, part.** Without decorators nothing is attached and nothing rejected. -/
theorem undecorated_partial (ts : Bool) (t : T) (h : decos t = []) : parse ts t = .ok none [] := run_undecorated ts t h

/-- **C89, part.** In TypeScript, and without fields, decorators never stop the parser. -/
theorem no_panic_partial (ts : Bool) (t : T) (h : ts = true ∨ noFields t = true) : parse ts t ≠ .panic := run_np ts t h none

/-! ## Where it does not hold -/

/-- **C89, violated.** A field with a decorator stops the parser with a panic unless TypeScript is on, though decorators are on by
default: `class A { @d x = 1 }`. -/
theorem field_panic_violated : let t := T.clsDec 0 (.deco 7 (.mem .field 1 .nil .nil)) .nil
    want none t = some [(1, 7)] ∧ parse false t = .panic ∧ parse true t = .ok none [(1, 7)] := by decide

/-- **C89, violated.** A method with decorators is rejected if there is a statement in its body: `class A { @d m() { x; } }`.  -/
theorem body_violated (ts : Bool) : let t := T.clsDec 0 (.deco 7 (.mem .method 1 (.blk (.stmt .nil .nil) .nil) .nil)) .nil
    want none t = some [(1, 7)] ∧ parse ts t = .err := by cases ts <;> decide

/-- **C89, violated.** It is accepted if the first thing in it is a class; but then that gets the decorators:
`class A { @d m() { class B {} } }`. -/
theorem stolen_violated (ts : Bool) : let t := T.clsDec 0 (.deco 7 (.mem .method 1 (.blk (.clsDec 2 .nil .nil) .nil) .nil)) .nil
    want none t = some [(1, 7)] ∧ parse ts t = .ok none [(2, 7)] := by cases ts <;> decide

/-- **C89, violated.** So it is with a class in a field: `class A { @d x = class {} }`. -/
theorem field_stolen_violated (ts : Bool) : let t := T.clsDec 0 (.deco 7 (.mem .field 1 (.cls 2 .nil .nil) .nil)) .nil
    want none t = some [(1, 7)] ∧ parse ts t = .ok none [(2, 7)] := by cases ts <;> decide

/-- **C89, violated.** Decorators before a function are accepted if it begins with a class: `@d function f() { class A {} }`; and so
are those before any expression with a class in it, `@d f(class {})`. -/
theorem statement_violated (ts : Bool) :
    (let t := T.deco 7 (.stmt (.blk (.clsDec 0 .nil .nil) .nil) .nil)
     want none t = none ∧ parse ts t = .ok none [(0, 7)]) ∧
    (let t := T.deco 7 (.stmt (.cls 0 .nil .nil) .nil)
     want none t = none ∧ parse ts t = .ok none [(0, 7)]) := by cases ts <;> decide

/-- **C89, violated.** Decorators at the end of the program are accepted and lost: `x; @d`. -/
theorem end_violated (ts : Bool) : let t := T.stmt .nil (.deco 7 .nil)
    want none t = none ∧ parse ts t = .ok (some 7) [] := by cases ts <;> decide

/-- **C89, violated.** Decorators are lost if a `;` and others are behind them: `class A { @a; @b m() {} }`. -/
theorem lost_violated (ts : Bool) : let t := T.clsDec 0 (.deco 7 (.semi (.deco 8 (.mem .method 1 (.blk .nil .nil) .nil)))) .nil
    want none t = none ∧ parse ts t = .ok none [(1, 8)] := by cases ts <;> decide

/-- **C89, violated.** In TypeScript a static block is given decorators: `class A { @d static {} }`. -/
theorem static_violated : let t := T.clsDec 0 (.deco 7 (.mem .static 1 (.blk .nil .nil) .nil)) .nil
    want none t = none ∧ parse true t = .ok none [(1, 7)] ∧ parse false t = .err := by decide

/-- **C89, violated.** Decorators at the end of the body of a method become those of the method: `class A { m() { @d } }`; and those at
the end of a class expression are given to the class behind it: `(class { @d }, class {})`. -/
theorem outwards_violated (ts : Bool) :
    (let t := T.clsDec 0 (.mem .method 1 (.blk (.deco 7 .nil) .nil) .nil) .nil
     want none t = none ∧ parse ts t = .ok none [(1, 7)]) ∧
    (let t := T.stmt (.cls 0 (.deco 7 .nil) (.cls 1 .nil .nil)) .nil
     want none t = none ∧ parse ts t = .ok none [(1, 7)]) := by cases ts <;> decide

/-! ## The hypotheses are met -/

/-- `@a class A { x = class { @b m() {} }; @c n() {} }  f(function() { x; @d class B {} })`. -/
def sample : T :=
  .deco 10 (.clsDec 0 (.mem .field 1 (.cls 2 (.deco 11 (.mem .method 3 (.blk .nil .nil) .nil)) .nil)
    (.semi (.deco 12 (.mem .method 4 (.blk .nil .nil) .nil))))
    (.stmt (.blk (.stmt .nil (.deco 13 (.clsDec 5 .nil .nil))) .nil) .nil))

example : Regular false false sample = true ∧ parse false sample = .ok none [(0, 10), (3, 11), (4, 12), (5, 13)] ∧
    want none sample = some [(0, 10), (3, 11), (4, 12), (5, 13)] := by decide

/-- `x; @d y;` is an error, and has none of the exceptions. -/
example : let t := T.stmt .nil (.deco 7 (.stmt .nil .nil))
    Regular false false t = true ∧ parse false t = .err ∧ want none t = none := by decide

/-- A decorated field, in TypeScript. -/
example : let t := T.clsDec 0 (.deco 7 (.mem .field 1 .nil (.mem .static 2 (.blk (.stmt .nil .nil) .nil) .nil))) .nil
    Regular true false t = true ∧ parse true t = .ok none [(1, 7)] := by decide

example : declared none sample = [(0, 10), (5, 13)] ∧ decos sample = [10, 11, 12, 13] ∧ owners sample = [0, 2, 3, 1, 4, 5] := by decide

/-- Without decorators, and without fields. -/
example : let t := T.clsDec 0 (.semi (.mem .method 1 (.blk (.stmt (.cls 2 .nil .nil) .nil) .nil) .nil)) .nil
    decos t = [] ∧ noFields t = true ∧ parse false t = .ok none [] := by decide

end Mole.Parser.Deco
