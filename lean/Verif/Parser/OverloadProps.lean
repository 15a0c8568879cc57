import Verif.Parser.OverloadSpec
/-!
# Overload signatures (C88)

*A program in which every overload signature is followed by its implementation is accepted, any other is rejected, and the check never
stops the parser.*
-/
namespace Mole.Parser.Overload

/-! ## Helper lemmas -/

theorem alike_iff (a b : Option Key) : alike a b = true ↔ nameOfNode a = nameOfNode b := by
  cases a with
  | none => cases b with
    | none => simp [alike, nameOfNode]
    | some b => cases b <;> simp [alike, nameOfNode]
  | some a =>
    cases b with
    | none => cases a <;> simp [alike, nameOfNode]
    | some b => cases a <;> cases b <;> simp [alike, nameOfNode]

theorem ident_iff (s : Option Key) (n : Nat) : ident s = some n ↔ s = some (.name n) ∨ s = some (.pvt n) := by
  cases s with
  | none => simp [ident]
  | some k => cases k <;> simp [ident]

theorem isIdent_iff (k : Key) : isIdent k = (ident (some k)).isSome := by cases k <;> rfl

theorem dyn_iff (k : Key) : (nameOfNode (some k) = .empty ∧ k ≠ .member) ↔ k = .comp := by cases k <;> simp [nameOfNode]

/-- The check on one thing that ends. -/
def step (s : Sig) : Ev → Out
  | .sig k => .ok (some k)
  | .glued id => isFnSigValid s id
  | .impl k => isFnImplValid s k
  | .dyn => .err

def steps (s : Sig) : List Ev → Out
  | [] => .ok s
  | e :: l => match step s e with
    | .ok s1 => steps s1 l
    | x => x

theorem steps_append (a b : List Ev) : ∀ s, steps s (a ++ b) = match steps s a with
    | .ok s1 => steps s1 b
    | x => x := by
  induction a with
  | nil => intro s; rfl
  | cons e l ih =>
    intro s
    simp only [List.cons_append, steps]
    cases step s e with
    | ok s1 => exact ih s1
    | err => rfl
    | panic => rfl

theorem run_steps (p : Prog) : ∀ s, run s p = steps s (ends p) := by
  induction p with
  | nil => intro s; rfl
  | fn id i n hi hn =>
    intro s
    simp only [run, ends, steps_append, hi, steps, step]
    cases steps s (ends i) with
    | ok s1 => simp only; cases isFnImplValid s1 (id.map .name) <;> first | exact hn _ | rfl
    | _ => rfl
  | fnSig id g a i n hi hn =>
    intro s
    simp only [run, ends, steps_append, hi]
    cases steps s (ends i) with
    | ok s1 =>
      cases g with
      | false => simp [steps, step, hn]
      | true =>
        simp only [if_true, steps, step]
        cases isFnSigValid s1 id <;> simp [hn]
    | _ => rfl
  | meth k i n hi hn =>
    intro s
    simp only [run, ends, steps_append, hi, steps, step]
    cases steps s (ends i) with
    | ok s1 => simp only; cases isFnImplValid s1 (some k) <;> first | exact hn _ | rfl
    | _ => rfl
  | methSig k o b a i n hi hn =>
    intro s
    simp only [run, ends, steps_append, hi, dyn_iff]
    cases steps s (ends i) with
    | ok s1 =>
      cases o with
      | true => simp [steps, hn]
      | false =>
        simp only [Bool.false_eq_true, if_false]
        split
        · simp [steps, step]
        · cases b <;> simp [steps, step, hn]
    | _ => rfl
  | other i n hi hn =>
    intro s
    simp only [run, ends, steps_append, hi]
    cases steps s (ends i) with
    | ok s1 => exact hn _
    | _ => rfl

theorem impl_ok {s s' : Sig} {k : Option Key} : isFnImplValid s k = .ok s' ↔ s' = s ∧ ∀ t, s = some t → alike t k = true := by
  simp only [alike_iff]
  cases s with
  | none => simp [isFnImplValid, eq_comm]
  | some t =>
    simp only [isFnImplValid]
    by_cases h : nameOfNode t = nameOfNode k
    · simp [h, eq_comm]
    · simp only [h, if_false]
      constructor
      · split <;> intro h' <;> cases h'
      · intro h'; exact (h (h'.2 t rfl)).elim

theorem glued_ok {s s' : Sig} {id : Option Nat} : isFnSigValid s id = .ok s' ↔
    s' = s ∧ ∃ n, id = some n ∧ ∀ t, s = some t → t = some (.name n) ∨ t = some (.pvt n) := by
  simp only [← ident_iff]
  cases id with
  | none => simp [isFnSigValid]
  | some n =>
    cases s with
    | none => simp [isFnSigValid, eq_comm]
    | some t =>
      simp only [isFnSigValid]
      cases hi : ident t with
      | none => simp [hi]
      | some m =>
        by_cases h : m = n
        · simp [h, hi, eq_comm]
        · simp [h, hi]

/-- The signature after these, that before being `s`. -/
theorem lastSig_snoc (a : List Ev) (e : Ev) : lastSig (a ++ [e]) = match e with
    | .sig k => some k
    | _ => lastSig a := by
  induction a with
  | nil => cases e <;> rfl
  | cons x l ih =>
    have h : ∀ m : List Ev, lastSig (x :: m) = match lastSig m with
        | some k => some k
        | none => match x with
          | .sig k => some k
          | _ => none := by intro m; cases x <;> rfl
    rw [List.cons_append, h, ih]
    cases e <;> simp only [h]

theorem steps_agree : ∀ (l pre : List Ev), (∃ s, steps (lastSig pre) l = .ok s) ↔ ∀ a e b, l = a ++ e :: b → right (pre ++ a) e
  | [], pre => by simp [steps]
  | x :: l, pre => by
    have ih := steps_agree l (pre ++ [x])
    have hsplit : (∀ a e b, x :: l = a ++ e :: b → right (pre ++ a) e) ↔
        right pre x ∧ ∃ s, steps (lastSig (pre ++ [x])) l = .ok s := by
      rw [ih]
      constructor
      · intro h
        refine ⟨?_, fun a e b he => ?_⟩
        · have := h [] x l rfl
          rw [List.append_nil] at this
          exact this
        · have := h (x :: a) e b (by rw [he]; rfl)
          rw [List.append_assoc]
          exact this
      · rintro ⟨h1, h2⟩ a e b he
        cases a with
        | nil =>
          simp only [List.nil_append, List.cons.injEq] at he
          obtain ⟨rfl, _⟩ := he
          rw [List.append_nil]
          exact h1
        | cons y a =>
          simp only [List.cons_append, List.cons.injEq] at he
          obtain ⟨rfl, he⟩ := he
          have := h2 a e b he
          rw [List.append_assoc] at this
          exact this
    rw [hsplit]
    have hl := lastSig_snoc pre x
    cases x with
    | sig k => simp only at hl; simp [steps, step, hl, right]
    | dyn => simp [steps, step, right]
    | impl k =>
      simp only at hl
      rw [hl]
      simp only [steps, step]
      cases hx : isFnImplValid (lastSig pre) k with
      | ok s1 =>
        obtain ⟨rfl, h⟩ := impl_ok.1 hx
        exact ⟨fun h' => ⟨h, h'⟩, fun h' => h'.2⟩
      | _ =>
        simp only [reduceCtorEq, exists_false, false_iff, not_and]
        intro (h : ∀ s, lastSig pre = some s → alike s k = true)
        rw [impl_ok.2 ⟨rfl, h⟩] at hx
        cases hx
    | glued id =>
      simp only at hl
      rw [hl]
      simp only [steps, step]
      cases hx : isFnSigValid (lastSig pre) id with
      | ok s1 =>
        obtain ⟨rfl, h⟩ := glued_ok.1 hx
        exact ⟨fun h' => ⟨h, h'⟩, fun h' => h'.2⟩
      | _ =>
        simp only [reduceCtorEq, exists_false, false_iff, not_and]
        intro (h : ∃ n, id = some n ∧ ∀ s, lastSig pre = some s → s = some (.name n) ∨ s = some (.pvt n))
        rw [glued_ok.2 ⟨rfl, h⟩] at hx
        cases hx

theorem part_ok {q p : Prog} (h : Part q p) : ∀ {s s' : Sig}, run s p = .ok s' → ∃ t t', run t q = .ok t' := by
  have key : ∀ {x : Out} {f : Sig → Out} {s' : Sig}, (match x with | .ok s1 => f s1 | y => y) = .ok s' → ∃ s1, x = .ok s1 ∧ f s1 = .ok s' := by
    intro x f s' h
    cases x with
    | ok s1 => exact ⟨s1, rfl, h⟩
    | _ => cases h
  induction h with
  | here => exact fun h => ⟨_, _, h⟩
  | fnIn _ ih => intro s s' h; rw [run] at h; obtain ⟨s1, h1, _⟩ := key h; exact ih h1
  | fnOn _ ih =>
    intro s s' h; rw [run] at h; obtain ⟨s1, _, h⟩ := key h; obtain ⟨s2, _, h⟩ := key h; exact ih h
  | fnSigIn _ ih => intro s s' h; rw [run] at h; obtain ⟨s1, h1, _⟩ := key h; exact ih h1
  | fnSigOn _ ih =>
    intro s s' h; rw [run] at h; obtain ⟨s1, _, h⟩ := key h; obtain ⟨s2, _, h⟩ := key h; exact ih h
  | methIn _ ih => intro s s' h; rw [run] at h; obtain ⟨s1, h1, _⟩ := key h; exact ih h1
  | methOn _ ih =>
    intro s s' h; rw [run] at h; obtain ⟨s1, _, h⟩ := key h; obtain ⟨s2, _, h⟩ := key h; exact ih h
  | methSigIn _ ih => intro s s' h; rw [run] at h; obtain ⟨s1, h1, _⟩ := key h; exact ih h1
  | methSigOn _ ih =>
    intro s s' h; rw [run] at h; obtain ⟨s1, _, h⟩ := key h
    split at h
    · exact ih h
    · split at h
      · cases h
      · split at h <;> exact ih h
  | otherIn _ ih => intro s s' h; rw [run] at h; obtain ⟨s1, h1, _⟩ := key h; exact ih h1
  | otherOn _ ih => intro s s' h; rw [run] at h; obtain ⟨s1, _, h⟩ := key h; exact ih h

/-- Without signatures the last one stays. -/
theorem bodies_keep (p : Prog) : bodies p = true → ∀ {s s' : Sig}, run s p = .ok s' → s' = s := by
  have key : ∀ {x : Out} {f : Sig → Out} {s' : Sig}, (match x with | .ok s1 => f s1 | y => y) = .ok s' → ∃ s1, x = .ok s1 ∧ f s1 = .ok s' := by
    intro x f s' h
    cases x with
    | ok s1 => exact ⟨s1, rfl, h⟩
    | _ => cases h
  induction p with
  | nil => intro _ s s' h; cases h; rfl
  | fn id i n hi hn =>
    intro hb s s' h
    rw [bodies, Bool.and_eq_true] at hb
    rw [run] at h
    obtain ⟨s1, h1, h⟩ := key h
    obtain ⟨s2, h2, h⟩ := key h
    rw [hn hb.2 h, (impl_ok.1 h2).1, hi hb.1 h1]
  | meth id i n hi hn =>
    intro hb s s' h
    rw [bodies, Bool.and_eq_true] at hb
    rw [run] at h
    obtain ⟨s1, h1, h⟩ := key h
    obtain ⟨s2, h2, h⟩ := key h
    rw [hn hb.2 h, (impl_ok.1 h2).1, hi hb.1 h1]
  | other i n hi hn =>
    intro hb s s' h
    rw [bodies, Bool.and_eq_true] at hb
    rw [run] at h
    obtain ⟨s1, h1, h⟩ := key h
    rw [hn hb.2 h, hi hb.1 h1]
  | fnSig => intro hb; cases hb
  | methSig => intro hb; cases hb

theorem bodies_none (p : Prog) : bodies p = true → run none p = .ok none := by
  induction p with
  | nil => intro _; rfl
  | fn id i n hi hn => intro hb; rw [bodies, Bool.and_eq_true] at hb; simp [run, hi hb.1, isFnImplValid, hn hb.2]
  | meth id i n hi hn => intro hb; rw [bodies, Bool.and_eq_true] at hb; simp [run, hi hb.1, isFnImplValid, hn hb.2]
  | other i n hi hn => intro hb; rw [bodies, Bool.and_eq_true] at hb; simp [run, hi hb.1, hn hb.2]
  | fnSig => intro hb; cases hb
  | methSig => intro hb; cases hb

/-- The signature that is kept is named by an identifier, and no other is met. -/
theorem idents_run (p : Prog) : idents p = true → ∀ s : Sig, (∀ k, s = some k → (ident k).isSome = true) →
    match run s p with
    | .ok s' => ∀ k, s' = some k → (ident k).isSome = true
    | .err => True
    | .panic => False := by
  have himpl : ∀ (s : Sig) (k : Option Key), (ident k).isSome = true → isFnImplValid s k = .ok s ∨ isFnImplValid s k = .err := by
    intro s k hk
    cases s with
    | none => exact .inl rfl
    | some t =>
      simp only [isFnImplValid, hk, if_true]
      split <;> simp
  have hsig : ∀ (s : Sig) (n : Nat), (∀ k, s = some k → (ident k).isSome = true) →
      isFnSigValid s (some n) = .ok s ∨ isFnSigValid s (some n) = .err := by
    intro s n hs
    cases s with
    | none => exact .inl rfl
    | some t =>
      simp only [isFnSigValid]
      have := hs t rfl
      cases hi : ident t with
      | none => rw [hi] at this; cases this
      | some m => simp only; split <;> simp
  induction p with
  | nil => intro _ s hs; exact hs
  | fn id i n hi hn =>
    intro hp s hs
    simp only [idents, isIdent_iff, Bool.and_eq_true] at hp
    have h1 := hi hp.1.2 s hs
    rw [run]
    cases hr : run s i with
    | ok s1 =>
      rw [hr] at h1
      simp only
      have hk : (ident (id.map Key.name)).isSome = true := by
        cases id with
        | none => cases hp.1.1
        | some n => rfl
      rcases himpl s1 (id.map Key.name) hk with h | h <;> rw [h]
      · exact hn hp.2 s1 h1
      · trivial
    | err => trivial
    | panic => rw [hr] at h1; exact h1.elim
  | fnSig id g a i n hi hn =>
    intro hp s hs
    simp only [idents, isIdent_iff, Bool.and_eq_true] at hp
    have h1 := hi hp.1.2 s hs
    rw [run]
    cases hr : run s i with
    | ok s1 =>
      rw [hr] at h1
      simp only
      cases id with
      | none => cases hp.1.1
      | some m =>
        have hnext := hn hp.2 (some ((some m).map Key.name)) (fun k hk => by cases hk; rfl)
        cases g with
        | false => exact hnext
        | true =>
          simp only [if_true]
          rcases hsig s1 m h1 with h | h <;> rw [h]
          · exact hnext
          · trivial
    | err => trivial
    | panic => rw [hr] at h1; exact h1.elim
  | meth k i n hi hn =>
    intro hp s hs
    simp only [idents, isIdent_iff, Bool.and_eq_true] at hp
    have h1 := hi hp.1.2 s hs
    rw [run]
    cases hr : run s i with
    | ok s1 =>
      rw [hr] at h1
      simp only
      rcases himpl s1 (some k) hp.1.1 with h | h <;> rw [h]
      · exact hn hp.2 s1 h1
      · trivial
    | err => trivial
    | panic => rw [hr] at h1; exact h1.elim
  | methSig k o b a i n hi hn =>
    intro hp s hs
    simp only [idents, isIdent_iff, Bool.and_eq_true] at hp
    have h1 := hi hp.1.2 s hs
    rw [run]
    cases hr : run s i with
    | ok s1 =>
      rw [hr] at h1
      simp only
      have h2 := hn hp.2 s1 h1
      have h3 := hn hp.2 (some (some k)) (fun k' hk => by cases hk; exact hp.1.1)
      by_cases ho : o = true
      · rw [if_pos ho]; exact h2
      · rw [if_neg ho]
        by_cases hd : nameOfNode (some k) = .empty ∧ k ≠ .member
        · rw [if_pos hd]; trivial
        · rw [if_neg hd]
          by_cases hb : b = true
          · rw [if_pos hb]; exact h2
          · rw [if_neg hb]; exact h3
    | err => trivial
    | panic => rw [hr] at h1; exact h1.elim
  | other i n hi hn =>
    intro hp s hs
    simp only [idents, isIdent_iff, Bool.and_eq_true] at hp
    have h1 := hi hp.1 s hs
    rw [run]
    cases hr : run s i with
    | ok s1 => rw [hr] at h1; exact hn hp.2 s1 h1
    | err => trivial
    | panic => rw [hr] at h1; exact h1.elim

theorem only_run (x : Nat) (p : Prog) : only x p = true → ∀ s : Sig, s = none ∨ s = some (some (.name x)) →
    ∃ s', run s p = .ok s' ∧ (s' = none ∨ s' = some (some (.name x))) := by
  have himpl : ∀ s : Sig, s = none ∨ s = some (some (.name x)) → isFnImplValid s (some (.name x)) = .ok s := by
    rintro s (rfl | rfl) <;> simp [isFnImplValid]
  have hsig : ∀ s : Sig, s = none ∨ s = some (some (.name x)) → isFnSigValid s (some x) = .ok s := by
    rintro s (rfl | rfl) <;> simp [isFnSigValid, ident]
  induction p with
  | nil => exact fun _ s hs => ⟨s, rfl, hs⟩
  | fn id i n hi hn =>
    intro hp s hs
    simp only [only, Bool.and_eq_true, beq_iff_eq] at hp
    obtain ⟨⟨rfl, hpi⟩, hpn⟩ := hp
    obtain ⟨s1, h1, hs1⟩ := hi hpi s hs
    simp only [run, h1, Option.map_some, himpl s1 hs1]
    exact hn hpn s1 hs1
  | fnSig id g a i n hi hn =>
    intro hp s hs
    simp only [only, Bool.and_eq_true, beq_iff_eq] at hp
    obtain ⟨⟨rfl, hpi⟩, hpn⟩ := hp
    obtain ⟨s1, h1, hs1⟩ := hi hpi s hs
    have := hn hpn _ (.inr rfl)
    cases g <;> simp only [run, h1, Option.map_some, hsig s1 hs1, Bool.false_eq_true, if_false, if_true] <;> exact this
  | meth k i n hi hn =>
    intro hp s hs
    simp only [only, Bool.and_eq_true, beq_iff_eq] at hp
    obtain ⟨⟨rfl, hpi⟩, hpn⟩ := hp
    obtain ⟨s1, h1, hs1⟩ := hi hpi s hs
    simp only [run, h1, himpl s1 hs1]
    exact hn hpn s1 hs1
  | methSig k o b a i n hi hn =>
    intro hp s hs
    simp only [only, Bool.and_eq_true, beq_iff_eq] at hp
    obtain ⟨⟨rfl, hpi⟩, hpn⟩ := hp
    obtain ⟨s1, h1, hs1⟩ := hi hpi s hs
    have h2 := hn hpn s1 hs1
    have h3 := hn hpn _ (.inr rfl)
    cases o <;> cases b <;> simp [run, h1, nameOfNode, h2, h3]
  | other i n hi hn =>
    intro hp s hs
    simp only [only, Bool.and_eq_true] at hp
    obtain ⟨s1, h1, hs1⟩ := hi hp.1 s hs
    simp only [run, h1]
    exact hn hp.2 s1 hs1

/-! ## The property -/

/-- `function f(): void; function f() {}` -/
def overloaded (f : Nat) (rest : Prog) : Prog := .fnSig (some f) false false .nil (.fn (some f) .nil rest)

/-- **C88, partial.**  Exactly what is accepted: the programs in which every function declaration and method with a body has the name of
the nearest signature that ends before it, and so on (`Agree`).  Missing: the nearest signature should count only right behind it. -/
theorem accepted_iff_partial (p : Prog) : (∃ s, parse p = .ok s) ↔ Agree (ends p) := by
  rw [parse, run_steps]
  exact steps_agree (ends p) []

example : (∃ s, parse (.fn (some 0) .nil (overloaded 1 .nil)) = .ok s) ∧ Fine (.fn (some 0) .nil (overloaded 1 .nil)) :=
  ⟨⟨_, rfl⟩, rfl⟩

/-- **C88, partial.**  A program without signatures is accepted, whatever functions are in it, and it is right. -/
theorem plain_accepted_partial (p : Prog) (h : bodies p = true) : parse p = .ok none := bodies_none p h

/-- `function f() { class A { m() {} } }  export default function () {}` -/
example : bodies (.fn (some 0) (.other (.meth (.name 1) .nil .nil) .nil) (.fn none .nil .nil)) = true := rfl

/-- **C88, partial.**  If all the functions and methods have the same name, the program is accepted. -/
theorem single_accepted_partial (x : Nat) (p : Prog) (h : only x p = true) : ∃ s, parse p = .ok s :=
  let ⟨s, hs, _⟩ := only_run x p h none (.inl rfl)
  ⟨s, hs⟩

example : only 3 (.fnSig (some 3) true false .nil (.fnSig (some 3) false false .nil (.fn (some 3) (.other .nil .nil) .nil))) = true := rfl

/-- **C88, partial.**  Wherever a signature of a function is followed by a function with a body and another name, the program is
rejected; no signature must be inside that function, for the code takes that for the pending one. -/
theorem wrong_name_rejected_partial (p : Prog) (a b : Option Nat) (g amb : Bool) (i₁ i₂ next : Prog) (hi : bodies i₂ = true) (hab : a ≠ b)
    (h : Part (.fnSig a g amb i₁ (.fn b i₂ next)) p) (s : Sig) : parse p ≠ .ok s := by
  intro hp
  obtain ⟨t, t', ht⟩ := part_ok h hp
  have : ∃ s1 s2, run (some (a.map Key.name)) (.fn b i₂ next) = .ok s1 ∧ s1 = s2 := by
    simp only [run] at ht ⊢
    split at ht
    · split at ht
      · exact ⟨_, _, ht, rfl⟩
      · rename_i h1 _ h2; exact absurd ht (h2 _)
    · rename_i h1 h2; exact absurd ht (h2 _)
  obtain ⟨s1, _, h1, _⟩ := this
  rw [run] at h1
  split at h1
  · rename_i s2 h2
    rw [bodies_keep i₂ hi h2] at h1
    split at h1
    · rename_i s3 h3
      have := (impl_ok.1 h3).2 _ rfl
      cases a <;> cases b <;> simp_all [alike]
    · rename_i h4; exact absurd h1 (h4 _)
  · rename_i h4; exact absurd h1 (h4 _)

example : Part (.fnSig (some 0) false false .nil (.fn (some 1) .nil .nil))
    (.other (.fnSig (some 0) false false .nil (.fn (some 1) .nil .nil)) .nil) := .otherIn .here

/-- **C88, partial.**  So it is with methods. -/
theorem wrong_method_rejected_partial (p : Prog) (a b : Key) (amb : Bool) (i₁ i₂ next : Prog) (hi : bodies i₂ = true)
    (hab : alike (some a) (some b) = false)
    (h : Part (.methSig a false false amb i₁ (.meth b i₂ next)) p) (s : Sig) : parse p ≠ .ok s := by
  intro hp
  obtain ⟨t, t', ht⟩ := part_ok h hp
  have : ∃ s1, run (some (some a)) (.meth b i₂ next) = .ok s1 := by
    rw [run] at ht
    split at ht
    · rw [if_neg (by decide)] at ht
      split at ht
      · cases ht
      · rw [if_neg (by decide)] at ht
        exact ⟨_, ht⟩
    · rename_i h2; exact absurd ht (h2 _)
  obtain ⟨s1, h1⟩ := this
  rw [run] at h1
  split at h1
  · rename_i s2 h2
    rw [bodies_keep i₂ hi h2] at h1
    split at h1
    · rename_i s3 h3
      rw [(impl_ok.1 h3).2 _ rfl] at hab; cases hab
    · rename_i h4; exact absurd h1 (h4 _)
  · rename_i h4; exact absurd h1 (h4 _)

/-- `class A { m(): void; #m() {} }` -/
example : alike (some (.name 0)) (some (.pvt 0)) = false ∧
    Part (.methSig (.name 0) false false false .nil (.meth (.pvt 0) .nil .nil))
      (.other (.methSig (.name 0) false false false .nil (.meth (.pvt 0) .nil .nil)) .nil) := ⟨rfl, .otherIn .here⟩

/-- **C88, partial.**  If all functions and methods are named by identifiers, the check never panics. -/
theorem named_no_panic_partial (p : Prog) (h : idents p = true) : parse p ≠ .panic := by
  intro hp
  have := idents_run p h none (fun k hk => by cases hk)
  rw [← parse, hp] at this
  exact this

example : idents (overloaded 0 (.other (.meth (.pvt 1) .nil .nil) .nil)) = true := rfl

/-! ## Where the code does otherwise -/

/-- **C88, violated.**  The signature is never forgotten: `function f(): void; function f() {}  function g() {}` is rejected. -/
theorem forgotten_violated : Fine (overloaded 0 (.fn (some 1) .nil .nil)) ∧ parse (overloaded 0 (.fn (some 1) .nil .nil)) = .err :=
  ⟨rfl, rfl⟩

/-- **C88, violated.**  `function f(): void; function f() { return {m() {}} }` is rejected, too: the method is taken for the
implementation. -/
theorem inside_violated : Fine (.fnSig (some 0) false false .nil (.fn (some 0) (.other (.meth (.name 1) .nil .nil) .nil) .nil)) ∧
    parse (.fnSig (some 0) false false .nil (.fn (some 0) (.other (.meth (.name 1) .nil .nil) .nil) .nil)) = .err := ⟨rfl, rfl⟩

/-- **C88, violated.**  `declare function f(): void; function g() {}` is rejected. -/
theorem ambient_violated : Fine (.fnSig (some 0) false true .nil (.fn (some 1) .nil .nil)) ∧
    parse (.fnSig (some 0) false true .nil (.fn (some 1) .nil .nil)) = .err := ⟨rfl, rfl⟩

/-- **C88, violated.**  `function f(): void;` alone is accepted, and so is one in front of other statements. -/
theorem missing_violated : ¬Fine (.fnSig (some 0) false false .nil (.other .nil .nil)) ∧
    parse (.fnSig (some 0) false false .nil (.other .nil .nil)) = .ok (some (some (.name 0))) := ⟨Bool.false_ne_true, rfl⟩

/-- **C88, violated.**  `function f(): void; function g(): void; function g() {}` is accepted. -/
theorem replaced_violated : ¬Fine (.fnSig (some 0) false false .nil (overloaded 1 .nil)) ∧
    parse (.fnSig (some 0) false false .nil (overloaded 1 .nil)) = .ok (some (some (.name 1))) := ⟨Bool.false_ne_true, rfl⟩

/-- **C88, violated.**  `function f(): void; function f() {}  export default function () {}` is right, and a panic; so is a method named
by a string, and a function without a name before one on the next line:
`export default function (): void⏎function f() {}` (which is wrong). -/
theorem panic_violated : (Fine (overloaded 0 (.fn none .nil .nil)) ∧ parse (overloaded 0 (.fn none .nil .nil)) = .panic) ∧
    (Fine (overloaded 0 (.other (.meth (.lit 1) .nil .nil) .nil)) ∧ parse (overloaded 0 (.other (.meth (.lit 1) .nil .nil) .nil)) = .panic) ∧
    parse (.fnSig none true false .nil (.fn (some 0) .nil .nil)) = .panic := ⟨⟨rfl, rfl⟩, ⟨rfl, rfl⟩, rfl⟩

end Mole.Parser.Overload
