import Verif.Parser.Rets

/-! # What the stacks are after each part (lemmas for C85) -/

namespace Mole.Parser.Rets

mutual
/-- What the parser takes for the targets: the innermost try statement, whatever it is in. -/
def any1 (t : Option Nat) : Item → List (Nat × Option Nat)
  | .ret _ a => any t a
  | .thr n a => any t a ++ [(n, t)]
  | .fn _ a b => any t a ++ any t b
  | .try_ n b p c f => any (.some n) b ++ any t p ++ any t c ++ any t f
  | .block b | .cls b | .async b => any t b
def any (t : Option Nat) : Items → List (Nat × Option Nat)
  | .nil => []
  | .cons i l => any1 t i ++ any t l
end

/-- More return statements for the last list. -/
def add (o : List Nat) : List (List Nat) → List (List Nat)
  | [] => []
  | f :: l => (f ++ o) :: l

/-- What is noted. -/
def note (o : List Nat) (r : List (Nat × List Nat)) (t : List (Nat × Option Nat)) (s : St) : St :=
  { s with frames := add o s.frames, rets := s.rets ++ r, targets := s.targets ++ t }

theorem add_add (a b : List Nat) (l : List (List Nat)) : add b (add a l) = add (a ++ b) l := by
  cases l <;> simp [add]

theorem add_nil (l : List (List Nat)) : add [] l = l := by
  cases l <;> simp [add]

theorem note_note (o r t o' r' t') (s : St) : note o' r' t' (note o r t s) = note (o ++ o') (r ++ r') (t ++ t') s := by
  simp [note, add_add]

/-- The flags of the code and of the specification fit. -/
def Fit (k fn : Bool) (s : St) : Prop :=
  ∃ c l, s.scopes = c :: l ∧ (k = false → c = fn ∧ (fn = true → s.frames ≠ []))

theorem fit_note {k fn : Bool} {s : St} {o r t} (h : Fit k fn s) : Fit k fn (note o r t s) := by
  obtain ⟨c, l, h1, h2⟩ := h
  refine ⟨c, l, h1, fun hk => ⟨(h2 hk).1, fun hf => ?_⟩⟩
  have := (h2 hk).2 hf
  cases hs : s.frames <;> simp_all [note, add]

/-- What comes out. -/
def outcome (b : Bool) (s : St) : Out := if b then .ok s else .err

theorem and_outcome {b : Bool} {s : St} {f : St → Out} {c : Bool} {s' : St} (h : f s = outcome c s') :
    (outcome b s).and f = outcome (b && c) s' := by
  cases b <;> simp [outcome, Out.and, h]

/-- What is entered and left again. -/
theorem scope_and {b : Bool} {s : St} {m : St → Out} {o r t} (x : Bool) {c : Bool} {l : List Bool} (hs : s.scopes = c :: l)
    (hm : m { s with scopes := (x || c) :: c :: l } = outcome b (note o r t { s with scopes := (x || c) :: c :: l })) :
    ((enter x s).and m).and leave = outcome b (note o r t s) := by
  simp only [enter, hs, Out.and]
  rw [hm]
  cases b <;> simp [outcome, leave, note, hs]

theorem after_scope {a b : Bool} {s : St} {m : St → Out} {o r t} (x : Bool) {c : Bool} {l : List Bool} (hs : s.scopes = c :: l)
    (hm : m { s with scopes := (x || c) :: c :: l } = outcome b (note o r t { s with scopes := (x || c) :: c :: l })) :
    (((outcome a s).and (enter x)).and m).and leave = outcome (a && b) (note o r t s) := by
  cases a with
  | false => rfl
  | true => exact scope_and x hs hm

theorem fit_enter {k fn : Bool} {s : St} {c : Bool} {l : List Bool} (hs : s.scopes = c :: l) (h : Fit k fn s) :
    Fit k fn { s with scopes := (false || c) :: c :: l } := by
  obtain ⟨c', l', h1, h2⟩ := h
  rw [hs] at h1
  cases h1
  exact ⟨c, c :: l, rfl, h2⟩

mutual
theorem own_calm1 : ∀ i, calm1 true i = true → own1 i = []
  | .ret _ _, h => by simp [calm1] at h
  | .thr _ a, h => own_calm a h
  | .fn _ a b, h => by
    simp only [calm1, Bool.and_eq_true] at h
    exact own_calm a h.1
  | .try_ _ b p c f, h => by
    simp only [calm1, Bool.and_eq_true] at h
    simp [own1, own_calm b h.1.1.1, own_calm p h.1.1.2, own_calm c h.1.2, own_calm f h.2]
  | .block b, h => own_calm b h
  | .cls _, _ => rfl
  | .async _, h => by cases h
theorem own_calm : ∀ p, calm true p = true → own p = []
  | .nil, _ => rfl
  | .cons i l, h => by
    simp only [calm, Bool.and_eq_true] at h
    simp [own, own_calm1 i h.1, own_calm l h.2]
end

mutual
/-- A part that is in a class without return statements is legal or not whatever is around. -/
theorem legal_calm1 (fn fn' : Bool) : ∀ i, calm1 true i = true → legal1 fn i = legal1 fn' i
  | .ret _ _, h => by simp [calm1] at h
  | .thr _ a, h => legal_calm fn fn' a h
  | .fn _ a b, h => by
    simp only [calm1, Bool.and_eq_true] at h
    simp [legal1, legal_calm fn fn' a h.1]
  | .try_ _ b p c f, h => by
    simp only [calm1, Bool.and_eq_true] at h
    simp [legal1, legal_calm fn fn' b h.1.1.1, legal_calm fn fn' p h.1.1.2, legal_calm fn fn' c h.1.2, legal_calm fn fn' f h.2]
  | .block b, h => legal_calm fn fn' b h
  | .cls _, _ => rfl
  | .async _, h => by cases h
theorem legal_calm (fn fn' : Bool) : ∀ p, calm true p = true → legal fn p = legal fn' p
  | .nil, _ => rfl
  | .cons i l, h => by
    simp only [calm, Bool.and_eq_true] at h
    simp [legal, legal_calm1 fn fn' i h.1, legal_calm fn fn' l h.2]
end

mutual
theorem item_run : ∀ (i : Item) (k fn : Bool) (s : St), calm1 k i = true → Fit k fn s →
    item i s = outcome (legal1 fn i) (note (own1 i) (fns1 i) (any1 s.tries.head? i) s)
  | .ret n a, k, fn, s, h, hf => by
    simp only [calm1, Bool.and_eq_true, Bool.not_eq_true'] at h
    have hf' : Fit k fn (note (own a) (fns a) (any s.tries.head? a) s) := fit_note hf
    rw [item, items_run a k fn s h.2 hf, legal1, Bool.and_comm]
    refine and_outcome ?_
    obtain ⟨c, l, h1, h2⟩ := hf'
    obtain ⟨rfl, h3⟩ := h2 h.1
    simp only [pushRets, h1, List.head?_cons]
    cases c with
    | false => rfl
    | true =>
      cases hs : s.frames with
      | nil => simp [note, hs, add] at h3
      | cons f r =>
        simp [note, hs, add, outcome, own1, fns1, any1]
        exact h1.symm
  | .thr n a, k, fn, s, h, hf => by
    rw [item, items_run a k fn s h hf]
    rw [show legal1 fn (.thr n a) = (legal fn a && true) by simp [legal1]]
    refine and_outcome ?_
    simp [noteThrow, note, outcome, own1, fns1, any1]
  | .fn n a b, k, fn, s, h, hf => by
    simp only [calm1, Bool.and_eq_true] at h
    rw [item, items_run a k fn s h.1 hf, legal1]
    obtain ⟨c, l, h1, h2⟩ := hf
    cases hl : legal fn a with
    | false => simp [outcome, Out.and]
    | true =>
      simp only [outcome, Out.and, enter, incRets, note, h1, Bool.true_and, Bool.true_or, if_true]
      rw [items_run b false true _ h.2 ⟨true, _, rfl, fun _ => ⟨rfl, fun _ => by simp⟩⟩]
      cases legal true b with
      | false => simp [outcome]
      | true => simp [outcome, note, leave, decRets, own1, fns1, any1, add, h1]
  | .try_ n b p c f, k, fn, s, h, hf => by
    simp only [calm1, Bool.and_eq_true] at h
    obtain ⟨⟨⟨hb, hp⟩, hc⟩, hff⟩ := h
    obtain ⟨x, l, h1, h2⟩ := id hf
    have hf1 : Fit k fn { s with tries := n :: s.tries } := hf
    have e1 : (((pushTry n s).and (enter false)).and (items b)).and leave =
        outcome (legal fn b) (note (own b) (fns b) (any (some n) b) { s with tries := n :: s.tries }) := by
      refine scope_and (s := { s with tries := n :: s.tries }) false h1 ?_
      exact items_run b k fn _ hb (fit_enter (s := { s with tries := n :: s.tries }) h1 hf1)
    have e2 : ((((pushTry n s).and (enter false)).and (items b)).and leave).and popTry =
        outcome (legal fn b && true) (note (own b) (fns b) (any (some n) b) s) := by
      rw [e1]
      exact and_outcome rfl
    have e3 := and_outcome (b := legal fn b && true) (items_run p k fn _ hp (fit_note (o := own b) (r := fns b) (t := any (some n) b) hf))
    rw [note_note] at e3
    have e4 := after_scope (a := (legal fn b && true) && legal fn p) false (s := note (own b ++ own p) (fns b ++ fns p) (any (some n) b ++ any s.tries.head? p) s)
      h1 (items_run c k fn _ hc (fit_enter h1 (fit_note hf)))
    rw [note_note] at e4
    have e5 := after_scope (a := (legal fn b && true) && legal fn p && legal fn c) false
      (s := note (own b ++ own p ++ own c) (fns b ++ fns p ++ fns c) (any (some n) b ++ any s.tries.head? p ++ any s.tries.head? c) s)
      h1 (items_run f k fn _ hff (fit_enter h1 (fit_note hf)))
    rw [note_note] at e5
    rw [item, e2]
    show (((((((outcome _ _).and (items p)).and (enter false)).and (items c)).and leave).and (enter false)).and (items f)).and leave = _
    simp only [] at e3 e4 e5
    rw [show any s.tries.head? p = any (note (own b) (fns b) (any (some n) b) s).tries.head? p from rfl] at e4
    erw [e3, e4, e5]
    simp [legal1, own1, fns1, any1, note]
  | .block b, k, fn, s, h, hf => by
    obtain ⟨x, l, h1, h2⟩ := id hf
    rw [item]
    exact scope_and false h1 (items_run b k fn _ h (fit_enter h1 hf))
  | .cls b, k, fn, s, h, hf => by
    obtain ⟨x, l, h1, h2⟩ := id hf
    rw [item]
    refine scope_and true h1 ?_
    rw [items_run b true false _ h ⟨_, _, rfl, nofun⟩, own_calm b h]
    rfl
  | .async _, _, _, _, h, _ => by cases h
theorem items_run : ∀ (p : Items) (k fn : Bool) (s : St), calm k p = true → Fit k fn s →
    items p s = outcome (legal fn p) (note (own p) (fns p) (any s.tries.head? p) s)
  | .nil, _, _, s, _, _ => by simp [items, legal, outcome, note, own, fns, any, add_nil]
  | .cons i l, k, fn, s, h, hf => by
    simp only [calm, Bool.and_eq_true] at h
    rw [items, item_run i k fn s h.1 hf, legal]
    refine and_outcome ?_
    rw [items_run l k fn _ h.2 (fit_note hf), note_note]
    rfl
end

mutual
theorem any_throws1 : ∀ (i : Item) (own outer : Bool) (t u : Option Nat), near1 own outer i = true → own = u.isSome →
    (own = true → t = u) → (outer = false → t = u) → any1 t i = throws1 u i
  | .ret _ a, w, x, t, u, h, h1, h2, h3 => any_throws a w x t u h h1 h2 h3
  | .thr n a, w, x, t, u, h, h1, h2, h3 => by
    simp only [near1, Bool.and_eq_true, Bool.or_eq_true, Bool.not_eq_true'] at h
    have : t = u := h.2.elim h2 h3
    rw [any1, throws1, any_throws a w x t u h.1 h1 h2 h3, this]
  | .fn _ a b, w, x, t, u, h, h1, h2, h3 => by
    simp only [near1, Bool.and_eq_true] at h
    rw [any1, throws1, any_throws a w x t u h.1 h1 h2 h3, any_throws b false (w || x) t none h.2 rfl nofun]
    intro hx
    simp only [Bool.or_eq_false_iff] at hx
    rw [h3 hx.2]
    cases u with
    | none => rfl
    | some => simp [h1] at hx
  | .try_ n b p c f, w, x, t, u, h, h1, h2, h3 => by
    simp only [near1, Bool.and_eq_true] at h
    rw [any1, throws1, any_throws b true x _ _ h.1.1.1 rfl (fun _ => rfl) (fun _ => rfl), any_throws p w x t u h.1.1.2 h1 h2 h3,
      any_throws c w x t u h.1.2 h1 h2 h3, any_throws f w x t u h.2 h1 h2 h3]
  | .block b, w, x, t, u, h, h1, h2, h3 => any_throws b w x t u h h1 h2 h3
  | .cls b, w, x, t, u, h, h1, h2, h3 => any_throws b w x t u h h1 h2 h3
  | .async b, w, x, t, u, h, h1, h2, h3 => any_throws b w x t u h h1 h2 h3
theorem any_throws : ∀ (p : Items) (own outer : Bool) (t u : Option Nat), near own outer p = true → own = u.isSome →
    (own = true → t = u) → (outer = false → t = u) → any t p = throws u p
  | .nil, _, _, _, _, _, _, _, _ => rfl
  | .cons i l, w, x, t, u, h, h1, h2, h3 => by
    simp only [near, Bool.and_eq_true] at h
    rw [any, throws, any_throws1 i w x t u h.1 h1 h2 h3, any_throws l w x t u h.2 h1 h2 h3]
end

end Mole.Parser.Rets
