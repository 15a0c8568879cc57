import Verif.Lexer.ModeUseSpec

namespace Mole.Lexer.ModeUse

open Spec

theorem run_append (s : Stk) (a b : List Ev) : run s (a ++ b) =
    (run s a).bind fun x => (run x.1 b).map fun y => (y.1, x.2 ++ y.2) := by
  induction a generalizing s with
  | nil => simp only [List.nil_append, run, Option.bind_some]; cases run s b <;> simp
  | cons e a ih =>
    simp only [List.cons_append, run]
    cases step s e with
    | none => rfl
    | some x =>
      obtain ⟨s1, o1⟩ := x
      simp only [ih]
      cases run s1 a with
      | none => rfl
      | some y =>
        obtain ⟨s2, o2⟩ := y
        simp only [Option.bind_some]
        cases run s2 b <;> simp

/-! ## Shapes: which modes are those of templates -/

def shape (s : Stk) : List Bool := s.cur.tpl :: s.below.map Mode.tpl

/-- From a stack of the shape `a` the events lead to one of the shape `b`. -/
def Leads (es : List Ev) (a b : List Bool) : Prop := ∀ s, shape s = a → ∃ x, run s es = some x ∧ shape x.1 = b

theorem leads_nil (a : List Bool) : Leads [] a a := fun s h => ⟨_, rfl, h⟩

theorem leads_append {es fs : List Ev} {a b c : List Bool} (h1 : Leads es a b) (h2 : Leads fs b c) : Leads (es ++ fs) a c := by
  intro s hs
  obtain ⟨x, hx, hb⟩ := h1 s hs
  obtain ⟨y, hy, hc⟩ := h2 x.1 hb
  exact ⟨(y.1, x.2 ++ y.2), by rw [run_append, hx]; simp only [Option.bind_some, hy, Option.map_some], hc⟩

theorem leads_cons {e : Ev} {fs : List Ev} {a b c : List Bool} (h1 : Leads [e] a b) (h2 : Leads fs b c) : Leads (e :: fs) a c :=
  leads_append h1 h2

theorem leads_step {e : Ev} {a b : List Bool} (h : ∀ s, shape s = a → ∃ x, step s e = some x ∧ shape x.1 = b) : Leads [e] a b := by
  intro s hs
  obtain ⟨x, hx, hb⟩ := h s hs
  exact ⟨(x.1, x.2 ++ []), by simp only [run, hx], hb⟩

theorem leads_tok (t : Bool) (a : List Bool) : Leads [.tok t] a a := leads_step fun s h => ⟨_, rfl, h⟩
theorem leads_addStrict (a : List Bool) : Leads [.addStrict] a a := leads_step fun s h => ⟨_, rfl, h⟩
theorem leads_addAsync (a : List Bool) : Leads [.addAsync] a a := leads_step fun s h => ⟨_, rfl, h⟩
theorem leads_lbrace (a : List Bool) : Leads [.lbrace] a (false :: a) :=
  leads_step fun s h => ⟨_, rfl, by rw [← h]; rfl⟩
theorem leads_pushStrict (a : List Bool) : Leads [.pushStrict] a (false :: a) :=
  leads_step fun s h => ⟨_, rfl, by rw [← h]; rfl⟩

theorem shape_pop {s : Stk} {t u : Bool} {a : List Bool} (h : shape s = t :: u :: a) : shape (pop s) = u :: a := by
  obtain ⟨c, b⟩ := s
  cases b with
  | nil => simp [shape] at h
  | cons m r =>
    simp only [shape, List.map_cons, List.cons.injEq] at h
    simp only [pop, shape, h.2.1, h.2.2]

theorem leads_rbrace (t : Bool) (a : List Bool) : Leads [.rbrace] (false :: t :: a) (t :: a) :=
  leads_step fun s h => by
    have h0 : s.cur.tpl = false := by have := congrArg List.head? h; simpa [shape] using this
    exact ⟨_, by simp only [step, h0]; rfl, shape_pop h⟩

theorem leads_popMode (u t : Bool) (a : List Bool) : Leads [.popMode] (u :: t :: a) (t :: a) :=
  leads_step fun s h => ⟨_, rfl, shape_pop h⟩

theorem leads_thead (t : Bool) (a : List Bool) : Leads [.thead false] (t :: a) (true :: true :: t :: a) :=
  leads_step fun s h => ⟨_, rfl, by rw [← h]; rfl⟩
theorem leads_thead_fin (t : Bool) (a : List Bool) : Leads [.thead true] (t :: a) (t :: a) :=
  leads_step fun s h => ⟨_, rfl, h⟩
theorem leads_tcont (t : Bool) (a : List Bool) : Leads [.tcont false] (true :: true :: t :: a) (true :: true :: t :: a) :=
  leads_step fun s h => by
    have h0 : s.cur.tpl = true := by have := congrArg List.head? h; simpa [shape] using this
    exact ⟨_, by simp only [step, h0, if_true]; rfl, by
      simp only [chunkEnd, Bool.false_eq_true, if_false]
      show _ :: shape (pop s) = _
      rw [shape_pop h]; rfl⟩
theorem leads_tcont_fin (t : Bool) (a : List Bool) : Leads [.tcont true] (true :: true :: t :: a) (t :: a) :=
  leads_step fun s h => by
    have h0 : s.cur.tpl = true := by have := congrArg List.head? h; simpa [shape] using this
    exact ⟨_, by simp only [step, h0, if_true]; rfl, by
      simp only [chunkEnd, if_true]
      exact shape_pop (shape_pop h)⟩

theorem leads_split {e : Ev} {es : List Ev} {a b : List Bool} (h : Leads (e :: es) a b) :
    ∀ s, shape s = a → ∃ x y, step s e = some x ∧ run x.1 es = some y ∧ shape y.1 = b := by
  intro s hs
  obtain ⟨z, hz, hb⟩ := h s hs
  simp only [run] at hz
  cases h1 : step s e with
  | none => rw [h1] at hz; cases hz
  | some x =>
    rw [h1] at hz
    obtain ⟨s1, o1⟩ := x
    simp only at hz
    cases h2 : run s1 es with
    | none => rw [h2] at hz; cases hz
    | some y =>
      rw [h2] at hz
      obtain ⟨s2, o2⟩ := y
      simp only [Option.some.injEq] at hz
      subst hz
      exact ⟨_, _, rfl, h2, hb⟩

theorem shape_cur {s s' : Stk} (h : shape s = shape s') : s.cur.tpl = s'.cur.tpl := by
  have := congrArg List.head? h; simpa [shape] using this

theorem shape_below {s s' : Stk} (h : shape s = shape s') : s.below.map Mode.tpl = s'.below.map Mode.tpl := by
  have := congrArg List.tail h; simpa [shape] using this

theorem shape_pop_eq {s s' : Stk} (h : shape s = shape s') : shape (pop s) = shape (pop s') := by
  obtain ⟨c, b⟩ := s
  obtain ⟨c', b'⟩ := s'
  have := shape_below h
  cases b <;> cases b' <;> simp_all [shape, pop]

theorem shape_push_eq {s s' : Stk} (x t : Bool) (h : shape s = shape s') : shape (push x t s) = shape (push x t s') := by
  simp [shape, push, shape_cur h, shape_below h]

theorem shape_chunkEnd_eq {s s' : Stk} (f : Bool) (h : shape s = shape s') : shape (chunkEnd f s) = shape (chunkEnd f s') := by
  cases f
  · exact shape_push_eq _ _ h
  · exact shape_pop_eq h

theorem step_shape {s s' : Stk} (h : shape s = shape s') (e : Ev) :
    (step s e).map (fun x => shape x.1) = (step s' e).map (fun x => shape x.1) := by
  have hc := shape_cur h
  cases e with
  | tok t => simp [step, h]
  | lbrace => simp [step, shape_push_eq _ _ h]
  | rbrace => simp only [step, hc]; split <;> simp [shape_pop_eq h]
  | thead f => simp [step, shape_chunkEnd_eq f (shape_push_eq false true h)]
  | tcont f => simp only [step, hc]; split <;> simp [shape_chunkEnd_eq f (shape_pop_eq h)]
  | addStrict => simp only [step, Option.map_some, Option.some.injEq]; exact h
  | addAsync => simp only [step, Option.map_some, Option.some.injEq]; exact h
  | popMode => simp [step, shape_pop_eq h]
  | pushStrict => simp [step, shape_push_eq _ _ h]

theorem run_shape {s s' : Stk} (h : shape s = shape s') (es : List Ev) :
    (run s es).map (fun x => shape x.1) = (run s' es).map (fun x => shape x.1) := by
  induction es generalizing s s' with
  | nil => simp [run, h]
  | cons e es ih =>
    have h1 := step_shape h e
    simp only [run]
    cases hs : step s e with
    | none => rw [hs] at h1; cases hs' : step s' e with
      | none => rfl
      | some y => rw [hs'] at h1; simp at h1
    | some x =>
      rw [hs] at h1
      cases hs' : step s' e with
      | none => rw [hs'] at h1; simp at h1
      | some y =>
        rw [hs'] at h1
        have h2 := ih (s := x.1) (s' := y.1) (by simpa using h1)
        obtain ⟨x1, x2⟩ := x
        obtain ⟨y1, y2⟩ := y
        simp only at h2 ⊢
        cases hx : run x1 es with
        | none => cases hy : run y1 es with
          | none => rfl
          | some z => rw [hx, hy] at h2; simp at h2
        | some w => cases hy : run y1 es with
          | none => rw [hx, hy] at h2; simp at h2
          | some z => rw [hx, hy] at h2; simpa using h2

theorem step_addStrict (s : Stk) : step s .addStrict = some (⟨{ s.cur with strict := true }, s.below⟩, []) := rfl

theorem leads_addAfter {e : Ev} {es : List Ev} {a b : List Bool} (h : Leads (e :: es) a b) : Leads (e :: .addStrict :: es) a b := by
  intro s hs
  obtain ⟨x, y, h1, h2, h3⟩ := leads_split h s hs
  have h4 := run_shape (s := x.1) (s' := ⟨{ x.1.cur with strict := true }, x.1.below⟩) rfl es
  rw [h2] at h4
  cases h5 : run ⟨{ x.1.cur with strict := true }, x.1.below⟩ es with
  | none => rw [h5] at h4; simp at h4
  | some z =>
    rw [h5] at h4
    obtain ⟨x1, x2⟩ := x
    obtain ⟨z1, z2⟩ := z
    refine ⟨(z1, x2 ++ ([] ++ z2)), ?_, ?_⟩
    · simp only [run, h1, step_addStrict]; rw [h5]
    · rw [← h3]; simpa using h4.symm

mutual
theorem leads_evs (i : Item) (h : each noGen i) (t : Bool) (a : List Bool) : Leads (evs i) (t :: a) (t :: a) := by
  match i, h with
  | .tok _, _ => exact leads_tok _ _
  | .braces b, h =>
    rw [evs]
    exact leads_cons (leads_lbrace _) (leads_append (leads_evsL b h.2 _ _) (leads_rbrace _ _))
  | .tpl .nil, _ => rw [evs]; exact leads_thead_fin _ _
  | .tpl (.cons b r), h =>
    rw [evs]
    exact leads_cons (leads_thead _ _) (leads_append (leads_evsL b h.2.1 _ _) (leads_evsP r h.2.2 _ _))
  | .fn async gen dir ps b, h =>
    obtain ⟨hg, h1, h2⟩ := h
    have hg : gen = false := hg
    subst hg
    rw [evs]
    refine leads_cons (leads_tok _ _) (leads_append (b := t :: a) ?_ (leads_append (leads_evsL ps h1 _ _)
      (leads_cons (leads_lbrace _) (leads_append (leads_after dir b h2 _ _) (leads_rbrace _ _)))))
    cases async
    · exact leads_nil _
    · exact leads_addAsync _
  | .method async dir ps b, h =>
    rw [evs]
    exact leads_cons (leads_tok _ _) (leads_append (leads_evsL ps h.2.1 _ _)
      (leads_cons (leads_lbrace _) (leads_append (leads_after dir b h.2.2 _ _) (leads_rbrace _ _))))
  | .cls hd b, h =>
    rw [evs]
    exact leads_cons (leads_tok _ _) (leads_cons (leads_pushStrict _) (leads_append (leads_evsL hd h.2.1 _ _)
      (leads_cons (leads_lbrace _) (leads_cons (leads_addStrict _) (leads_append (leads_evsL b h.2.2 _ _)
        (leads_cons (leads_rbrace _ _) (leads_popMode _ _ _)))))))
theorem leads_evsL (is : Items) (h : eachL noGen is) (t : Bool) (a : List Bool) : Leads (evsL is) (t :: a) (t :: a) := by
  match is, h with
  | .nil, _ => exact leads_nil _
  | .cons i r, h => rw [evsL]; exact leads_append (leads_evs i h.1 _ _) (leads_evsL r h.2 _ _)
theorem leads_evsP (ps : Parts) (h : eachP noGen ps) (t : Bool) (a : List Bool) :
    Leads (evsP ps) (true :: true :: t :: a) (t :: a) := by
  match ps, h with
  | .nil, _ => rw [evsP]; exact leads_tcont_fin _ _
  | .cons b r, h =>
    rw [evsP]
    exact leads_cons (leads_tcont _ _) (leads_append (leads_evsL b h.1 _ _) (leads_evsP r h.2 _ _))
theorem leads_after (dir : Bool) (is : Items) (h : eachL noGen is) (t : Bool) (a : List Bool) :
    Leads (afterDirective dir (evsL is)) (t :: a) (t :: a) := by
  have h1 := leads_evsL is h t a
  unfold afterDirective
  cases dir with
  | false => simpa using h1
  | true =>
    simp only [if_true]
    cases he : evsL is with
    | nil => exact leads_tok _ _
    | cons e r => rw [he] at h1; exact leads_cons (leads_tok _ _) (leads_addAfter h1)
end

/-! ## What the tokens are read as -/

/-- `R` holds pairwise. -/
inductive All2 {α β : Type} (R : α → β → Prop) : List α → List β → Prop where
  | nil : All2 R [] []
  | cons {a b l m} (h : R a b) (t : All2 R l m) : All2 R (a :: l) (b :: m)

theorem All2.append {α β : Type} {R : α → β → Prop} {a : List α} {b : List β} {c : List α} {d : List β}
    (h1 : All2 R a b) (h2 : All2 R c d) : All2 R (a ++ c) (b ++ d) := by
  induction h1 with
  | nil => exact h2
  | cons h _ ih => exact .cons h ih

/-- The mode agrees with the place in the program: strict, and async (if `A`). -/
def Fits (A : Bool) (m : Mode) (st as : Bool) : Prop := m.strict = st ∧ (A = true → as = true → m.async = true)

/-- What was read agrees with the place. -/
def Agrees (A : Bool) (o w : Bool × Bool) : Prop := o.1 = w.1 ∧ (A = true → w.2 = true → o.2 = true)

/-- The events read what `w` says and leave the stack as it was; the current mode can become async. -/
def Reads (A : Bool) (es : List Ev) (st as : Bool) (w : List (Bool × Bool)) : Prop :=
  ∀ m below, Fits A m st as → ∃ m' o, run ⟨m, below⟩ es = some (⟨m', below⟩, o) ∧ m'.tpl = m.tpl ∧ Fits A m' st as ∧
    (m.async = true → m'.async = true) ∧ All2 (Agrees A) o w

/-- The same with no claim about the current mode afterwards. -/
def Inner (A : Bool) (es : List Ev) (st as : Bool) (w : List (Bool × Bool)) : Prop :=
  ∀ m below, Fits A m st as → ∃ m' o, run ⟨m, below⟩ es = some (⟨m', below⟩, o) ∧ m'.tpl = m.tpl ∧ All2 (Agrees A) o w

theorem Reads.inner {A st as : Bool} {es : List Ev} {w : List (Bool × Bool)} (h : Reads A es st as w) :
    Inner A es st as w := by
  intro m below hf
  obtain ⟨m', o, h1, h2, _, _, h3⟩ := h m below hf
  exact ⟨m', o, h1, h2, h3⟩

theorem reads_nil (A st as : Bool) : Reads A [] st as [] := fun m _ hf => ⟨m, [], rfl, rfl, hf, id, .nil⟩

theorem reads_append {A st as : Bool} {es fs : List Ev} {w v : List (Bool × Bool)} (h1 : Reads A es st as w)
    (h2 : Reads A fs st as v) : Reads A (es ++ fs) st as (w ++ v) := by
  intro m below hf
  obtain ⟨m1, o1, a1, a2, a3, a4, a5⟩ := h1 m below hf
  obtain ⟨m2, o2, b1, b2, b3, b4, b5⟩ := h2 m1 below a3
  refine ⟨m2, o1 ++ o2, ?_, b2.trans a2, b3, fun h => b4 (a4 h), a5.append b5⟩
  rw [run_append, a1]; simp only [Option.bind_some, b1, Option.map_some]

theorem reads_tok (A st as t : Bool) : Reads A [.tok t] st as (if t then [(st, as)] else []) := by
  intro m below hf
  refine ⟨m, (if t then [(m.strict, m.async)] else []) ++ [], rfl, rfl, hf, id, ?_⟩
  cases t
  · exact .nil
  · exact .cons hf .nil

theorem reads_braces {A st as : Bool} {es : List Ev} {w : List (Bool × Bool)} (h : Inner A es st as w) :
    Reads A (.lbrace :: (es ++ [.rbrace])) st as w := by
  intro m below hf
  obtain ⟨m1, o1, a1, a2, a3⟩ := h ⟨m.strict, m.async, false⟩ (m :: below) hf
  refine ⟨m, o1, ?_, rfl, hf, id, a3⟩
  have e1 : step ⟨m, below⟩ .lbrace = some (⟨⟨m.strict, m.async, false⟩, m :: below⟩, []) := by simp [step, push]
  have e2 : run ⟨m1, m :: below⟩ [.rbrace] = some (⟨m, below⟩, []) := by
    have : m1.tpl = false := a2
    simp [run, step, this, pop]
  simp only [run, e1]
  rw [run_append, a1]
  simp only [Option.bind_some, e2, Option.map_some]
  simp

theorem reads_cons_tok {A st as : Bool} {es : List Ev} {w : List (Bool × Bool)} (h : Reads A es st as w) :
    Reads A (.tok false :: es) st as w := reads_append (reads_tok A st as false) h

mutual
theorem where_len (i : Item) (st as st' as' : Bool) : (where_ st as i).length = (where_ st' as' i).length := by
  match i with
  | .tok t => cases t <;> rfl
  | .braces b => exact whereL_len b _ _ _ _
  | .tpl ps => exact whereP_len ps _ _ _ _
  | .fn a g d ps b =>
    simp only [where_, List.length_append]
    rw [whereL_len ps _ a (st' || d) a, whereL_len b _ a (st' || d) a]
  | .method a d ps b =>
    simp only [where_, List.length_append]
    rw [whereL_len ps _ a (st' || d) a, whereL_len b _ a (st' || d) a]
  | .cls h b =>
    simp only [where_, List.length_append]
    rw [whereL_len h _ as true as', whereL_len b _ as true as']
theorem whereL_len (is : Items) (st as st' as' : Bool) : (whereL st as is).length = (whereL st' as' is).length := by
  match is with
  | .nil => rfl
  | .cons i r =>
    simp only [whereL, List.length_append]
    rw [where_len i st as st' as', whereL_len r st as st' as']
theorem whereP_len (ps : Parts) (st as st' as' : Bool) : (whereP st as ps).length = (whereP st' as' ps).length := by
  match ps with
  | .nil => rfl
  | .cons i r =>
    simp only [whereP, List.length_append]
    rw [whereL_len i st as st' as', whereP_len r st as st' as']
end

/-! The directive. -/

theorem evs_plain {b : Items} (h : plainStart b) : evsL b = [] ∨ ∃ r, evsL b = .tok false :: r := by
  match b, h with
  | .nil, _ => exact .inl rfl
  | .cons (.tok false) _, _ => exact .inr ⟨_, rfl⟩
  | .cons (.fn _ _ _ _ _) _, _ => exact .inr ⟨_, by rw [evsL, evs]; rfl⟩
  | .cons (.method _ _ _ _) _, _ => exact .inr ⟨_, by rw [evsL, evs]; rfl⟩
  | .cons (.cls _ _) _, _ => exact .inr ⟨_, by rw [evsL, evs]; rfl⟩

theorem run_tok_false (s : Stk) (es : List Ev) : run s (.tok false :: es) = run s es := by
  simp only [run, step]
  cases run s es <;> simp

theorem run_addStrict (m : Mode) (below : List Mode) (es : List Ev) :
    run ⟨m, below⟩ (.addStrict :: es) = run ⟨{ m with strict := true }, below⟩ es := by
  simp only [run, step_addStrict]
  cases run ⟨{ m with strict := true }, below⟩ es <;> simp

theorem run_addAsync (m : Mode) (below : List Mode) (es : List Ev) :
    run ⟨m, below⟩ (.addAsync :: es) = run ⟨{ m with async := true }, below⟩ es := by
  have : step ⟨m, below⟩ .addAsync = some (⟨{ m with async := true }, below⟩, []) := rfl
  simp only [run, this]
  cases run ⟨{ m with async := true }, below⟩ es <;> simp

theorem inner_after {A st as dir : Bool} {b : Items} (h : ∀ st, Reads A (evsL b) st as (whereL st as b))
    (hp : dir = true → plainStart b) : Inner A (afterDirective dir (evsL b)) st as (whereL (st || dir) as b) := by
  cases dir with
  | false => simpa [afterDirective] using (h st).inner
  | true =>
    intro m below hf
    simp only [afterDirective, if_true, Bool.or_true]
    · have h1 : run ⟨m, below⟩ (match evsL b with
          | [] => [.tok false]
          | e :: r => .tok false :: e :: .addStrict :: r) =
          (match evsL b with
          | [] => some (⟨m, below⟩, [])
          | _ => run ⟨{ m with strict := true }, below⟩ (evsL b)) := by
        rcases evs_plain (hp rfl) with he | ⟨r, he⟩
        · rw [he]; rfl
        · rw [he]; simp only [run_tok_false, run_addStrict]
      obtain ⟨m', o, a1, a2, _, _, a3⟩ := h true { m with strict := true } below ⟨rfl, hf.2⟩
      rcases evs_plain (hp rfl) with he | ⟨r, he⟩
      · rw [he] at h1 a1 ⊢
        simp only [run, Option.some.injEq, Prod.mk.injEq] at a1
        rw [← a1.2] at a3
        exact ⟨m, [], h1, rfl, a3⟩
      · rw [he] at h1 a1 ⊢
        exact ⟨m', o, by rw [h1]; exact a1, a2, a3⟩

theorem reads_fn {A st as async dir : Bool} {ps b : Items} (hps : ∀ st as, Reads A (evsL ps) st as (whereL st as ps))
    (hb : ∀ st as, Reads A (evsL b) st as (whereL st as b))
    (hd : dir = true → whereL false async ps = [] ∧ plainStart b) (pre : List Ev)
    (hpre : pre = (if async then [.addAsync] else []) ∨ (pre = [] ∧ (A = true → async = false))) :
    Reads A (pre ++ (evsL ps ++ (.lbrace :: (afterDirective dir (evsL b) ++ [.rbrace])))) st as
      (whereL (st || dir) async ps ++ whereL (st || dir) async b) := by
  have hw : whereL (st || dir) async ps = whereL st async ps := by
    cases dir with
    | false => simp
    | true =>
      have h0 := (hd rfl).1
      have h1 := whereL_len ps (st || true) async false async
      have h2 := whereL_len ps st async false async
      rw [h0] at h1 h2
      rw [List.eq_nil_of_length_eq_zero h1, List.eq_nil_of_length_eq_zero h2]
  rw [hw]
  have hr : Reads A (evsL ps ++ (.lbrace :: (afterDirective dir (evsL b) ++ [.rbrace]))) st async
      (whereL st async ps ++ whereL (st || dir) async b) :=
    reads_append (hps _ _) (reads_braces (inner_after (fun st => hb st async) (fun h => (hd h).2)))
  intro m below hf
  have key : ∀ m1 : Mode, Fits A m1 st async → (m.async = true → m1.async = true) → m1.tpl = m.tpl →
      run ⟨m, below⟩ (pre ++ (evsL ps ++ (.lbrace :: (afterDirective dir (evsL b) ++ [.rbrace])))) =
        run ⟨m1, below⟩ (evsL ps ++ (.lbrace :: (afterDirective dir (evsL b) ++ [.rbrace]))) →
      ∃ m' o, run ⟨m, below⟩ (pre ++ (evsL ps ++ (.lbrace :: (afterDirective dir (evsL b) ++ [.rbrace])))) =
        some (⟨m', below⟩, o) ∧ m'.tpl = m.tpl ∧ Fits A m' st as ∧ (m.async = true → m'.async = true) ∧
        All2 (Agrees A) o (whereL st async ps ++ whereL (st || dir) async b) := by
    intro m1 h1 h2 h3 h4
    obtain ⟨m', o, a1, a2, a3, a4, a5⟩ := hr m1 below h1
    exact ⟨m', o, by rw [h4, a1], a2.trans h3, ⟨a3.1, fun x y => a4 (h2 (hf.2 x y))⟩, fun x => a4 (h2 x), a5⟩
  rcases hpre with rfl | ⟨rfl, ha⟩
  · cases async with
    | false => exact key m ⟨hf.1, fun _ h => by simp at h⟩ id rfl rfl
    | true => exact key { m with async := true } ⟨hf.1, fun _ _ => rfl⟩ (fun _ => rfl) rfl (run_addAsync _ _ _)
  · exact key m ⟨hf.1, fun x y => by rw [ha x] at y; simp at y⟩ id rfl rfl

theorem reads_cls {A st as : Bool} {h b : Items} (hh : ∀ st as, Reads A (evsL h) st as (whereL st as h))
    (hb : ∀ st as, Reads A (evsL b) st as (whereL st as b)) :
    Reads A (.pushStrict :: (evsL h ++ (.lbrace :: .addStrict :: (evsL b ++ [.rbrace, .popMode])))) st as
      (whereL true as h ++ whereL true as b) := by
  have hi : Inner A (.addStrict :: evsL b) true as (whereL true as b) := by
    intro m below hf
    rw [run_addStrict]
    obtain ⟨m', o, a1, a2, _, _, a3⟩ := hb true as { m with strict := true } below ⟨rfl, hf.2⟩
    exact ⟨m', o, a1, a2, a3⟩
  have hr := reads_append (hh true as) (reads_braces hi)
  intro m below hf
  obtain ⟨m', o, a1, a2, a3, a4, a5⟩ := hr ⟨true, m.async, false⟩ (m :: below) ⟨rfl, hf.2⟩
  refine ⟨m, o, ?_, rfl, hf, id, a5⟩
  have e0 : Ev.pushStrict :: (evsL h ++ (.lbrace :: .addStrict :: (evsL b ++ [.rbrace, .popMode]))) =
      .pushStrict :: ((evsL h ++ (.lbrace :: (.addStrict :: evsL b ++ [.rbrace]))) ++ [.popMode]) := by simp
  have e1 : step ⟨m, below⟩ .pushStrict = some (⟨⟨true, m.async, false⟩, m :: below⟩, []) := by simp [step, push]
  have e2 : run ⟨m', m :: below⟩ [.popMode] = some (⟨m, below⟩, []) := by simp [run, step, pop]
  rw [e0]
  simp only [run, e1]
  rw [run_append, a1]
  simp only [Option.bind_some, e2, Option.map_some]
  simp

/-- The hypotheses on a piece. -/
def Ok (A : Bool) (i : Item) : Prop := noGen i ∧ plainDirective i ∧ (A = true → noAsyncMethod i)

/-- The rest of a template after a substitution. -/
def ReadsP (A : Bool) (es : List Ev) (st as : Bool) (w : List (Bool × Bool)) : Prop :=
  ∀ m1 m2 m below, m1.tpl = true → m2.tpl = true → Fits A m2 st as →
    ∃ o, run ⟨m1, m2 :: m :: below⟩ es = some (⟨m, below⟩, o) ∧ All2 (Agrees A) o w

mutual
theorem reads_evs (A : Bool) (i : Item) (h : each (Ok A) i) (st as : Bool) : Reads A (evs i) st as (where_ st as i) := by
  match i, h with
  | .tok t, _ => exact reads_tok A st as t
  | .braces b, h => rw [evs]; exact reads_braces (reads_evsL A b h.2 st as).inner
  | .tpl .nil, _ =>
    intro m below hf
    exact ⟨m, [], by simp [evs, run, step, push, pop, chunkEnd], rfl, hf, id, by simp only [where_, whereP]; exact .nil⟩
  | .tpl (.cons b r), h =>
    intro m below hf
    rw [evs, where_, whereP]
    obtain ⟨m1, o1, a1, a2, a3, a4, a5⟩ := reads_evsL A b h.2.1 st as ⟨m.strict, m.async, true⟩
      (⟨m.strict, m.async, true⟩ :: m :: below) hf
    obtain ⟨o2, b1, b2⟩ := reads_evsP A r h.2.2 st as m1 ⟨m.strict, m.async, true⟩ m below a2 rfl hf
    refine ⟨m, o1 ++ o2, ?_, rfl, hf, id, a5.append b2⟩
    have e1 : step ⟨m, below⟩ (.thead false) =
        some (⟨⟨m.strict, m.async, true⟩, ⟨m.strict, m.async, true⟩ :: m :: below⟩, []) := by simp [step, push, chunkEnd]
    simp only [run, e1]
    rw [run_append, a1]
    simp only [Option.bind_some, b1, Option.map_some]
    simp
  | .fn async gen dir ps b, h =>
    obtain ⟨⟨hg, hd, _⟩, h1, h2⟩ := h
    have hg : gen = false := hg
    subst hg
    rw [evs, where_]
    refine reads_cons_tok (reads_fn (fun st as => reads_evsL A ps h1 st as) (fun st as => reads_evsL A b h2 st as)
      ?_ _ (.inl rfl))
    intro e
    subst e
    exact hd
  | .method async dir ps b, h =>
    obtain ⟨⟨_, hd, ha⟩, h1, h2⟩ := h
    rw [evs, where_]
    refine reads_cons_tok (reads_fn (fun st as => reads_evsL A ps h1 st as) (fun st as => reads_evsL A b h2 st as)
      ?_ [] (.inr ⟨rfl, ha⟩))
    intro e
    subst e
    exact hd
  | .cls hd b, h =>
    rw [evs, where_]
    exact reads_cons_tok (reads_cls (fun st as => reads_evsL A hd h.2.1 st as) (fun st as => reads_evsL A b h.2.2 st as))
theorem reads_evsL (A : Bool) (is : Items) (h : eachL (Ok A) is) (st as : Bool) :
    Reads A (evsL is) st as (whereL st as is) := by
  match is, h with
  | .nil, _ => exact reads_nil _ _ _
  | .cons i r, h => rw [evsL, whereL]; exact reads_append (reads_evs A i h.1 st as) (reads_evsL A r h.2 st as)
theorem reads_evsP (A : Bool) (ps : Parts) (h : eachP (Ok A) ps) (st as : Bool) :
    ReadsP A (evsP ps) st as (whereP st as ps) := by
  match ps, h with
  | .nil, _ =>
    intro m1 m2 m below h1 h2 hf
    exact ⟨[], by simp [evsP, run, step, h1, pop, chunkEnd], by rw [whereP]; exact .nil⟩
  | .cons b r, h =>
    intro m1 m2 m below h1 h2 hf
    rw [evsP, whereP]
    obtain ⟨m3, o1, a1, a2, a3, a4, a5⟩ := reads_evsL A b h.1 st as ⟨m2.strict, m2.async, true⟩ (m2 :: m :: below) hf
    obtain ⟨o2, b1, b2⟩ := reads_evsP A r h.2 st as m3 m2 m below a2 h2 hf
    refine ⟨o1 ++ o2, ?_, a5.append b2⟩
    have e1 : step ⟨m1, m2 :: m :: below⟩ (.tcont false) =
        some (⟨⟨m2.strict, m2.async, true⟩, m2 :: m :: below⟩, []) := by simp [step, push, chunkEnd, h1, pop]
    simp only [run, e1]
    rw [run_append, a1]
    simp only [Option.bind_some, b1, Option.map_some]
    simp
end

mutual
theorem each_mono {P Q : Item → Prop} (f : ∀ i, P i → Q i) (i : Item) (h : each P i) : each Q i := by
  match i, h with
  | .tok _, h => exact f _ h
  | .braces b, h => exact ⟨f _ h.1, eachL_mono f b h.2⟩
  | .tpl ps, h => exact ⟨f _ h.1, eachP_mono f ps h.2⟩
  | .fn _ _ _ ps b, h => exact ⟨f _ h.1, eachL_mono f ps h.2.1, eachL_mono f b h.2.2⟩
  | .method _ _ ps b, h => exact ⟨f _ h.1, eachL_mono f ps h.2.1, eachL_mono f b h.2.2⟩
  | .cls ps b, h => exact ⟨f _ h.1, eachL_mono f ps h.2.1, eachL_mono f b h.2.2⟩
theorem eachL_mono {P Q : Item → Prop} (f : ∀ i, P i → Q i) (is : Items) (h : eachL P is) : eachL Q is := by
  match is, h with
  | .nil, _ => trivial
  | .cons i r, h => exact ⟨each_mono f i h.1, eachL_mono f r h.2⟩
theorem eachP_mono {P Q : Item → Prop} (f : ∀ i, P i → Q i) (ps : Parts) (h : eachP P ps) : eachP Q ps := by
  match ps, h with
  | .nil, _ => trivial
  | .cons i r, h => exact ⟨eachL_mono f i h.1, eachP_mono f r h.2⟩
end

mutual
theorem each_and {P Q : Item → Prop} (i : Item) (h : each P i) (h' : each Q i) : each (fun i => P i ∧ Q i) i := by
  match i, h, h' with
  | .tok _, h, h' => exact ⟨h, h'⟩
  | .braces b, h, h' => exact ⟨⟨h.1, h'.1⟩, eachL_and' b h.2 h'.2⟩
  | .tpl ps, h, h' => exact ⟨⟨h.1, h'.1⟩, eachP_and ps h.2 h'.2⟩
  | .fn _ _ _ ps b, h, h' => exact ⟨⟨h.1, h'.1⟩, eachL_and' ps h.2.1 h'.2.1, eachL_and' b h.2.2 h'.2.2⟩
  | .method _ _ ps b, h, h' => exact ⟨⟨h.1, h'.1⟩, eachL_and' ps h.2.1 h'.2.1, eachL_and' b h.2.2 h'.2.2⟩
  | .cls ps b, h, h' => exact ⟨⟨h.1, h'.1⟩, eachL_and' ps h.2.1 h'.2.1, eachL_and' b h.2.2 h'.2.2⟩
theorem eachL_and' {P Q : Item → Prop} (is : Items) (h : eachL P is) (h' : eachL Q is) : eachL (fun i => P i ∧ Q i) is := by
  match is, h, h' with
  | .nil, _, _ => trivial
  | .cons i r, h, h' => exact ⟨each_and i h.1 h'.1, eachL_and' r h.2 h'.2⟩
theorem eachP_and {P Q : Item → Prop} (ps : Parts) (h : eachP P ps) (h' : eachP Q ps) : eachP (fun i => P i ∧ Q i) ps := by
  match ps, h, h' with
  | .nil, _, _ => trivial
  | .cons i r, h, h' => exact ⟨eachL_and' i h.1 h'.1, eachP_and r h.2 h'.2⟩
end

theorem eachL_and (is : Items) (h : eachL noGen is) (h' : eachL plainDirective is) : eachL (Ok false) is :=
  eachL_mono (fun _ h => ⟨h.1, h.2, fun h => by simp at h⟩) is (eachL_and' is h h')

theorem eachL_and3 (is : Items) (h : eachL noGen is) (h' : eachL plainDirective is) (h'' : eachL noAsyncMethod is) :
    eachL (Ok true) is :=
  eachL_mono (fun _ h => ⟨h.1, h.2.1, fun _ => h.2.2⟩) is (eachL_and' is h (eachL_and' is h' h''))

theorem read_agrees (A strict dir : Bool) (p : Items) (h : eachL (Ok A) p) (hd : dir = true → plainStart p) :
    ∃ o, read strict dir p = some o ∧ All2 (Agrees A) o (whereL (strict || dir) false p) := by
  obtain ⟨m', o, h1, _, h2⟩ := inner_after (st := strict) (as := false) (dir := dir) (fun st => reads_evsL A p h st false) hd
    { strict := strict } [] ⟨rfl, fun _ h => by simp at h⟩
  exact ⟨o, by rw [read, h1]; rfl, h2⟩

/-! Programs without async functions. -/

theorem mem_after {dir : Bool} {e : Ev} {es : List Ev} (h : e ∈ afterDirective dir es) :
    e ∈ es ∨ e = .tok false ∨ e = .addStrict := by
  cases dir with
  | false => exact .inl (by simpa [afterDirective] using h)
  | true =>
    cases es with
    | nil => simp [afterDirective] at h; exact .inr (.inl h)
    | cons a r =>
      simp only [afterDirective, if_true, List.mem_cons] at h
      rcases h with h | h | h | h
      · exact .inr (.inl h)
      · exact .inl (by simp [h])
      · exact .inr (.inr h)
      · exact .inl (by simp [h])

theorem noAdd_after {dir : Bool} {es : List Ev} (h : Ev.addAsync ∉ es) : Ev.addAsync ∉ afterDirective dir es := by
  intro h1
  rcases mem_after h1 with h2 | h2 | h2
  · exact h h2
  · cases h2
  · cases h2

mutual
theorem noAdd_evs (i : Item) (h : each noAsync i) : Ev.addAsync ∉ evs i := by
  match i, h with
  | .tok _, _ => simp [evs]
  | .braces b, h => simp [evs, noAdd_evsL b h.2]
  | .tpl .nil, _ => simp [evs]
  | .tpl (.cons b r), h => simp [evs, noAdd_evsL b h.2.1, noAdd_evsP r h.2.2]
  | .fn async gen dir ps b, h =>
    have h0 : async = false := h.1
    subst h0
    have := noAdd_after (dir := dir) (noAdd_evsL b h.2.2)
    cases gen <;> simp [evs, noAdd_evsL ps h.2.1, this]
  | .method async dir ps b, h =>
    have := noAdd_after (dir := dir) (noAdd_evsL b h.2.2)
    simp [evs, noAdd_evsL ps h.2.1, this]
  | .cls ps b, h => simp [evs, noAdd_evsL ps h.2.1, noAdd_evsL b h.2.2]
theorem noAdd_evsL (is : Items) (h : eachL noAsync is) : Ev.addAsync ∉ evsL is := by
  match is, h with
  | .nil, _ => simp [evsL]
  | .cons i r, h => simp [evsL, noAdd_evs i h.1, noAdd_evsL r h.2]
theorem noAdd_evsP (ps : Parts) (h : eachP noAsync ps) : Ev.addAsync ∉ evsP ps := by
  match ps, h with
  | .nil, _ => simp [evsP]
  | .cons b r, h => simp [evsP, noAdd_evsL b h.1, noAdd_evsP r h.2]
end

def noneAsync (s : Stk) : Prop := s.cur.async = false ∧ ∀ m ∈ s.below, m.async = false

theorem noneAsync_pop {s : Stk} (h : noneAsync s) : noneAsync (pop s) := by
  obtain ⟨c, b⟩ := s
  cases b with
  | nil => exact ⟨rfl, by simp [pop]⟩
  | cons m r => exact ⟨h.2 m (by simp), fun x hx => h.2 x (by simp only [pop] at hx; simp [hx])⟩

theorem noneAsync_push {s : Stk} (x t : Bool) (h : noneAsync s) : noneAsync (push x t s) :=
  ⟨h.1, fun m hm => by
    simp only [push, List.mem_cons] at hm
    rcases hm with rfl | hm
    · exact h.1
    · exact h.2 m hm⟩

theorem noneAsync_chunkEnd {s : Stk} (f : Bool) (h : noneAsync s) : noneAsync (chunkEnd f s) := by
  cases f
  · exact noneAsync_push _ _ h
  · exact noneAsync_pop h

theorem step_noneAsync {s : Stk} (h : noneAsync s) {e : Ev} (he : e ≠ .addAsync) {x : Stk × List (Bool × Bool)}
    (hx : step s e = some x) : noneAsync x.1 ∧ ∀ o ∈ x.2, o.2 = false := by
  cases e with
  | tok t => simp only [step, Option.some.injEq] at hx; subst hx; refine ⟨h, ?_⟩; cases t <;> simp [h.1]
  | lbrace => simp only [step, Option.some.injEq] at hx; subst hx; exact ⟨noneAsync_push _ _ h, by simp⟩
  | rbrace =>
    simp only [step] at hx
    split at hx
    · cases hx
    · simp only [Option.some.injEq] at hx; subst hx; exact ⟨noneAsync_pop h, by simp⟩
  | thead f =>
    simp only [step, Option.some.injEq] at hx; subst hx
    exact ⟨noneAsync_chunkEnd f (noneAsync_push _ _ h), by simp⟩
  | tcont f =>
    simp only [step] at hx
    split at hx
    · simp only [Option.some.injEq] at hx; subst hx; exact ⟨noneAsync_chunkEnd f (noneAsync_pop h), by simp⟩
    · cases hx
  | addStrict => simp only [step, Option.some.injEq] at hx; subst hx; exact ⟨h, by simp⟩
  | addAsync => exact absurd rfl he
  | popMode => simp only [step, Option.some.injEq] at hx; subst hx; exact ⟨noneAsync_pop h, by simp⟩
  | pushStrict => simp only [step, Option.some.injEq] at hx; subst hx; exact ⟨noneAsync_push _ _ h, by simp⟩

theorem run_noneAsync {es : List Ev} {s : Stk} (h : noneAsync s) (he : Ev.addAsync ∉ es) {x : Stk × List (Bool × Bool)}
    (hx : run s es = some x) : ∀ o ∈ x.2, o.2 = false := by
  induction es generalizing s x with
  | nil => simp only [run, Option.some.injEq] at hx; subst hx; simp
  | cons e es ih =>
    simp only [List.mem_cons, not_or] at he
    simp only [run] at hx
    cases hs : step s e with
    | none => rw [hs] at hx; cases hx
    | some y =>
      rw [hs] at hx
      obtain ⟨s1, o1⟩ := y
      have h1 := step_noneAsync h (fun h => he.1 h.symm) hs
      simp only at hx
      cases hr : run s1 es with
      | none => rw [hr] at hx; cases hx
      | some z =>
        rw [hr] at hx
        simp only [Option.some.injEq] at hx
        subst hx
        intro o ho
        rcases List.mem_append.mp ho with ho | ho
        · exact h1.2 o ho
        · exact ih h1.1 he.2 hr o ho

end Mole.Lexer.ModeUse
