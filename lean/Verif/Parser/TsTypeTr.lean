import Verif.Parser.TsTypeSpec

/-! # Rules for proofs about the functions that read types, and the trees of unions (for C80) -/

namespace Mole.Parser.TsType
variable {X : Type} {α β : Type}

/-- If it ends, this holds of what it gives; if it stops because of the depth, the other. -/
def Tr (m : M α) (s : List Tok) (Q : α → List Tok → Prop) (D : Prop) : Prop :=
  match m s with
  | .ok a r => Q a r
  | .fuel => D
  | _ => True

theorem tr_bind {m : M α} {f : α → M β} {s : List Tok} {Q : β → List Tok → Prop} {D : Prop}
    (h : Tr m s (fun a r => Tr (f a) r Q D) D) : Tr (m >>= f) s Q D := by
  unfold Tr at h ⊢
  change match (match m s with | .ok a r => f a r | .err => .err | .panic => .panic | .fuel => .fuel) with
    | .ok a r => Q a r | .fuel => D | _ => True
  cases hm : m s <;> simp only [hm] at h ⊢ <;> exact h

theorem tr_pure {a : α} {s : List Tok} {Q : α → List Tok → Prop} {D : Prop} (h : Q a s) : Tr (pure a : M α) s Q D := h

theorem tr_fail {s : List Tok} {Q : α → List Tok → Prop} {D : Prop} : Tr (fail : M α) s Q D := trivial

theorem tr_crash {s : List Tok} {Q : α → List Tok → Prop} {D : Prop} : Tr (crash : M α) s Q D := trivial

theorem tr_mono {m : M α} {s : List Tok} {Q Q' : α → List Tok → Prop} {D D' : Prop} (h : Tr m s Q D) (hq : ∀ a r, Q a r → Q' a r)
    (hd : D → D') : Tr m s Q' D' := by
  unfold Tr at h ⊢
  cases hm : m s <;> simp only [hm] at h ⊢
  · exact hq _ _ h
  · exact hd h

theorem tr_peek {s : List Tok} {Q : Tok → List Tok → Prop} {D : Prop} (h : Q (hd s) s) : Tr peek s Q D := h

theorem tr_peek2 {s : List Tok} {Q : Tok → List Tok → Prop} {D : Prop} (h : Q (hd s.tail) s) : Tr peek2 s Q D := h

theorem of_hd {s : List Tok} {k : K} (h : (hd s).k = k) (hk : k ≠ .eof) : ∃ nl s', s = ⟨k, nl⟩ :: s' := by
  cases s with
  | nil => exact absurd h.symm hk
  | cons a l => exact ⟨a.nl, l, by cases a; simp_all [hd]⟩

theorem tr_next {s : List Tok} {k : K} {Q : Unit → List Tok → Prop} {D : Prop} (hk : (hd s).k = k) (hne : k ≠ .eof)
    (h : ∀ nl s', s = ⟨k, nl⟩ :: s' → Q () s') : Tr next s Q D := by
  obtain ⟨nl, s', rfl⟩ := of_hd hk hne
  exact h nl s' rfl

theorem tr_must {s : List Tok} {k : K} {Q : Unit → List Tok → Prop} {D : Prop} (hne : k ≠ .eof)
    (h : ∀ nl s', s = ⟨k, nl⟩ :: s' → Q () s') : Tr (must k) s Q D := by
  by_cases hk : (hd s).k = k
  · obtain ⟨nl, s', rfl⟩ := of_hd hk hne
    simp only [Tr, must, hd, List.headD_cons, if_true, List.tail_cons]
    exact h nl s' rfl
  · simp [Tr, must, hk]

theorem tr_call {f : List Tok → Option (X × List Tok)} {s : List Tok} {Q : X → List Tok → Prop} {D : Prop}
    (h : ∀ x r, f s = some (x, r) → Q x r) : Tr (call f) s Q D := by
  unfold Tr call
  cases hf : f s with
  | none => trivial
  | some p => exact h p.1 p.2 hf

theorem tr_ite {c : Prop} [Decidable c] {m n : M α} {s : List Tok} {Q : α → List Tok → Prop} {D : Prop} (h1 : c → Tr m s Q D)
    (h2 : ¬c → Tr n s Q D) : Tr (if c then m else n) s Q D := by
  split
  · exact h1 ‹_›
  · exact h2 ‹_›

/-! ## Operators -/

theorem isOp_iff {k : K} : isOp k = true ↔ k = .bar ∨ k = .amp := by simp [isOp]

theorem op_pcd {k : K} (h : isOp k = true) : (k = .bar ∧ pcd k = 8) ∨ (k = .amp ∧ pcd k = 10) := by
  rcases isOp_iff.mp h with rfl | rfl
  · exact .inl ⟨rfl, rfl⟩
  · exact .inr ⟨rfl, rfl⟩

/-! ## Trees -/

/-- The groups after an operator. -/
def rest : List (Bool × Nd X) → List (List (Nd X))
  | [] => []
  | (_, m) :: l => groups m l

theorem groups_ne (a : Nd X) (ms : List (Bool × Nd X)) : ∃ g gs, groups a ms = g :: gs ∧ ∃ t, g = a :: t := by
  induction ms generalizing a with
  | nil => exact ⟨_, _, rfl, _, rfl⟩
  | cons m l ih =>
    obtain ⟨o, m⟩ := m
    cases o with
    | true => exact ⟨_, _, rfl, _, rfl⟩
    | false =>
      obtain ⟨g, gs, h, -⟩ := ih m
      exact ⟨a :: g, gs, by simp [groups, h], _, rfl⟩

/-- A group, then what does not begin with `&`. -/
theorem groups_and (a : Nd X) (es : List (Nd X)) (ms : List (Bool × Nd X)) (h : ∀ m l, ms ≠ (false, m) :: l) :
    groups a (es.map (fun e => (false, e)) ++ ms) = (a :: es) :: rest ms := by
  induction es generalizing a with
  | nil =>
    cases ms with
    | nil => rfl
    | cons m l =>
      obtain ⟨o, m⟩ := m
      cases o with
      | true => rfl
      | false => exact absurd rfl (h m l)
  | cons e es ih => simp [groups, ih e]

theorem tree_and (p : Nat) (a : Nd X) (es : List (Nd X)) (ms : List (Bool × Nd X)) (h : ∀ m l, ms ≠ (false, m) :: l) :
    tree p a (es.map (fun e => (false, e)) ++ ms) = build p 0 [if rest ms ≠ [] ∨ p < 10 then interOf (a :: es) else a] (rest ms) := by
  simp only [tree, groups_and a es ms h, List.headD_cons]

theorem tree_bar (p : Nat) (a : Nd X) (ms : List (Bool × Nd X)) (h : ∀ m l, ms ≠ (false, m) :: l) :
    tree p a ms = build p 0 [a] (rest ms) := by
  have := tree_and p a [] ms h
  simp only [List.map_nil, List.nil_append, interOf, ite_self] at this
  exact this

theorem rest_ne {ms : List (Bool × Nd X)} (h : ms ≠ []) : rest ms ≠ [] := by
  cases ms with
  | nil => exact absurd rfl h
  | cons m l =>
    obtain ⟨g, gs, e, -⟩ := groups_ne m.2 l
    simp [rest, e]

/-- The number of the last operator does not matter for one member. -/
theorem build_last (p n m : Nat) (t : Nd X) (gs : List (List (Nd X))) : build p n [t] gs = build p m [t] gs := by
  cases gs with
  | nil => simp only [build]
  | cons g gs => simp only [build]

/-- The next group. -/
theorem build_group (p n : Nat) (pend : List (Nd X)) (a : Nd X) (es : List (Nd X)) (o : Bool) (ms : List (Bool × Nd X))
    (h : ∀ m l, ms ≠ (false, m) :: l) :
    build p n pend (rest ((o, a) :: (es.map (fun e => (false, e)) ++ ms))) =
      if ms = [] then build p (if es = [] then 8 else 10) (pend ++ [if p < 10 then interOf (a :: es) else a]) []
      else build p (if es = [] then 8 else 10) (if es = [] then pend ++ [a] else [.union (pend ++ [.inter (a :: es)])]) (rest ms) := by
  have e : rest ((o, a) :: (es.map (fun e => (false, e)) ++ ms)) = (a :: es) :: rest ms := groups_and a es ms h
  rw [e]
  have h2 : (2 ≤ (a :: es).length) ↔ es ≠ [] := by cases es <;> simp
  by_cases hm : ms = []
  · subst hm
    simp only [build, rest, if_true, List.headD_cons]
    simp only [h2, ne_eq, ite_not]
  · simp only [build, hm, rest_ne hm, if_false]
    by_cases he : es = []
    · subst he; simp [interOf]
    · cases es with
      | nil => exact absurd rfl he
      | cons x l => simp [interOf]

end Mole.Parser.TsType
