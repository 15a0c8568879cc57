import Verif.Parser.ProgAccF

/-! # The tokens taken are those of the tree: classes, and `import` in expressions (for C76) -/

namespace Mole.Parser.Prog

attribute [local irreducible] peek nl left scope next must chk req fail enter enterFn enterCls pushRet leave scopeRef setKind pushLoop popLoop
  lastLoop opening semi ident target patRest pat patElem patArr param params body blockS methodTail propKey propName patProp patObj
  arrowFn star fnName bodyOrExpr fnKw asyncArgs asyncTail asyncExpr tplRest tpl spread arg args parenE arrRest propData objProp
  objRest primary dot subscript callRest optional memRest newRest memObj newE lhs1 lhs update unary binInner binRest cond yieldE
  assignTail assign seqRest seqTail expr initE decs varDec varDecS exprS head sub ifS whileS doS withS forInit forLeft forRight
  forInTail optE forTail forAwait forS retArg retS throwS jumpLabel brkS contS labelS caseBody cases switchS catchParam catchS
  finallyS tryS asyncStmt otherS stmt stmts classKey memberTail fieldValue fieldTail namedMember memberRest member members className
  heritage classE condTail importMeta importE identKw srcE impSpec optComma impSpecs impGroup impFirst impMore impClause optFrom importS
  expSpec expSpecs nsName exportAll fromOpt exportNamed defaultS exportRest exportS

section
variable {L : Ex → Prop} {o : Chk} {r : Rec}

/-- A member with these tokens may be before others. -/
def MPost (L : Ex → Prop) (p : Bool) (n : Node) (x : List K) (k : K) : Prop :=
  ∃ p', Ended x p' k ∧ ∀ l b, Members L p' l b → Members L p (n :: l) (x ++ b)

theorem classKey_ok (hr : RecOk L r) : Spec L (classKey o r) (fun p y => MemberKey L p.2 p.1 y) := by
  intro s hG
  unfold classKey
  w
  refine wp_ite (fun hc => ?_) (fun _ => ?_)
  · cases e : s.h <;> rw [e] at hc <;> first | cases hc | skip
    w
    exact ⟨[_], by simpa using ‹_›, .pvt⟩
  · refine wp_spec (propKey_ok hr) hG (fun p x s1 h1 h2 _ => ⟨_, h1, .key h2⟩)

theorem memberTail_ok (hr : RecOk L r) (st : Bool) (i : Nat) (as g c : Bool) (key : Node) :
    Spec L (memberTail o r st i as g c key) (fun n y => ∃ ps m u z, n = .elem st (.method i as g c key ps (.block m)) ∧
      y = .pu .parenL :: u ++ .pu .parenR :: .pu .braceL :: z ++ [.pu .braceR] ∧ List_ L ps u ∧ Stmts L m z) := by
  intro s hG
  unfold memberTail methodTail
  w
  refine wp_spec hr.params (by assumption) ?_
  rintro l _ s2 h2 ⟨z, rfl, hz⟩ _
  ws
  refine wp_spec (body_ok hr) (by assumption) ?_
  rintro _ _ s3 h3 ⟨b, v, rfl, rfl, hb⟩ _
  w
  exact ⟨_, by simp [*], _, _, _, _, rfl, rfl, hz, hb⟩

/-- The rest of a method. -/
theorem method_ok (hr : RecOk L r) {st : Bool} {i : Nat} {as g c : Bool} {key : Node} {w x : List K} {p : Bool}
    (hw : Accessor L i w) (hx : MemberKey L c key x) :
    Spec L (memberTail o r st i as g c key) (fun n y => ∀ k, MPost L p n
      (opt st (.cw .static) ++ w ++ opt as (.name "async") ++ opt g (.bin .mul) ++ x ++ y) k) := by
  intro s hG
  refine wp_spec (memberTail_ok hr _ _ _ _ _ _) hG ?_
  rintro _ _ s1 h1 ⟨ps, m, u, z, rfl, rfl, hu, hz⟩ _
  refine ⟨_, h1, fun k => ⟨false, ?_, fun l b hm => ?_⟩⟩
  · intro _
    exact Or.inr ⟨opt st (.cw .static) ++ w ++ opt as (.name "async") ++ opt g (.bin .mul) ++ x ++
      .pu .parenL :: u ++ .pu .parenR :: .pu .braceL :: z, by simp⟩
  · have := Members.method (p := p) (st := st) (as := as) (g := g) hw hx hu hz hm
    simpa using this

theorem fieldValue_ok (hr : RecOk L r) : Spec L (fieldValue r) (fun n y => (n = .nil ∧ y = []) ∨ ∃ x, y = .asg .assign :: x ∧ Expr L n x) := by
  intro s hG
  unfold fieldValue
  w
  refine wp_ite (fun hc => ?_) (fun _ => ?_)
  · w
    refine wp_spec hr.assign (by assumption) (fun e x s1 h1 h2 _ => ?_)
    exact ⟨_, by simp [*], Or.inr ⟨_, rfl, h2⟩⟩
  · w
    exact ⟨[], rfl, Or.inl ⟨rfl, rfl⟩⟩

theorem fieldTail_ok (hr : RecOk L r) {st c p : Bool} {key : Node} {a : List K} (ha : MemberKey L c key a) {s : S} (hG : Good L s) :
    WP (fieldTail o r st c key) (fun n s' => ∃ x, s.T = x ++ s'.T ∧ MPost L p n (opt st (.cw .static) ++ a ++ x) s'.h) s := by
  unfold fieldTail
  w
  refine wp_ite (fun hc => ?_) (fun hc => ?_)
  · w
    refine wp_spec (method_ok hr (p := p) .method ha) (by assumption) (fun n y s1 h1 h2 _ => ?_)
    exact ⟨y, by simp [*], by simpa [opt] using h2 _⟩
  · ws
    intro v s1 e
    have hv := fieldValue_ok hr s hG v s1 e
    obtain ⟨x, h1, h2⟩ := hv
    have g1 := hG.after h1
    ws
    refine wp_semiOr g1 (fun y s2 h3 h4 g2 => ?_)
    w
    rcases h2 with ⟨rfl, rfl⟩ | ⟨x, rfl, hx⟩
    · refine ⟨y, by simpa [h3] using h1, ?_⟩
      rcases h4 with rfl | ⟨rfl, h4⟩
      · refine ⟨false, fun _ => Or.inl ⟨_, rfl⟩, fun l b hm => ?_⟩
        have := Members.field (p := p) (st := st) ha (.semi (p := false) hm)
        simpa using this
      · refine ⟨false, fun hk => ?_, fun l b hm => ?_⟩
        · exfalso
          apply hc
          rw [h_T, h1, List.nil_append, ← h_T, ← h4, hk]
        · have := Members.field (p := p) (st := st) ha hm
          simpa using this
    · refine ⟨.asg .assign :: x ++ y, by rw [h1, h3]; simp, ?_⟩
      rcases h4 with rfl | ⟨rfl, h4⟩
      · refine ⟨false, fun _ => Or.inl ⟨opt st (.cw .static) ++ a ++ .asg .assign :: x, by simp⟩, fun l b hm => ?_⟩
        have := Members.value (p := p) (st := st) ha hx (.semi (p := true) hm)
        simpa using this
      · refine ⟨true, ⟨opt st (.cw .static) ++ a, x, by simp⟩, fun l b hm => ?_⟩
        have := Members.value (p := p) (st := st) ha hx hm
        simpa using this

theorem named_key {k : K} (h : (k matches .name _ || k matches .str _ || isKw k) = true) : canKey k = true ∨ ∃ s, k = .str s := by
  cases k <;> first | exact Or.inr ⟨_, rfl⟩ | exact Or.inl rfl | exact Or.inl h

theorem named_ne {k : K} (h : (k matches .name _ || k matches .str _ || isKw k) = true) : k ≠ .eof := by
  rintro rfl
  exact absurd h (by decide)

theorem namedMember_ok (hr : RecOk L r) {st p : Bool} {s : S} (hG : Good L s)
    (hk : (s.h matches .name _ || s.h matches .str _ || isKw s.h) = true) :
    WP (namedMember o r st s.h) (fun n s' => ∃ x, s.T = x ++ s'.T ∧ MPost L p n (opt st (.cw .static) ++ x) s'.h) s := by
  unfold namedMember
  have hkey : MemberKey L false (.leaf s.h) [s.h] := .key (.name (named_key hk))
  ws
  refine wp_next hG rfl (named_ne hk) (fun s1 h1 g1 => ?_)
  w
  refine wp_left (fun ts _ _ => wp_ite (fun hc => ?_) (fun _ => wp_ite (fun hc => ?_) (fun _ => ?_)))
  · intro n s' e
    obtain ⟨x, h2, h3⟩ := fieldTail_ok hr (p := p) hkey g1 n s' e
    exact ⟨s.h :: x, by rw [h1, h2]; rfl, by simpa using h3⟩
  · w
    refine wp_spec (method_ok hr (p := p) .method hkey) (by assumption) (fun n y s1 h1 h2 _ => ?_)
    refine ⟨s.h :: y, by simp [*], by simpa [opt] using h2 _⟩
  · w
    rename_i hq s2 h2 _ _
    have hw : ∃ w, (w = "get" ∨ w = "set") ∧ text s.h = w := by
      simp only [Bool.or_eq_true, decide_eq_true_eq] at hq
      rcases hq with h | h
      · exact ⟨_, Or.inl rfl, h⟩
      · exact ⟨_, Or.inr rfl, h⟩
    obtain ⟨w, hw1, hw2⟩ := hw
    have hA : Accessor L (if w = "get" then 1 else 2) [s.h] :=
      accessor_ok hG w hw1 (l := s1.T) (by
        rcases text_eq hw2 (by rcases hw1 with rfl | rfl <;> decide) with e | e <;> rw [h1, e] <;> simp)
    refine wp_spec (classKey_ok hr) (by assumption) ?_
    rintro ⟨key, c⟩ x s3 h3 h4 _
    dsimp only at h4 ⊢
    refine wp_spec (method_ok hr (p := p) (by rw [hw2]; exact hA) h4) (by assumption) (fun n y s4 h5 h6 _ => ?_)
    exact ⟨s.h :: (x ++ y), by rw [h1, h2, h3, h5]; simp, by simpa [opt] using h6 _⟩

theorem isAsyncMember_h {c : Ctx} {ts : List Tok} (h : isAsyncMember c ts = true) : hd ts = .name "async" := by
  unfold isAsyncMember isAsync at h
  simp only [Bool.and_eq_true, Bool.or_eq_true, decide_eq_true_eq] at h
  rcases h with h | h <;> exact h.1.1

/-- If a method has no name there is an exception for it. -/
def Unnamed (L : Ex → Prop) (p : Bool) (s : S) : Prop :=
  ∀ u t, s.T = .pu .parenL :: u ++ .pu .parenR :: .pu .braceL :: t → balanced [] u = true →
    (p = true ∧ L .unnamedValue) ∨ (p = false ∧ L .unnamed)

theorem memberRest_ok (hr : RecOk L r) {st p : Bool} {s : S} (hG : Good L s) (hst : st = true → s.h ≠ .pu .parenL) (hU : Unnamed L p s) :
    WP (memberRest o r st) (fun n s' => ∃ x, s.T = x ++ s'.T ∧ MPost L p n (opt st (.cw .static) ++ x) s'.h) s := by
  unfold memberRest
  w
  refine wp_left (fun ts ht _ => wp_ite (fun hc => ?_) (fun _ => wp_ite (fun hc => ?_) (fun _ => wp_ite (fun hc => ?_)
    (fun _ => wp_ite (fun hc => ?_) (fun _ => ?_)))))
  · have hk := ht ▸ isAsyncMember_h hc
    w
    refine wp_spec star_ok (by assumption) ?_
    rintro g _ s2 h2 rfl _
    w
    refine wp_spec (classKey_ok hr) (by assumption) ?_
    rintro ⟨key, c⟩ x s3 h3 h4 _
    dsimp only at h4 ⊢
    refine wp_spec (method_ok hr (p := p) .method h4) (by assumption) (fun n y s4 h5 h6 _ => ?_)
    exact ⟨.name "async" :: opt g (.bin .mul) ++ x ++ y, by simp [*], by simpa [opt] using h6 _⟩
  · w
    rename_i s1 h0 _ _
    refine wp_spec (memberTail_ok hr _ _ _ _ _ _) (by assumption) ?_
    rintro _ _ s2 h1 ⟨ps, m, u, z, rfl, rfl, hu, hz⟩ _
    have hf : st = false := by
      cases st
      · rfl
      · exact absurd hc (hst rfl)
    subst hf
    have hT : s.T = .pu .parenL :: u ++ .pu .parenR :: .pu .braceL :: z ++ [.pu .braceR] ++ s2.T := by rw [h0, h1]
    have hL := hU u (z ++ .pu .braceR :: s2.T) (by rw [hT]; simp) (list_balanced hu)
    refine ⟨_, hT, false, fun _ => Or.inr ⟨.pu .parenL :: u ++ .pu .parenR :: .pu .braceL :: z, by simp [opt]⟩, fun l b hm => ?_⟩
    have := Members.unnamed hL hu hz hm
    simpa [opt] using this
  · w
    refine wp_spec (classKey_ok hr) (by assumption) ?_
    rintro ⟨key, c⟩ x s3 h3 h4 _
    dsimp only at h4 ⊢
    refine wp_spec (method_ok hr (p := p) .method h4) (by assumption) (fun n y s4 h5 h6 _ => ?_)
    exact ⟨.bin .mul :: x ++ y, by simp [*], by simpa [opt] using h6 _⟩
  · exact namedMember_ok hr hG hc
  · w
    refine wp_spec (classKey_ok hr) (by assumption) ?_
    rintro ⟨key, c⟩ x s3 h3 h4 g3
    dsimp only at h4 ⊢
    intro n s' e
    obtain ⟨y, h5, h6⟩ := fieldTail_ok hr (p := p) h4 g3 n s' e
    exact ⟨x ++ y, by rw [h3, h5]; simp, by simpa using h6⟩

theorem member_ok (hr : RecOk L r) {p : Bool} {s : S} (hG : Good L s) (hU : Unnamed L p s) :
    WP (member o r) (fun n s' => ∃ x, s.T = x ++ s'.T ∧ MPost L p n x s'.h) s := by
  have hkey : MemberKey L false (.leaf (.cw .static)) [.cw .static] := .key (.name (Or.inl rfl))
  unfold member
  w
  refine wp_ite (fun hc => ?_) (fun _ => ?_)
  · ws
    ws
    rename_i s1 h1 g1
    ws
    refine wp_left (fun ts ht _ => wp_ite (fun hc => ?_) (fun _ => wp_ite (fun hc => ?_) (fun _ => wp_ite (fun hc => ?_) (fun hp => ?_))))
    · intro n s' e
      obtain ⟨x, h2, h3⟩ := fieldTail_ok hr (p := p) hkey g1 n s' e
      exact ⟨.cw .static :: x, by rw [h1, h2]; rfl, by simpa [opt] using h3⟩
    · w
      refine wp_spec hr.stmts (by assumption) ?_
      rintro l _ s4 h4 ⟨z, rfl, hz⟩ _
      w
      refine ⟨.cw .static :: .pu .braceL :: z ++ [.pu .braceR], by simp [*], false, fun _ => Or.inr ⟨.cw .static :: .pu .braceL :: z, rfl⟩,
        fun l b hm => ?_⟩
      have := Members.static (p := p) hz hm
      simpa using this
    · w
      refine wp_spec (method_ok hr (p := p) .method hkey) (by assumption) (fun n y s1 h1 h2 _ => ?_)
      exact ⟨.cw .static :: y, by simp [*], by simpa [opt] using h2 _⟩
    · have hne : s1.h ≠ .pu .parenL := by rw [← ht]; exact hp
      intro n s' e
      obtain ⟨x, h2, h3⟩ := memberRest_ok hr (p := p) g1 (fun _ => hne) (fun u t e => by
        exfalso
        apply hne
        rw [h_T, e]
        rfl) n s' e
      exact ⟨.cw .static :: x, by rw [h1, h2]; rfl, by simpa [opt] using h3⟩
  · intro n s' e
    obtain ⟨x, h2, h3⟩ := memberRest_ok hr (st := false) (p := p) hG (fun h => by cases h) hU n s' e
    exact ⟨x, h2, by simpa [opt] using h3⟩

theorem neutral_balanced {a : List K} (h : Neutral a) : balanced [] a = true := by
  have := h [] []
  simpa [balanced] using this

theorem before_unnamed {q : List K} {p : Bool} {s : S} (hG : ∀ x, Occ (q ++ s.T) x → L x) (hB : Before q p s.h) : Unnamed L p s := by
  intro u t hT hu
  obtain ⟨a, b, rfl, ha, hb, he⟩ := hB
  have hk : s.h = .pu .parenL := by
    rw [h_T, hT]
    rfl
  have ha := neutral_balanced ha
  have hb := neutral_balanced hb
  cases p with
  | false =>
    refine Or.inr ⟨rfl, hG _ ⟨[], _, t, ?_, a, b, u, rfl, ha, hb, hu, ?_⟩⟩
    · simp [hT]
    · rcases he with ⟨rfl, _⟩ | he
      · exact Or.inl rfl
      · exact Or.inr (he hk)
  | true =>
    obtain ⟨c, z, rfl⟩ : ∃ c z, b = c ++ .asg .assign :: z := by
      rcases he with ⟨_, h⟩ | he
      · cases h
      · exact he
    refine Or.inl ⟨rfl, hG _ ⟨[], _, t, ?_, a, c, z, u, rfl, ha, hb, hu⟩⟩
    simp [hT]

theorem ended_append {x y : List K} {p : Bool} {k : K} (h : Ended y p k) : Ended (x ++ y) p k := by
  unfold Ended at h ⊢
  split at h
  · obtain ⟨c, z, rfl⟩ := h
    simp only [*, if_true]
    exact ⟨x ++ c, z, by simp⟩
  · simp only [*]
    intro hk
    rcases h hk with ⟨c, rfl⟩ | ⟨c, rfl⟩
    · exact Or.inl ⟨x ++ c, by simp⟩
    · exact Or.inr ⟨x ++ c, by simp⟩

theorem members_ok (hr : RecOk L r) : ∀ q p s, (∀ x, Occ (q ++ s.T) x → L x) → Before q p s.h →
    WP (members o r) (fun l s' => ∃ z, s.T = z ++ .pu .braceR :: s'.T ∧ Members L p l z) s := by
  intro q p s hQ hB
  have hG : Good L s := fun x hx => hQ x (occ_append hx)
  unfold members
  w
  refine wp_ite (fun hc => ?_) (fun _ => wp_ite (fun hc => ?_) (fun _ => ?_))
  · w
    exact ⟨[], by simp [*], .nil⟩
  · ws
    ws
    rename_i s1 h1 g1
    intro l s' e
    obtain ⟨a, b, rfl, ha, hb, _⟩ := hB
    obtain ⟨z, h2, h3⟩ := hr.members (.kw .class_ :: a ++ .pu .braceL :: b ++ [.pu .semi]) false s1 (fun x hx => hQ x (by
      rw [h1]
      simpa using hx)) ⟨a, b ++ [.pu .semi], by simp, ha, neutral_append hb (neutral_one rfl), Or.inr (fun _ => Or.inl ⟨_, rfl⟩)⟩ l s' e
    exact ⟨.pu .semi :: z, by rw [h1, h2]; rfl, .semi h3⟩
  · ws
    intro n s1 e
    obtain ⟨x, h1, p', h2, h3⟩ := member_ok (o := o) hr hG (before_unnamed hQ hB) n s1 e
    have hx : Neutral x := by
      have := members_neutral (h3 [] [] .nil)
      simpa using this
    w
    intro l s' e
    obtain ⟨a, b, rfl, ha, hb, _⟩ := hB
    obtain ⟨z, h4, h5⟩ := hr.members (.kw .class_ :: a ++ .pu .braceL :: b ++ x) p' s1 (fun y hy => hQ y (by
      rw [h1]
      simpa using hy)) ⟨a, b ++ x, by simp, ha, neutral_append hb hx, Or.inr (ended_append h2)⟩ l s' e
    w
    exact ⟨x ++ z, by rw [h1, h4]; simp, h3 _ _ h5⟩

theorem className_ok : Spec L (className o) (fun n y => (n = .nil ∧ y = []) ∨ ∃ k, n = .leaf k ∧ y = [k] ∧ isWord k = true) := by
  intro s hG
  unfold className
  w
  refine wp_ite (fun hc => ?_) (fun _ => ?_)
  · w
    exact ⟨[], rfl, Or.inl ⟨rfl, rfl⟩⟩
  · refine wp_spec ident_ok hG ?_
    rintro _ _ s1 h ⟨k, rfl, rfl, hk⟩ _
    exact ⟨_, h, Or.inr ⟨_, rfl, rfl, hk⟩⟩

theorem heritage_ok (hr : RecOk L r) : Spec L (heritage o r) (Heritage L) := by
  intro s hG
  unfold heritage
  w
  refine wp_ite (fun hc => ?_) (fun _ => ?_)
  · w
    refine wp_spec hr.lhs (by assumption) (fun e x s1 h1 h2 _ => ?_)
    w
    exact ⟨_, by simp [*], .some h2⟩
  · w
    exact ⟨[], rfl, .none⟩

theorem heritage_neutral {e : Node} {y : List K} (h : Heritage L e y) : Neutral y := by
  cases h with
  | none => exact neutral_nil
  | some h => exact neutral_cons rfl (expr_neutral h)

/-- A class with a name, if it must have one. -/
def IsClass (named : Bool) (n : Node) : Prop := ∃ id e l, n = .class_ id e l ∧ (named = true → ∃ k, id = .leaf k)

theorem classE_ok (hr : RecOk L r) (named : Bool) :
    SpecAt L (.kw .class_) (classE o r named) (fun n x => Expr L n x ∧ IsClass named n) := by
  intro s hG hk
  unfold classE
  ws
  ws
  rename_i s1 h1 _
  ws
  refine wp_spec className_ok (by assumption) ?_
  intro id x s2 h2 h3 _
  ws
  ws
  rename_i hq
  ws
  refine wp_spec (heritage_ok hr) (by assumption) (fun e y s3 h4 h5 _ => ?_)
  w
  rename_i s4 h6 _ _ s5 h7 g5
  intro l s6 hl
  have hT : s.T = .kw .class_ :: (x ++ y) ++ .pu .braceL :: [] ++ s5.T := by
    rw [h1, h2, h4, h6, h7]
    simp
  have hxn : Neutral x := by
    rcases h3 with ⟨_, rfl⟩ | ⟨k, _, rfl, hk⟩
    · exact neutral_nil
    · exact neutral_one (plain_word hk)
  obtain ⟨z, h8, h9⟩ := hr.members (.kw .class_ :: (x ++ y) ++ .pu .braceL :: []) false s5 (fun v hv => hG v (by rw [hT]; exact hv))
    ⟨x ++ y, [], rfl, neutral_append hxn (heritage_neutral h5), neutral_nil, Or.inl ⟨rfl, rfl⟩⟩ l s6 hl
  have g6 : Good L s6 := Good.after (x := z ++ [.pu .braceR]) g5 (by rw [h8]; simp)
  w
  rename_i s7 h10 _ _
  refine ⟨.kw .class_ :: x ++ y ++ .pu .braceL :: z ++ [.pu .braceR], by rw [hT, h8, h10]; simp, .class_ (name_opt h3) h5 h9, _, _, _, rfl, fun hn => ?_⟩
  rcases h3 with ⟨rfl, _⟩ | ⟨k, rfl, _⟩
  · rw [hn] at hq
    cases hq
  · exact ⟨_, rfl⟩

/-! ## `import` -/

theorem condTail_ok (hr : RecOk L r) {u : Node} {x : List K} (hu : Expr L u x) :
    Spec L (condTail r u) (fun n y => Expr L n (x ++ y)) := by
  intro s hG
  unfold condTail
  ws
  refine wp_spec (hr.binRest _ _ _ _ _ hu) hG (fun n z s3 h4 h5 _ => ?_)
  w
  refine wp_ite (fun hc => ?_) (fun _ => ?_)
  · w
    refine wp_spec hr.assign (by assumption) (fun a u s4 h6 h7 _ => ?_)
    w
    refine wp_spec hr.assign (by assumption) (fun b v s5 h8 h9 _ => ?_)
    w
    refine ⟨z ++ .pu .hook :: u ++ .pu .colon :: v, by simp [*], ?_⟩
    have := Expr.cond h5 h7 h9
    simpa using this
  · w
    exact ⟨_, h4, h5⟩

theorem importMeta_ok (hr : RecOk L r) :
    SpecAt L (.pu .dot) (importMeta r) (fun n y => Expr L n (.kw .import_ :: y)) := by
  intro s hG hk
  have hm : Expr L .importMeta [.kw .import_, .pu .dot, .name "meta"] := .importMeta
  unfold importMeta
  w
  refine wp_ite (fun hc => ?_) (fun _ => wp_ite (fun hc => ?_) (fun _ => ?_))
  · ws
    refine wp_spec (hr.callRest _ _ _ _ _ hm (by simp)) (by assumption) ?_
    rintro ⟨n, b⟩ y s3 h4 h5 _
    dsimp only at h5 ⊢
    w
    exact ⟨.pu .dot :: .name "meta" :: y, by simp [*], by simpa using h5⟩
  · ws
    refine wp_spec (hr.memRest _ _ _ _ _ hm) (by assumption) ?_
    rintro ⟨n, b⟩ y s3 h4 h5 _
    dsimp only at h5 ⊢
    w
    exact ⟨.pu .dot :: .name "meta" :: y, by simp [*], by simpa using h5⟩
  · w
    exact ⟨[.pu .dot, .name "meta"], by simp [*], hm⟩

theorem importE_ok (hr : RecOk L r) : SpecAt L (.kw .import_) (importE r) (Expr L) := by
  intro s hG hk
  unfold importE
  w
  refine wp_ite (fun hc => ?_) (fun _ => ?_)
  · refine wp_specAt (importMeta_ok hr) (by assumption) hc (fun n y s3 h4 h5 _ => ?_)
    exact ⟨_, by simp [*], h5⟩
  · w
    refine wp_spec hr.assign (by assumption) (fun e x s4 h6 h7 _ => ?_)
    w
    rename_i s5 h8 _ _
    have hT : s.T = .kw .import_ :: .pu .parenL :: x ++ .pu .parenR :: s5.T := by simp [*]
    refine wp_ite (fun hc => ?_) (fun _ => wp_ite (fun hc => ?_) (fun _ => ?_))
    · w
      rename_i s6 h9 _
      rw [h9] at hT
      refine ⟨.kw .import_ :: .pu .parenL :: x ++ [.pu .parenR, .pu .semi], by rw [hT]; simp, .importSemi ?_ h7⟩
      exact hG _ ⟨[], _, s6.T, by rw [hT]; simp, x, rfl, neutral_balanced (expr_neutral h7)⟩
    · w
      exact ⟨.kw .import_ :: .pu .parenL :: x ++ [.pu .parenR], by rw [hT]; simp, .importCall h7⟩
    · refine wp_spec (condTail_ok hr (.importCall h7)) (by assumption) (fun n y s6 h9 h10 _ => ?_)
      exact ⟨.kw .import_ :: .pu .parenL :: x ++ [.pu .parenR] ++ y, by rw [hT, h9]; simp, h10⟩

end

end Mole.Parser.Prog
