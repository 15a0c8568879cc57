import Verif.Parser.ProgAccF

/-! # The tokens taken are those of the tree: the names of imports and exports (for C76) -/

namespace Mole.Parser.Prog

attribute [local irreducible] peek nl left scope next must chk req fail enter enterFn enterCls pushRet leave scopeRef setKind pushLoop popLoop
  lastLoop opening semi ident target patRest pat patElem patArr param params body blockS methodTail propKey propName patProp patObj
  arrowFn star fnName bodyOrExpr fnKw asyncArgs asyncTail asyncExpr tplRest tpl spread arg args parenE arrRest propData objProp
  objRest primary dot subscript callRest optional memRest newRest memObj newE lhs1 lhs update unary binInner binRest cond yieldE
  assignTail assign seqRest seqTail expr initE decs varDec varDecS exprS head sub ifS whileS doS withS forInit forLeft forRight
  forInTail optE forTail forAwait forS retArg retS throwS jumpLabel brkS contS labelS caseBody cases switchS catchParam catchS
  finallyS tryS asyncStmt otherS stmt stmts classKey memberTail fieldValue fieldTail namedMember memberRest member members className
  heritage classE condTail importMeta importE identKw srcE impSpec optComma impSpecs impGroup impFirst impMore impClause optFrom importS
  expSpec expSpecs nsName exportAll fromOpt exportNamed defaultS exportRest exportS

section
variable {L : Ex → Prop} {o : Chk} {r : Rec}

theorem identKw_ok : Spec L (identKw o) (fun n x => ∃ k, n = .leaf k ∧ x = [k] ∧ (isWord k = true ∨ isKw k = true)) := by
  intro s hG
  unfold identKw
  w
  refine wp_ite (fun hc => ?_) (fun _ => ?_)
  · have hne : s.h ≠ .eof := by
      intro e
      rw [e] at hc
      cases hc
    ws
    refine wp_next hG rfl hne (fun s1 h1 _ => ?_)
    w
    exact ⟨[s.h], h1, _, rfl, rfl, Or.inr hc⟩
  · refine wp_spec ident_ok hG ?_
    rintro _ _ s1 h ⟨k, rfl, rfl, hk⟩ _
    exact ⟨_, h, _, rfl, rfl, Or.inl hk⟩

theorem srcE_ok : Spec L srcE (fun n x => ∃ f, n = .leaf (.str f) ∧ x = [.str f]) := by
  intro s hG
  unfold srcE
  w
  rename_i hq
  cases e : s.h <;> rw [e] at hq <;> first | cases hq | skip
  w
  exact ⟨[_], by simpa using ‹_›, _, rfl, rfl⟩

theorem word_specTok {k : K} (h : isWord k = true ∨ isKw k = true) : specTok k = true ∧ k ≠ .pu .comma := by
  cases k <;> simp_all [isWord, isKw, specTok]

theorem impSpec_next {s : S} (hG : Good L s) :
    WP (impSpec o) (fun n s' => ∃ x, s.T = x ++ s'.T ∧ ImpSpec n x ∧ (x.length = 1 → s'.h ≠ .name "as")) s := by
  unfold impSpec
  ws
  refine wp_spec identKw_ok hG ?_
  rintro _ _ s1 h1 ⟨k, rfl, rfl, hk⟩ _
  w
  refine wp_ite (fun hc => ?_) (fun hc => ?_)
  · w
    refine wp_spec ident_ok (by assumption) ?_
    rintro _ _ s2 h2 ⟨k', rfl, rfl, hk'⟩ _
    w
    exact ⟨[k, .name "as", k'], by simp [*], .as_ hk hk', by simp⟩
  · w
    rename_i hq
    refine ⟨_, h1, .name ?_ ?_, fun _ => hc⟩
    · have : isKw k = false := by simpa [localName] using hq
      rcases hk with h | h
      · exact h
      · rw [this] at h
        cases h
    · simpa [localName] using hq

theorem optComma_next {s : S} (hG : Good L s) :
    WP optComma (fun _ s' => (s.T = .pu .comma :: s'.T ∨ (s' = s ∧ s.h ≠ .pu .comma)) ∧ Good L s') s := by
  unfold optComma
  w
  refine wp_ite (fun hc => ?_) (fun hc => ?_)
  · w
    exact ⟨Or.inl ‹_›, ‹_›⟩
  · w
    exact ⟨Or.inr ⟨rfl, hc⟩, hG⟩

theorem impSpec_all {n : Node} {x : List K} (h : ImpSpec n x) : x.all specTok = true := by
  cases h with
  | name h => simp [word_specTok (Or.inl h)]
  | as_ h h' => simp [word_specTok h, word_specTok (Or.inl h'), show specTok (.name "as") = true from rfl]

theorem impSpec_nonempty {n : Node} {x : List K} (h : ImpSpec n x) : x ≠ [] := by
  cases h <;> simp

theorem commas_comma {n : Node} {x l : List K} (h : ImpSpec n x) : commas (x ++ .pu .comma :: l) = commas l := by
  cases h with
  | name h => simp [commas]
  | as_ h h' => simp [commas]

/-- Two names without a comma. -/
theorem commas_none {n : Node} {x l : List K} {k : K} (h : ImpSpec n x) (hk : k ≠ .pu .comma) (has : x.length = 1 → k ≠ .name "as") :
    commas (x ++ k :: l) = false := by
  cases h with
  | name h =>
    have := has rfl
    simp only [List.cons_append, List.nil_append]
    unfold commas
    split <;> simp_all
  | as_ h h' =>
    simp only [List.cons_append, List.nil_append]
    unfold commas
    split <;> simp_all

theorem impSpecs_ok (hr : RecOk L r) : Spec L (impSpecs o r) (fun l y => ∃ z, y = z ++ [.pu .braceR] ∧ Loose ImpSpec l z ∧
    z.all specTok = true ∧ (Specs ImpSpec l z ∨ commas z = false)) := by
  intro s hG
  unfold impSpecs
  w
  refine wp_ite (fun hc => ?_) (fun _ => ?_)
  · w
    exact ⟨[.pu .braceR], by simp [*], [], rfl, .nil, rfl, Or.inl .nil⟩
  · ws
    intro n s1 e
    obtain ⟨x, h1, h2, h3⟩ := impSpec_next hG n s1 e
    have g1 := hG.after h1
    ws
    intro u s2 e
    obtain ⟨h4, g2⟩ := optComma_next g1 u s2 e
    ws
    refine wp_spec hr.impSpecs g2 ?_
    rintro l _ s3 h5 ⟨z, rfl, hz, hall, hst⟩ _
    w
    rcases h4 with h4 | ⟨rfl, h4⟩
    · refine ⟨x ++ .pu .comma :: z ++ [.pu .braceR], by rw [h1, h4, h5]; simp, x ++ .pu .comma :: z, rfl, ?_, ?_, ?_⟩
      · have := Loose.cons h2 (Or.inr rfl) hz
        simpa using this
      · simp [impSpec_all h2, hall, specTok]
      · rw [commas_comma h2]
        rcases hst with h | h
        · exact Or.inl (.cons h2 h)
        · exact Or.inr h
    · refine ⟨x ++ z ++ [.pu .braceR], by rw [h1, h5]; simp, x ++ z, rfl, ?_, ?_, ?_⟩
      · have := Loose.cons h2 (Or.inl rfl) hz
        simpa using this
      · simp [impSpec_all h2, hall]
      · cases hz with
        | nil => exact Or.inl (by simpa using Specs.one h2)
        | cons h6 h7 h8 =>
          rename_i e' l' a c b
          right
          obtain ⟨k, t, rfl⟩ : ∃ k t, a = k :: t := by
            cases a with
            | nil => exact absurd rfl (impSpec_nonempty h6)
            | cons k t => exact ⟨_, _, rfl⟩
          have hk : s2.h = k := by
            rw [h_T, h5]
            simp
          rw [hk] at h4 h3
          have := commas_none (l := t ++ c ++ b) h2 h4 h3
          simpa using this

theorem group_ok (hr : RecOk L r) {s : S} {k0 : K} (hk0 : k0 = .kw .import_ ∨ k0 = .pu .comma) (hQ : ∀ x, Occ (k0 :: s.T) x → L x) :
    WP (impGroup o r) (fun l s' => ∃ x, s.T = x ++ s'.T ∧ Group L l x ∧
      ((∃ z, x = .pu .braceL :: z ++ [.pu .braceR] ∧ z.all specTok = true) ∨ ∃ k, x = [.bin .mul, .name "as", k] ∧ isWord k = true)) s := by
  have hG : Good L s := fun x hx => hQ x (occ_append (a := [k0]) hx)
  unfold impGroup
  w
  refine wp_ite (fun hc => ?_) (fun _ => ?_)
  · w
    rename_i s1 h1 _
    refine wp_spec hr.impSpecs (by assumption) ?_
    rintro l _ s3 h5 ⟨z, rfl, hz, hall, hst⟩ _
    refine ⟨.pu .braceL :: z ++ [.pu .braceR], by rw [h1, h5]; simp, ?_, Or.inl ⟨z, rfl, hall⟩⟩
    rcases hst with h | h
    · exact .named h
    · refine .loose (hQ _ ⟨[], _, s3.T, ?_, k0, z, rfl, hk0, hall, h⟩) hz
      rw [h1, h5]
      simp
  · w
    refine wp_spec ident_ok (by assumption) ?_
    rintro _ _ s2 h2 ⟨k', rfl, rfl, hk'⟩ _
    w
    exact ⟨[.bin .mul, .name "as", k'], by simp [*], .ns hk', Or.inr ⟨_, rfl, hk'⟩⟩

/-- What is first: a name, or a group. -/
theorem impFirst_ok (hr : RecOk L r) {s : S} (hQ : ∀ x, Occ (.kw .import_ :: s.T) x → L x) :
    WP (impFirst o r) (fun l s' => ∃ x, s.T = x ++ s'.T ∧
      ((∃ k, l = [.impDef (.leaf k)] ∧ x = [k] ∧ isWord k = true) ∨
       (Group L l x ∧ ((∃ z, x = .pu .braceL :: z ++ [.pu .braceR] ∧ z.all specTok = true) ∨
         ∃ k, x = [.bin .mul, .name "as", k] ∧ isWord k = true)))) s := by
  have hG : Good L s := fun x hx => hQ x (occ_append (a := [.kw .import_]) hx)
  unfold impFirst
  w
  refine wp_ite (fun hc => ?_) (fun _ => ?_)
  · ws
    refine wp_spec ident_ok (by assumption) ?_
    rintro _ _ s2 h2 ⟨k', rfl, rfl, hk'⟩ _
    w
    exact ⟨_, h2, Or.inl ⟨_, rfl, rfl, hk'⟩⟩
  · intro l s' e
    obtain ⟨x, h1, h2, h3⟩ := group_ok hr (Or.inl rfl) hQ l s' e
    exact ⟨x, h1, Or.inr ⟨h2, h3⟩⟩

theorem impMore_ok (hr : RecOk L r) {s : S} (hG : Good L s) :
    WP (impMore o r) (fun l s' => ∃ x, s.T = x ++ s'.T ∧
      ((l = [] ∧ x = []) ∨ ∃ y, x = .pu .comma :: y ∧ Group L l y ∧
        ((∃ z, y = .pu .braceL :: z ++ [.pu .braceR] ∧ z.all specTok = true) ∨ ∃ k, y = [.bin .mul, .name "as", k] ∧ isWord k = true))) s := by
  unfold impMore
  w
  refine wp_ite (fun hc => ?_) (fun _ => ?_)
  · ws
    ws
    rename_i s1 h1 _
    intro l s' e
    obtain ⟨x, h2, h3, h4⟩ := group_ok hr (Or.inr rfl) (fun x hx => hG x (by rw [h1]; exact hx)) l s' e
    exact ⟨.pu .comma :: x, by rw [h1, h2]; rfl, Or.inr ⟨_, rfl, h3, h4⟩⟩
  · w
    exact ⟨[], rfl, Or.inl ⟨rfl, rfl⟩⟩

/-- The tokens of a clause, and that its last word is not taken for `from`. -/
def ClauseToks (x : List K) : Prop := x ≠ [] ∧ x.all importTok = true ∧ noFrom x

theorem importTok_spec {k : K} (h : specTok k = true) : importTok k = true := by
  unfold importTok
  split <;> first | rfl | exact h

theorem all_import {z : List K} (h : z.all specTok = true) : z.all importTok = true := by
  simp only [List.all_eq_true] at h ⊢
  exact fun k hk => importTok_spec (h k hk)

theorem group_toks {x y : List K} (hx : x.all importTok = true)
    (h : (∃ z, y = .pu .braceL :: z ++ [.pu .braceR] ∧ z.all specTok = true) ∨ ∃ k, y = [.bin .mul, .name "as", k] ∧ isWord k = true) :
    ClauseToks (x ++ y) := by
  rcases h with ⟨z, rfl, hz⟩ | ⟨k, rfl, hk⟩
  · refine ⟨by simp, ?_, Or.inr (Or.inr ?_)⟩
    · have := all_import hz
      simp_all [importTok]
    · rw [← List.append_assoc, List.getLast?_concat]
      nofun
  · have hk' := importTok_spec (word_specTok (Or.inl hk)).1
    refine ⟨by simp, ?_, ?_⟩
    · simp_all [importTok, specTok]
    · by_cases e : k = .name "from"
      · subst e
        exact Or.inr (Or.inl ⟨_, rfl⟩)
      · refine Or.inr (Or.inr ?_)
        have : x ++ [.bin .mul, .name "as", k] = (x ++ [.bin .mul, .name "as"]) ++ [k] := by simp
        rw [this, List.getLast?_concat]
        simpa using e

theorem impClause_ok (hr : RecOk L r) {s : S} (hQ : ∀ x, Occ (.kw .import_ :: s.T) x → L x) :
    WP (impClause o r) (fun l s' => ∃ x, s.T = x ++ s'.T ∧
      ((l = [] ∧ x = [] ∧ ∃ f, s.h = .str f) ∨ (Clause L l x ∧ ClauseToks x))) s := by
  have hG : Good L s := fun x hx => hQ x (occ_append (a := [.kw .import_]) hx)
  unfold impClause
  w
  refine wp_ite (fun hc => ?_) (fun _ => ?_)
  · w
    refine ⟨[], rfl, Or.inl ⟨rfl, rfl, ?_⟩⟩
    cases e : s.h <;> rw [e] at hc <;> first | exact ⟨_, rfl⟩ | cases hc
  · ws
    intro l1 s1 e
    obtain ⟨x, h1, h2⟩ := impFirst_ok hr hQ l1 s1 e
    have g1 := hG.after h1
    ws
    intro l2 s2 e
    obtain ⟨y, h3, h4⟩ := impMore_ok hr g1 l2 s2 e
    w
    refine ⟨x ++ y, by rw [h1, h3]; simp, Or.inr ?_⟩
    rcases h2 with ⟨k, rfl, rfl, hk⟩ | ⟨h2, h5⟩
    · have hk' := importTok_spec (word_specTok (Or.inl hk)).1
      rcases h4 with ⟨rfl, rfl⟩ | ⟨y, rfl, h6, h7⟩
      · refine ⟨.default hk, by simp, by simp [hk'], ?_⟩
        by_cases e : k = .name "from"
        · subst e
          exact Or.inl rfl
        · exact Or.inr (Or.inr (by simpa using e))
      · refine ⟨.both hk h6, ?_⟩
        exact group_toks (x := [k, .pu .comma]) (by simp [hk', show importTok (.pu .comma) = true from rfl]) h7
    · rcases h4 with ⟨rfl, rfl⟩ | ⟨y, rfl, h6, h7⟩
      · refine ⟨by simpa using .group h2, ?_⟩
        have := group_toks (x := []) rfl h5
        simpa using this
      · have hL : L .importTwo := by
          apply hQ
          rcases h5 with ⟨z, rfl, hz⟩ | ⟨k, rfl, hk⟩
          · exact ⟨[], .kw .import_ :: .pu .braceL :: z ++ [.pu .braceR, .pu .comma], y ++ s2.T, by rw [h1, h3]; simp, Or.inl ⟨z, rfl, hz⟩⟩
          · exact ⟨[], _, y ++ s2.T, by rw [h1, h3]; simp, Or.inr ⟨k, rfl⟩⟩
        refine ⟨.two hL h2 h6, ?_⟩
        have h8 := (group_toks (x := []) rfl h5).2.1
        have := group_toks (x := x ++ [.pu .comma]) (by
          simp only [List.nil_append] at h8
          simp [h8, importTok, specTok]) h7
        simpa using this

theorem optFrom_at {s : S} (hG : Good L s) :
    WP optFrom (fun _ s' => (s.T = .name "from" :: s'.T ∨ s' = s) ∧ (s.h ≠ .name "from" → s' = s) ∧ Good L s') s := by
  unfold optFrom
  w
  refine wp_ite (fun hc => ?_) (fun hc => ?_)
  · w
    exact ⟨Or.inl ‹_›, fun h => absurd hc h, ‹_›⟩
  · w
    exact ⟨Or.inr rfl, fun _ => rfl, hG⟩

theorem importS_ok (hr : RecOk L r) : SpecAt L (.kw .import_) (importS o r) (Stmt L) := by
  intro s hG hk
  unfold importS
  ws
  ws
  rename_i s1 h1 _
  ws
  intro l s2 e
  obtain ⟨x, h2, h3⟩ := impClause_ok hr (fun y hy => hG y (by rw [h1]; exact hy)) l s2 e
  have g2 : Good L s2 := Good.after (by assumption) h2
  ws
  intro u s3 e
  obtain ⟨h4, h5, g3⟩ := optFrom_at g2 u s3 e
  ws
  refine wp_spec srcE_ok g3 ?_
  rintro _ _ s4 h6 ⟨f, rfl, rfl⟩ _
  w
  rename_i m s5 h7 hm _
  rcases h3 with ⟨rfl, rfl, f', hf⟩ | ⟨h3, h8⟩
  · have : s3 = s2 := by
      apply h5
      have : s2.h = s1.h := by
        rw [h_T, h_T, h2]
        rfl
      rw [this, hf]
      nofun
    subst this
    exact ⟨.kw .import_ :: .str f :: m, by rw [h1, h2, h6, h7]; simp, .importBare hm⟩
  · rcases h4 with h4 | rfl
    · exact ⟨.kw .import_ :: x ++ .name "from" :: .str f :: m, by rw [h1, h2, h4, h6, h7]; simp, .import_ h3 hm⟩
    · have hT : s.T = .kw .import_ :: x ++ .str f :: m ++ s5.T := by rw [h1, h2, h6, h7]; simp
      refine ⟨.kw .import_ :: x ++ .str f :: m, hT, .importNoFrom ?_ h3 hm⟩
      exact hG _ ⟨[], .kw .import_ :: x ++ [.str f], m ++ s5.T, by rw [hT]; simp, x, f, rfl, h8⟩

theorem expSpec_ok : Spec L (expSpec o) (fun n x => ExpSpec n x) := by
  intro s hG
  unfold expSpec
  ws
  refine wp_spec identKw_ok hG ?_
  rintro _ _ s1 h1 ⟨k, rfl, rfl, hk⟩ _
  w
  refine wp_ite (fun hc => ?_) (fun _ => ?_)
  · w
    refine wp_spec identKw_ok (by assumption) ?_
    rintro _ _ s2 h2 ⟨k', rfl, rfl, hk'⟩ _
    w
    exact ⟨[k, .name "as", k'], by simp [*], .as_ hk hk'⟩
  · w
    exact ⟨_, h1, .name hk⟩

theorem expSpecs_ok (hr : RecOk L r) : Spec L (expSpecs o r) (fun l y => ∃ z, y = z ++ [.pu .braceR] ∧ Specs ExpSpec l z) := by
  intro s hG
  unfold expSpecs
  w
  refine wp_ite (fun hc => ?_) (fun _ => ?_)
  · w
    exact ⟨[.pu .braceR], by simp [*], [], rfl, .nil⟩
  · ws
    refine wp_spec expSpec_ok hG (fun n x s1 h1 h2 _ => ?_)
    w
    refine wp_ite (fun hc => ?_) (fun _ => ?_)
    · w
      refine wp_spec hr.expSpecs (by assumption) ?_
      rintro l _ s3 h5 ⟨z, rfl, hz⟩ _
      w
      exact ⟨x ++ .pu .comma :: z ++ [.pu .braceR], by simp [*], _, rfl, .cons h2 hz⟩
    · w
      exact ⟨x ++ [.pu .braceR], by simp [*], _, rfl, .one h2⟩

theorem exportAll_ok {s0 s : S} (hG : Good L s) (h0 : s0.T = .kw .export_ :: s.T) (hk : s.h = .bin .mul) :
    WP (exportAll o) (fun n s' => ∃ x, s0.T = x ++ s'.T ∧ Stmt L n x) s := by
  unfold exportAll nsName
  w
  rename_i s1 h1 _
  refine wp_ite (fun hc => ?_) (fun _ => ?_)
  · w
    refine wp_spec ident_ok (by assumption) ?_
    rintro _ _ s3 h3 ⟨k', rfl, rfl, hk'⟩ _
    w
    refine wp_spec srcE_ok (by assumption) ?_
    rintro _ _ s5 h5 ⟨f, rfl, rfl⟩ _
    w
    rename_i m s6 h6 hm _
    exact ⟨.kw .export_ :: .bin .mul :: .name "as" :: k' :: .name "from" :: .str f :: m, by simp [*], .exportAllAs hk' hm⟩
  · w
    refine wp_spec srcE_ok (by assumption) ?_
    rintro _ _ s5 h5 ⟨f, rfl, rfl⟩ _
    w
    rename_i m s6 h6 hm _
    exact ⟨.kw .export_ :: .bin .mul :: .name "from" :: .str f :: m, by simp [*], .exportAll hm⟩

theorem exportNamed_ok (hr : RecOk L r) {s0 s : S} (hG : Good L s) (h0 : s0.T = .kw .export_ :: s.T) (hk : s.h = .pu .braceL) :
    WP (exportNamed r) (fun n s' => ∃ x, s0.T = x ++ s'.T ∧ Stmt L n x) s := by
  unfold exportNamed fromOpt
  w
  refine wp_spec hr.expSpecs (by assumption) ?_
  rintro l _ s3 h5 ⟨z, rfl, hz⟩ _
  w
  refine wp_ite (fun hc => ?_) (fun _ => ?_)
  · w
    refine wp_spec srcE_ok (by assumption) ?_
    rintro _ _ s5 h5 ⟨f, rfl, rfl⟩ _
    w
    rename_i m s6 h6 hm _
    exact ⟨.kw .export_ :: .pu .braceL :: z ++ .pu .braceR :: .name "from" :: .str f :: m, by simp [*], .exportFrom hz hm⟩
  · w
    rename_i hq m s6 h6 hm _
    exact ⟨.kw .export_ :: .pu .braceL :: z ++ .pu .braceR :: m, by simp [*], .exportNamed hz hq hm⟩

end

end Mole.Parser.Prog
