import Verif.Parser.JsxLex

/-! # Rules for proofs about the parser of JSX (for C79) -/

namespace Mole.Parser.Jsx

variable {E α β : Type}

/-- If it ends well this holds of the result, if it hangs or is out of fuel, that. -/
def Tr (m : M α) (s : S) (Q : α → S → Prop) (H F : Prop) : Prop :=
  match m s with
  | .ok a s' => Q a s'
  | .err => True
  | .hang => H
  | .fuel => F

theorem tr_bind {m : M α} {f : α → M β} {s : S} {Q : β → S → Prop} {H F : Prop}
    (h : Tr m s (fun a s' => Tr (f a) s' Q H F) H F) : Tr (m >>= f) s Q H F := by
  unfold Tr at h ⊢
  show (match (match m s with | .ok a s' => f a s' | .err => .err | .hang => .hang | .fuel => .fuel) with
    | .ok a s' => Q a s' | .err => True | .hang => H | .fuel => F)
  cases hm : m s with
  | ok a s' => rw [hm] at h; exact h
  | err => trivial
  | hang => rw [hm] at h; exact h
  | fuel => rw [hm] at h; exact h

theorem tr_pure {a : α} {s : S} {Q : α → S → Prop} {H F : Prop} (h : Q a s) : Tr (pure a : M α) s Q H F := h

theorem tr_fail {s : S} {Q : α → S → Prop} {H F : Prop} : Tr (fail : M α) s Q H F := trivial

theorem tr_hang {s : S} {Q : α → S → Prop} {H F : Prop} (h : H) : Tr (hang : M α) s Q H F := h

theorem tr_fuel {s : S} {Q : α → S → Prop} {H F : Prop} (h : F) : Tr (outOfFuel : M α) s Q H F := h

theorem tr_mono {m : M α} {s : S} {Q Q' : α → S → Prop} {H H' F F' : Prop} (h : Tr m s Q H F) (hq : ∀ a s', Q a s' → Q' a s')
    (hh : H → H') (hf : F → F') : Tr m s Q' H' F' := by
  unfold Tr at h ⊢
  cases hm : m s with
  | ok a s' => rw [hm] at h; exact hq a s' h
  | err => trivial
  | hang => rw [hm] at h; exact hh h
  | fuel => rw [hm] at h; exact hf h

theorem tr_push {m : Mode} {s : S} {Q : Unit → S → Prop} {H F : Prop} (h : Q () { s with modes := m :: s.modes }) :
    Tr (pushMode m) s Q H F := h

theorem tr_pop {s : S} {Q : Unit → S → Prop} {H F : Prop} (h : Q () { s with modes := pop s.modes }) : Tr popMode s Q H F := h

theorem tr_get {s : S} {Q : S → S → Prop} {H F : Prop} (h : Q s s) : Tr get s Q H F := h

theorem tr_put {s t : S} {Q : Unit → S → Prop} {H F : Prop} (h : Q () t) : Tr (put t) s Q H F := h

theorem pop_cons {m : Mode} {ms : List Mode} (h : ms ≠ []) : pop (m :: ms) = ms := by
  cases ms with
  | nil => exact absurd rfl h
  | cons a l => rfl

/-- The text not taken yet. -/
def S.text (s : S) : List Nat :=
  match s.buf with
  | some (_, b) => b
  | none => s.rest

/-- A token looked at was read in the mode on top, or in that of the value of an attribute. -/
def Mok (m : Mode) (eff : List Mode) : Prop := m = top eff ∨ (m = .attr ∧ top eff = .jsx)

/-- The modes after a token; of those after a `{` the top does not matter. -/
def After (t : Tok) (eff ms : List Mode) : Prop :=
  (t = .braceL → ∃ x, ms = x :: eff) ∧ (t = .braceR → ms = pop eff) ∧ (t ≠ .braceL → t ≠ .braceR → ms = eff)

/-- The modes are these, but for the token read ahead. -/
def Inv (C : Cfg E) (eff : List Mode) (s : S) : Prop :=
  (s.buf = none → s.modes = eff) ∧
  ∀ t b, s.buf = some (t, b) → t ≠ .eof ∧ After t eff s.modes ∧ ∃ m, Mok m eff ∧ ∃ w, lex C m b = (w, t, s.rest)

/-- This token was taken. -/
def Took (C : Cfg E) (eff : List Mode) (t : Tok) (b : List Nat) (s' : S) : Prop :=
  s'.buf = none ∧ t ≠ .eof ∧ After t eff s'.modes ∧ ∃ m, Mok m eff ∧ ∃ w, lex C m b = (w, t, s'.rest)

theorem act_after (t : Tok) (ms : List Mode) : After t ms (act t ms) := by
  cases t <;> simp [After, act]

theorem inv_none {C : Cfg E} {eff : List Mode} {s : S} (hb : s.buf = none) (hm : s.modes = eff) : Inv C eff s :=
  ⟨fun _ => hm, by intro t b h; rw [hb] at h; cases h⟩

theorem text_none {s : S} (hb : s.buf = none) : s.text = s.rest := by simp [S.text, hb]

theorem text_some {s : S} {t : Tok} {b : List Nat} (hb : s.buf = some (t, b)) : s.text = b := by simp [S.text, hb]

theorem tr_peek {C : Cfg E} {eff : List Mode} {s : S} {Q : Tok → S → Prop} {H F : Prop} (hi : Inv C eff s)
    (h0 : s.buf = none → Q .eof s)
    (h1 : ∀ t s', t ≠ .eof → Inv C eff s' → s'.text = s.text → s'.buf = some (t, s.text) →
      (s.buf = none → s'.ws = (lex C (top eff) s.text).1) → (s.buf ≠ none → s' = s) → Q t s') :
    Tr (peek C) s Q H F := by
  unfold Tr peek
  cases hb : s.buf with
  | some x =>
    obtain ⟨t, b⟩ := x
    simp only
    have := (hi.2 t b hb).1
    exact h1 t s this hi rfl (by rw [text_some hb]; exact hb) (by rw [hb]; nofun) (fun _ => rfl)
  | none =>
    simp only
    cases hl : lex C (top s.modes) s.rest with
    | mk w x =>
      obtain ⟨t, r⟩ := x
      simp only
      have hm := hi.1 hb
      by_cases ht : t = .eof
      · rw [if_pos ht]
        exact h0 hb
      · rw [if_neg ht]
        refine h1 t _ ht ?_ ?_ ?_ ?_ ?_
        · refine ⟨by simp, ?_⟩
          intro t' b' e
          simp only [Option.some.injEq, Prod.mk.injEq] at e
          obtain ⟨rfl, rfl⟩ := e
          refine ⟨ht, ?_, top s.modes, .inl (by rw [hm]), w, hl⟩
          simp only
          rw [← hm]
          exact act_after _ _
        · simp [S.text, hb]
        · simp [S.text, hb]
        · intro _
          simp only [text_none hb, ← hm, hl]
        · intro h; exact absurd hb h

theorem tr_next_buf {C : Cfg E} {s : S} {t : Tok} {b : List Nat} {Q : Tok → S → Prop} {H F : Prop} (hb : s.buf = some (t, b))
    (h : Q t { s with buf := none }) : Tr (next C) s Q H F := by
  refine tr_bind ?_
  unfold Tr peek
  simp only [hb]
  exact h

theorem took_of {C : Cfg E} {eff : List Mode} {s : S} {t : Tok} {b : List Nat} (hi : Inv C eff s) (hb : s.buf = some (t, b)) :
    Took C eff t b { s with buf := none } := by
  obtain ⟨h1, h2, h3⟩ := hi.2 t b hb
  exact ⟨rfl, h1, h2, h3⟩

theorem tr_next {C : Cfg E} {eff : List Mode} {s : S} {Q : Tok → S → Prop} {H F : Prop} (hi : Inv C eff s)
    (h0 : Q .eof { s with buf := none }) (h1 : ∀ t s', Took C eff t s.text s' → Q t s') : Tr (next C) s Q H F := by
  refine tr_bind (tr_peek hi (fun hb => ?_) ?_)
  · exact h0
  · intro t s' _ hi' _ hb _ _
    exact h1 t _ (took_of hi' hb)

theorem tr_must {C : Cfg E} {eff : List Mode} {s : S} {t : Tok} {Q : Unit → S → Prop} {H F : Prop} (hi : Inv C eff s) (ht : t ≠ .eof)
    (h1 : ∀ s', Took C eff t s.text s' → Q () s') : Tr (must C t) s Q H F := by
  refine tr_bind (tr_next hi ?_ ?_)
  · rw [if_neg (fun e => ht e.symm)]
    exact tr_fail
  · intro t' s' hT
    split
    · rename_i e
      subst e
      exact tr_pure (h1 s' hT)
    · exact tr_fail

theorem Took.inv {C : Cfg E} {eff : List Mode} {t : Tok} {b : List Nat} {s' : S} (h : Took C eff t b s') (h1 : t ≠ .braceL)
    (h2 : t ≠ .braceR) : Inv C eff s' := inv_none h.1 (h.2.2.1.2.2 h1 h2)

/-- In a tag. -/
theorem Took.tag {C : Cfg E} {eff : List Mode} {t : Tok} {b : List Nat} {s' : S} (h : Took C eff t b s') (he : top eff = .jsx)
    (ht : t ≠ .bad) : ∃ s1, Gap true b s1 ∧ TokOk C t s1 s'.rest := by
  obtain ⟨-, -, -, m, hm, w, hl⟩ := h
  have hc : m ≠ .child := by
    rcases hm with rfl | ⟨rfl, -⟩
    · rw [he]; decide
    · decide
  obtain ⟨-, s1, g1, -, g2, -⟩ := lex_ok hc hl ht
  exact ⟨s1, g1, g2⟩

/-- Where an expression or the value of an attribute begins. -/
theorem Took.plain {C : Cfg E} {eff : List Mode} {t : Tok} {b : List Nat} {s' : S} (h : Took C eff t b s')
    (he : top eff = .none ∨ top eff = .attr) (ht : t ≠ .bad) :
    ∃ s1, Triv b s1 ∧ TokOk C t s1 s'.rest ∧
      (top eff = .attr → ∀ v, t = .str v → ∃ k, (k = 34 ∨ k = 39) ∧ s1 = k :: (v ++ k :: s'.rest) ∧ k ∉ v) := by
  obtain ⟨-, -, -, m, hm, w, hl⟩ := h
  have hm' : m = top eff := by
    rcases hm with rfl | ⟨rfl, h⟩
    · rfl
    · rw [h] at he; rcases he with he | he <;> cases he
  have hc : m ≠ .child := by rw [hm']; rcases he with he | he <;> rw [he] <;> decide
  have hj : m ≠ .jsx := by rw [hm']; rcases he with he | he <;> rw [he] <;> decide
  obtain ⟨-, s1, -, g1, g2, g3, -⟩ := lex_ok hc hl ht
  exact ⟨s1, g1 hj, g2, fun h => g3 (hm'.trans h)⟩

/-- A `}` where a loop would not end: between tags, directly after another tag or `}`. -/
def HangAt (t : List Nat) : Prop :=
  ∃ u c w v, t = u ++ c :: (w ++ '}'.toNat :: v) ∧ (c = '>'.toNat ∨ c = '}'.toNat) ∧ ∀ x ∈ w, Span.White x

theorem hangAt_suffix {s t : List Nat} (h : HangAt s) (hs : s <:+ t) : HangAt t := by
  obtain ⟨u, c, w, v, rfl, h1, h2⟩ := h
  obtain ⟨p, rfl⟩ := hs
  exact ⟨p ++ u, c, w, v, by simp, h1, h2⟩

theorem hangAt_brace {t : List Nat} (h : HangAt (62 :: t)) : HangAt (125 :: t) := by
  obtain ⟨u, c, w, v, e, h1, h2⟩ := h
  cases u with
  | nil =>
    simp only [List.nil_append, List.cons.injEq] at e
    exact ⟨[], 125, w, v, by rw [e.2]; rfl, .inr rfl, h2⟩
  | cons d u =>
    simp only [List.cons_append, List.cons.injEq] at e
    exact ⟨125 :: u, c, w, v, by rw [e.2]; rfl, h1, h2⟩

theorem hangAt_other {t : List Nat} (ht : ∀ c u, t = c :: u → c = 123 ∨ c = 60) (h : HangAt (62 :: t)) : HangAt t := by
  obtain ⟨u, c, w, v, e, h1, h2⟩ := h
  cases u with
  | nil =>
    exfalso
    simp only [List.nil_append, List.cons.injEq] at e
    cases w with
    | nil => rcases ht _ _ e.2 with h | h <;> cases h
    | cons d w =>
      have := h2 d (by simp)
      rcases ht _ _ e.2 with h | h <;> (subst h; revert this; decide)
  | cons d u =>
    simp only [List.cons_append, List.cons.injEq] at e
    exact ⟨u, c, w, v, e.2, h1, h2⟩

theorem jsxLoop_stop {ents : List Nat → Option (List Nat)} (n : Nat) : ∀ (i : Nat) (en rs s v r : List Nat),
    Lexer.jsxLoop ents n i en rs s = some (.ok (.txt v r)) → r <:+ s ∧ (∀ c u, r = c :: u → c = 123 ∨ c = 60) := by
  have rds : ∀ s : List Nat, (Lexer.rd s).2 <:+ s := by
    intro s
    unfold Lexer.rd
    split
    · exact List.suffix_refl _
    · split
      · split
        · exact ⟨[_], rfl⟩
        · split
          · exact ⟨[_, _], rfl⟩
          · exact ⟨[_], rfl⟩
      · exact ⟨[_], rfl⟩
  induction n with
  | zero => intro i en rs s v r h; simp [Lexer.jsxLoop] at h
  | succ n ih =>
    intro i en rs s v r h
    cases s with
    | nil =>
      simp only [Lexer.jsxLoop] at h
      split at h
      · cases h
      · cases h; simp
    | cons c t =>
      simp only [Lexer.jsxLoop] at h
      split at h
      · rename_i hc
        cases h
        refine ⟨List.suffix_refl _, fun c' u e => ?_⟩
        cases e
        exact hc
      · split at h
        · split at h
          · split at h
            · have := ih _ _ _ _ _ _ h
              exact ⟨this.1.trans (rds _), this.2⟩
            · cases h
          · have := ih _ _ _ _ _ _ h
            exact ⟨this.1.trans (rds _), this.2⟩
        · split at h
          · rename_i x rest hr
            have := ih _ _ _ _ _ _ h
            refine ⟨this.1.trans ?_, this.2⟩
            have hh := rds (c :: t)
            rw [hr] at hh
            exact hh
          · rename_i rest hr
            have := ih _ _ _ _ _ _ h
            refine ⟨this.1.trans ?_, this.2⟩
            have hh := rds (c :: t)
            rw [hr] at hh
            exact hh

/-- A text between tags is not empty, and before a `{` or `<` or the end. -/
theorem text_stop {C : Cfg E} {w v r : List Nat} {c : Nat} {s : List Nat} (hc : c ≠ 123 ∧ c ≠ 60)
    (h : Lexer.readJSXTxt C.ents w (c :: s) = some (.ok (.txt v r))) :
    (∃ u, u ≠ [] ∧ c :: s = u ++ r) ∧ (∀ c u, r = c :: u → c = 123 ∨ c = 60) := by
  unfold Lexer.readJSXTxt at h
  split at h
  · rename_i text rest hl
    cases h
    obtain ⟨⟨u, hu⟩, h2⟩ := jsxLoop_stop _ _ _ _ _ _ _ hl
    refine ⟨⟨u, ?_, hu.symm⟩, h2⟩
    intro e
    rw [e] at hu
    have := h2 c s hu
    omega
  · rename_i h3
    exact absurd h (h3 v r)

/-- The tokens between tags. -/
theorem childTok_ok {C : Cfg E} {w s : List Nat} {t : Tok} {r : List Nat} (h : childTok C w s = (t, r)) :
    (t = .eof ∨ t = .bad) ∨ (t = .braceL ∧ s = 123 :: r) ∨ (t = .braceR ∧ s = 125 :: r) ∨ (t = .lt ∧ s = 60 :: r) ∨
      ∃ v c u, t = .txt v ∧ s = c :: u ∧ c ∉ [123, 125, 60] ∧ Lexer.readJSXTxt C.ents w (c :: u) = some (.ok (.txt v r)) := by
  unfold childTok at h
  split at h
  · cases h; simp
  · rename_i c u
    split at h
    · cases h; simp_all
    split at h
    · cases h; simp_all
    split at h
    · cases h; simp_all
    rename_i h1 h2 h3
    split at h
    · rename_i v r' hr
      cases h
      exact .inr (.inr (.inr (.inr ⟨_, c, u, rfl, rfl, by simp [h1, h2, h3], hr⟩)))
    · cases h; simp
    · cases h; simp

end Mole.Parser.Jsx
