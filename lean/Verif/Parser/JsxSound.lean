import Verif.Parser.JsxTr

/-! # What is accepted as a JSX element (for C79) -/

namespace Mole.Parser.Jsx

variable {E : Type}

/-- The readers of expressions leave an end of the text they get. -/
def Cfg.Leaves (C : Cfg E) : Prop := ∀ s e r, C.expr s = some (e, r) ∨ C.asg s = some (e, r) → r <:+ s

/-- After a `{`. -/
theorem jsxExpr_tr {C : Cfg E} (hC : C.Leaves) {eff : List Mode} {x : Mode} {s : S} (he : eff ≠ []) (hb : s.buf = none)
    (hm : s.modes = x :: eff) {H F : Prop} :
    Tr (jsxExpr C) s (fun b s' => s'.buf = none ∧ s'.modes = eff ∧ BoxAt C true b s.rest s'.rest ∧ (125 :: s'.rest) <:+ s.rest) H F := by
  unfold jsxExpr
  refine tr_bind (tr_push ?_)
  refine tr_bind (tr_get ?_)
  have hi : Inv C (.none :: x :: eff) { s with modes := .none :: s.modes } := inv_none hb (by simp [hm])
  have htx : S.text { s with modes := .none :: s.modes } = s.rest := text_none hb
  have pop2 : pop (pop (Mode.none :: x :: eff)) = eff := by
    rw [pop_cons (by simp), pop_cons he]
  have last : ∀ (b : List Nat) (s' : S), Took C (.none :: x :: eff) .braceR b s' →
      s'.buf = none ∧ pop s'.modes = eff ∧ Triv b (125 :: s'.rest) := by
    intro b s' hT
    obtain ⟨s1, g1, g2, -⟩ := hT.plain (.inl rfl) (by decide)
    rw [TokOk] at g2
    subst g2
    exact ⟨hT.1, by rw [hT.2.2.1.2.1 rfl, pop2], g1⟩
  refine tr_bind (tr_peek hi (fun _ => ?_) ?_)
  · rw [if_neg (by decide), if_neg (by decide)]
    refine tr_bind (tr_put ?_)
    refine tr_bind ?_
    unfold Tr exprE
    cases hx : C.expr s.rest with
    | none => simp [hx]
    | some p =>
      obtain ⟨e, r⟩ := p
      simp only [hx]
      refine tr_bind (tr_must (eff := .none :: x :: eff) (inv_none rfl (by simp [hm])) (by decide) ?_)
      intro s' hT
      obtain ⟨l1, l2, l3⟩ := last _ _ hT
      refine tr_bind (tr_pop (tr_pure ⟨l1, l2, .expr (by simp) hx l3, ?_⟩))
      exact (triv_suffix l3).trans (hC _ _ _ (.inl hx))
  · intro t s1 ht hi1 htx1 hb1 _ _
    rw [htx] at htx1 hb1
    split
    · rename_i e
      subst e
      refine tr_bind (tr_next_buf hb1 ?_)
      have hT := took_of hi1 hb1
      obtain ⟨u, g1, g2, -⟩ := hT.plain (.inl rfl) (by decide)
      rw [TokOk] at g2
      subst g2
      simp only at g1
      refine tr_bind ?_
      unfold Tr asgE
      simp only
      cases hx : C.asg s1.rest with
      | none => trivial
      | some p =>
        obtain ⟨e, r⟩ := p
        simp only
        have hm1 : s1.modes = .none :: x :: eff := hT.2.2.1.2.2 (by decide) (by decide)
        refine tr_bind (tr_must (eff := .none :: x :: eff) (inv_none rfl hm1) (by decide) ?_)
        intro s' hT'
        obtain ⟨l1, l2, l3⟩ := last _ _ hT'
        refine tr_bind (tr_pop (tr_pure ⟨l1, l2, .spread g1 hx l3, ?_⟩))
        have := (triv_suffix l3).trans (hC _ _ _ (.inr hx))
        exact (this.trans ⟨[46, 46, 46], rfl⟩).trans (triv_suffix g1)
    · split
      · rename_i e
        subst e
        refine tr_bind (tr_next_buf hb1 ?_)
        obtain ⟨l1, l2, l3⟩ := last _ _ (took_of hi1 hb1)
        exact tr_bind (tr_pop (tr_pure ⟨l1, l2, .empty l3, triv_suffix l3⟩))
      · refine tr_bind (tr_put ?_)
        refine tr_bind ?_
        unfold Tr exprE
        simp only
        cases hx : C.expr s.rest with
        | none => trivial
        | some p =>
          obtain ⟨e, r⟩ := p
          simp only
          refine tr_bind (tr_must (eff := .none :: x :: eff) (inv_none rfl (by simp [hm])) (by decide) ?_)
          intro s' hT
          obtain ⟨l1, l2, l3⟩ := last _ _ hT
          refine tr_bind (tr_pop (tr_pure ⟨l1, l2, .expr (by simp) hx l3, ?_⟩))
          exact (triv_suffix l3).trans (hC _ _ _ (.inl hx))

/-- `a` is a proper end of `b`. -/
def Below (a b : List Nat) : Prop := ∃ u, u ≠ [] ∧ b = u ++ a

theorem Below.suffix {a b : List Nat} (h : Below a b) : a <:+ b := by
  obtain ⟨u, -, e⟩ := h
  exact ⟨u, e.symm⟩

theorem Below.lt {a b : List Nat} (h : Below a b) : a.length < b.length := by
  obtain ⟨u, hu, e⟩ := h
  rw [e]
  have := List.length_pos_iff.mpr hu
  simp; omega

theorem Below.of_suffix {a b c : List Nat} (h : Below a b) (g : b <:+ c) : Below a c := by
  obtain ⟨u, hu, rfl⟩ := h
  obtain ⟨v, rfl⟩ := g
  exact ⟨v ++ u, by simp [hu], by simp⟩

theorem Below.after {a b c : List Nat} (g : a <:+ b) (h : Below b c) : Below a c := by
  obtain ⟨u, hu, rfl⟩ := h
  obtain ⟨v, rfl⟩ := g
  exact ⟨u ++ v, by simp [hu], by simp⟩

theorem below_cons {c : Nat} {a : List Nat} : Below a (c :: a) := ⟨[c], by simp, rfl⟩

theorem nameAt_ne {T : Lexer.IdTables} {s n : List Nat} {e : Bool} (h : Lexer.NameAt T true s n e) : s ≠ [] := by
  cases h <;> simp

theorem jsxId_tr {C : Cfg E} {eff : List Mode} {s : S} (hi : Inv C eff s) (he : top eff = .jsx) {H F : Prop} :
    Tr (jsxId C) s (fun v s' => s'.buf = none ∧ Inv C eff s' ∧ ∃ t, Gap true s.text t ∧ IdAt C true v t s'.rest ∧
      Below s'.rest s.text) H F := by
  unfold jsxId
  refine tr_bind (tr_next hi tr_fail ?_)
  intro t s' hT
  cases t with
  | name v =>
    refine tr_pure ?_
    obtain ⟨s1, g1, src, esc, g2, g3, g4⟩ := hT.tag he (by simp)
    refine ⟨hT.1, hT.inv (by simp) (by simp), s1, g1, ⟨src, esc, g2, g3, g4, by simp⟩, ?_⟩
    exact Below.of_suffix ⟨src, nameAt_ne g3, g2⟩ (gap_suffix g1)
  | _ => exact tr_fail

theorem ident_tr {C : Cfg E} {eff : List Mode} {s : S} (hi : Inv C eff s) (he : top eff = .jsx) {H F : Prop} :
    Tr (ident C) s (fun v s' => s'.buf = none ∧ Inv C eff s' ∧ ∃ t, Gap true s.text t ∧ PropAt C true v t s'.rest ∧
      Below s'.rest s.text) H F := by
  unfold ident
  refine tr_bind (tr_next hi tr_fail ?_)
  intro t s' hT
  cases t with
  | name v =>
    simp only
    split
    · rename_i hp
      refine tr_pure ?_
      obtain ⟨s1, g1, src, esc, g2, g3, g4⟩ := hT.tag he (by simp)
      refine ⟨hT.1, hT.inv (by simp) (by simp), s1, g1, ⟨hp, src, esc, g2, g3, by rw [g4]; decide, by simp⟩, ?_⟩
      exact Below.of_suffix ⟨src, nameAt_ne g3, g2⟩ (gap_suffix g1)
    · exact tr_fail
  | word v c =>
    cases c with
    | false => exact tr_fail
    | true =>
      simp only
      split
      · rename_i hp
        refine tr_pure ?_
        obtain ⟨s1, g1, src, esc, g2, g3, g4⟩ := hT.tag he (by simp)
        refine ⟨hT.1, hT.inv (by simp) (by simp), s1, g1, ⟨hp, src, esc, g2, g3, g4, by simp⟩, ?_⟩
        exact Below.of_suffix ⟨src, nameAt_ne g3, g2⟩ (gap_suffix g1)
      · exact tr_fail
  | _ => exact tr_fail

theorem jsxMember_tr {C : Cfg E} {eff : List Mode} (he : top eff = .jsx) {H : Prop} (n : Nat) :
    ∀ (o : Name) (s : S) (t0 : List Nat), Inv C eff s → MemberAt C true o t0 s.text →
      Tr (jsxMember C n o) s (fun nm s' => Inv C eff s' ∧ MemberAt C true nm t0 s'.text ∧ s'.text <:+ s.text) H (n ≤ s.text.length) := by
  induction n with
  | zero => intro o s t0 _ _; exact tr_fuel (Nat.zero_le _)
  | succ n ih =>
    intro o s t0 hi ho
    unfold jsxMember
    refine tr_bind (tr_peek hi (fun hb => ?_) ?_)
    · rw [if_neg (by decide)]
      exact tr_pure ⟨hi, ho, List.suffix_refl _⟩
    · intro t s1 ht hi1 htx hb1 _ _
      split
      · rename_i e
        subst e
        refine tr_bind (tr_next_buf hb1 ?_)
        have hT := took_of hi1 hb1
        obtain ⟨u, g1, g2⟩ := hT.tag he (by decide)
        rw [TokOk] at g2
        subst g2
        refine tr_bind (tr_mono (ident_tr (hT.inv (by decide) (by decide)) he) ?_ id id)
        rintro v s2 ⟨k1, k2, t2, k3, k4, k5⟩
        rw [text_none rfl] at k3 k5
        have hs : s2.text = s2.rest := text_none k1
        have hlt : Below s2.text s.text := by
          rw [hs]
          exact Below.of_suffix k5 ((List.suffix_cons 46 _).trans (gap_suffix g1))
        refine tr_mono (ih _ s2 t0 k2 (by rw [hs]; exact .member ho g1 k3 k4)) ?_ id ?_
        · rintro nm s3 ⟨m1, m2, m3⟩
          exact ⟨m1, m2, m3.trans hlt.suffix⟩
        · have := hlt.lt
          omega
      · exact tr_pure ⟨hi1, by rw [htx]; exact ho, by rw [htx]; exact List.suffix_refl _⟩

theorem jsxName0_tr {C : Cfg E} {eff : List Mode} (he : top eff = .jsx) {H : Prop} (n : Nat) {s : S} (hi : Inv C eff s) :
    Tr (jsxName0 C n) s (fun nm s' => Inv C eff s' ∧ ∃ t, Gap true s.text t ∧ PathAt C true nm t s'.text ∧ Below s'.text s.text)
      H (n < s.text.length) := by
  unfold jsxName0
  refine tr_bind (tr_mono (jsxId_tr hi he) ?_ id id)
  rintro v s1 ⟨h1, h2, t, h3, h4, h5⟩
  have hs : s1.text = s1.rest := text_none h1
  rw [← hs] at h4 h5
  refine tr_bind (tr_peek h2 (fun hb => ?_) ?_)
  · rw [if_neg (by decide), if_neg (by simp)]
    exact tr_pure ⟨h2, t, h3, .member (.id h4), h5⟩
  · intro a s2 ha hi2 htx hb2 _ _
    split
    · refine tr_mono (jsxMember_tr he n (.id v) s2 t hi2 (by rw [htx]; exact .id h4)) ?_ id ?_
      · rintro nm s3 ⟨m1, m2, m3⟩
        rw [htx] at m3
        exact ⟨m1, t, h3, .member m2, h5.after m3⟩
      · rw [htx]
        have := h5.lt
        omega
    · split
      · rename_i hc
        obtain ⟨rfl, hns⟩ := hc
        refine tr_bind (tr_must hi2 (by decide) ?_)
        intro s3 hT
        rw [htx] at hT
        obtain ⟨u, g1, g2⟩ := hT.tag he (by decide)
        rw [TokOk] at g2
        subst g2
        refine tr_bind (tr_mono (jsxId_tr (hT.inv (by decide) (by decide)) he) ?_ id id)
        rintro w s4 ⟨k1, k2, t2, k3, k4, k5⟩
        rw [text_none hT.1] at k3 k5
        have hs4 : s4.text = s4.rest := text_none k1
        refine tr_pure ⟨k2, t, h3, .ns hns h4 g1 k3 (by rw [hs4]; exact k4), ?_⟩
        rw [hs4]
        exact Below.of_suffix (k5.of_suffix ((List.suffix_cons 58 _).trans (gap_suffix g1))) h5.suffix
      · exact tr_pure ⟨hi2, t, h3, .member (.id (by rw [htx]; exact h4)), by rw [htx]; exact h5⟩

/-- The first character from which on the children are read: white space may have been taken already. -/
def KPos (C : Cfg E) (s : S) (k : List Nat) : Prop :=
  (s.buf = none ∧ k = s.rest) ∨ ∃ t b, s.buf = some (t, b) ∧
    ((s.ws = (lex C .child b).1 ∧ k = b) ∨ (t = .braceL ∧ s.ws = [] ∧ k = 123 :: s.rest))

/-- About the recursive calls. -/
structure Specs (C : Cfg E) (r : Rec E) (n : Nat) : Prop where
  jsx : ∀ root opening eff s b, eff ≠ [] → s.buf = some (.lt, b) → s.modes = eff →
    Tr (r.jsx root opening) s (fun x s' =>
      match x with
      | .inl e => Inv C eff s' ∧ ElemAt C true e (60 :: s.rest) s'.text ∧ (62 :: s'.text) <:+ s.rest ∧
          (∀ t b', s'.buf = some (t, b') → s'.ws = (lex C (top eff) b').1)
      | .inr c => opening = true ∧ s'.buf = none ∧ s'.modes = eff ∧ CloseAt C true c (60 :: s.rest) s'.rest ∧
          (62 :: s'.rest) <:+ s.rest) (HangAt s.rest) (n ≤ 3 * s.rest.length + 2)
  attrs : ∀ base s, base ≠ [] → Inv C (.jsx :: base) s →
    Tr r.attrs s (fun l s' => Inv C (.jsx :: base) s' ∧ AttrsAt C true l s.text s'.text ∧ s'.text <:+ s.text)
      (HangAt s.text) (n ≤ 3 * s.text.length + 2)
  kids : ∀ base o s k, base ≠ [] → Inv C (.child :: base) s → KPos C s k →
    Tr (r.kids o) s (fun x s' => s'.buf = none ∧ s'.modes = .child :: base ∧ (∃ mid, KidsAt C true x.1 k mid ∧
      CloseAt C true x.2 mid s'.rest) ∧ pathOf o = pathOf x.2 ∧ (62 :: s'.rest) <:+ k) (HangAt (62 :: k)) (n ≤ 3 * k.length)

theorem jsxName_tr {C : Cfg E} {r : Rec E} {n : Nat} (R : Specs C r n) {base : List Mode} {s : S}
    (hi : Inv C (.jsx :: base) s) :
    Tr (jsxName C r n) s (fun nm s' => Inv C (.jsx :: base) s' ∧ ∃ t t1, Gap true s.text t ∧ PathAt C true nm t t1 ∧
      DropAt C true t1 s'.text ∧ Below s'.text s.text) (HangAt s.text) (n ≤ 3 * s.text.length) := by
  unfold jsxName
  refine tr_bind (tr_mono (jsxName0_tr rfl n hi) ?_ id (by omega))
  rintro nm s1 ⟨h1, t, h2, h3, h4⟩
  refine tr_bind (tr_peek h1 (fun hb => ?_) ?_)
  · rw [if_neg (by decide)]
    exact tr_pure ⟨h1, t, _, h2, h3, .none, h4⟩
  · intro a s2 ha hi2 htx hb2 _ _
    split
    · rename_i e
      subst e
      have hT := took_of hi2 hb2
      obtain ⟨u, g1, g2⟩ := hT.tag rfl (by decide)
      rw [TokOk] at g2
      subst g2
      have hm : s2.modes = .jsx :: base := hT.2.2.1.2.2 (by decide) (by decide)
      have hsuf : (60 :: s2.rest) <:+ s.text := (gap_suffix g1).trans h4.suffix
      refine tr_bind (tr_mono (R.jsx true false (.jsx :: base) s2 _ (by simp) hb2 hm) ?_ ?_ ?_)
      · rintro x s3 h
        cases x with
        | inr c => exact absurd h.1 (by simp)
        | inl e =>
          obtain ⟨i1, i2, i3, -⟩ := h
          split
          · refine tr_pure ⟨i1, t, _, h2, h3, .elem rfl g1 i2, ?_⟩
            exact (Below.of_suffix below_cons i3).of_suffix ((List.suffix_cons 60 _).trans hsuf)
          · exact tr_fail
      · intro h
        exact hangAt_suffix h ((List.suffix_cons 60 _).trans hsuf)
      · intro h
        have := hsuf.length_le
        simp at this
        have := h4.lt
        have h5 := (gap_suffix g1).length_le
        simp at h5
        omega
    · exact tr_pure ⟨hi2, t, _, h2, h3, by rw [htx]; exact .none, by rw [htx]; exact h4⟩

/-- A token that has been read is read again. -/
theorem tr_peek_some {C : Cfg E} {s : S} {t : Tok} {b : List Nat} (hb : s.buf = some (t, b)) {Q : Tok → S → Prop} {H F : Prop}
    (h : Q t s) : Tr (peek C) s Q H F := by
  unfold Tr peek
  simp only [hb]
  exact h

/-- Leaving the mode of the value of an attribute. -/
theorem inv_pop {C : Cfg E} {base : List Mode} {s : S} (hi : Inv C (.attr :: .jsx :: base) s) :
    Inv C (.jsx :: base) { s with modes := pop s.modes } := by
  refine ⟨fun hb => ?_, fun t b hb => ?_⟩
  · simp only [hi.1 hb]
    exact pop_cons (by simp)
  · obtain ⟨h1, ⟨a1, a2, a3⟩, m, hm, w, hl⟩ := hi.2 t b hb
    refine ⟨h1, ⟨fun e => ?_, fun e => ?_, fun e1 e2 => ?_⟩, m, ?_, w, hl⟩
    · obtain ⟨x, hx⟩ := a1 e
      simp only [hx]
      exact ⟨.attr, by rw [pop_cons (by simp)]⟩
    · simp only [a2 e]
      rw [pop_cons (by simp)]
    · simp only [a3 e1 e2]
      rw [pop_cons (by simp)]
    · rcases hm with rfl | ⟨rfl, h⟩
      · exact .inr ⟨rfl, rfl⟩
      · simp [top] at h

theorem jsxAttr_tr {C : Cfg E} (hC : C.Leaves) {r : Rec E} {n : Nat} (R : Specs C r n) {base : List Mode} {s : S}
    (hi : Inv C (.jsx :: base) s) (hbase : base ≠ []) :
    Tr (jsxAttr C r n) s (fun a s' => Inv C (.jsx :: base) s' ∧ ∃ t, Gap true s.text t ∧ AttrAt C true a t s'.text ∧
      Below s'.text s.text) (HangAt s.text) (n ≤ 3 * s.text.length) := by
  have name : ∀ s0 : S, Inv C (.jsx :: base) s0 → s0.text = s.text → Tr (do
      let nm ← jsxName C r n
      pushMode .attr
      let a ← peek C
      if a ≠ .assign then do
        popMode
        return .attr nm none
      else do
        let _ ← next C
        let a ← peek C
        if a = .braceL then do
          let _ ← next C
          let v ← jsxExpr C
          popMode
          return .attr nm (some v)
        else match a with
          | .str v => do
            let _ ← next C
            popMode
            return .attr nm (some (.str v))
          | .lt => do
            let e ← r.jsx true false
            popMode
            match e with
            | .inl e => return .attr nm (some e)
            | .inr _ => fail
          | _ => do
            popMode
            return .attr nm none) s0 (fun a s' => Inv C (.jsx :: base) s' ∧ ∃ t, Gap true s.text t ∧ AttrAt C true a t s'.text ∧
      Below s'.text s.text) (HangAt s.text) (n ≤ 3 * s.text.length) := by
    intro s0 hi0 htx0
    refine tr_bind (tr_mono (jsxName_tr R hi0) ?_ (by rw [htx0]; exact id) (by rw [htx0]; exact id))
    rintro nm s1 ⟨h1, t, t1, h2, h3, h4, h5⟩
    rw [htx0] at h2 h5
    -- after `=`
    have value : ∀ s3 : S, s3.buf = none → s3.modes = .attr :: .jsx :: base → ∀ g : Gap true s1.text (61 :: s3.rest),
        Tr (do
        let a ← peek C
        if a = .braceL then do
          let _ ← next C
          let v ← jsxExpr C
          popMode
          return .attr nm (some v)
        else match a with
          | .str v => do
            let _ ← next C
            popMode
            return .attr nm (some (.str v))
          | .lt => do
            let e ← r.jsx true false
            popMode
            match e with
            | .inl e => return .attr nm (some e)
            | .inr _ => fail
          | _ => do
            popMode
            return .attr nm none) s3 (fun a s' => Inv C (.jsx :: base) s' ∧ ∃ t, Gap true s.text t ∧ AttrAt C true a t s'.text ∧
        Below s'.text s.text) (HangAt s.text) (n ≤ 3 * s.text.length) := by
      intro s3 hb3 hm3 g
      have hi3 : Inv C (.attr :: .jsx :: base) s3 := inv_none hb3 hm3
      have htx3 : s3.text = s3.rest := text_none hb3
      have hsuf : s3.rest <:+ s.text := ((List.suffix_cons 61 _).trans (gap_suffix g)).trans h5.suffix
      have missing : ∀ s4 : S, Inv C (.attr :: .jsx :: base) s4 → s4.text = s3.text →
          Tr (do popMode; return (J.attr nm none : J E)) s4 (fun a s' => Inv C (.jsx :: base) s' ∧ ∃ t, Gap true s.text t ∧
            AttrAt C true a t s'.text ∧ Below s'.text s.text) (HangAt s.text) (n ≤ 3 * s.text.length) := by
        intro s4 hi4 htx4
        refine tr_bind (tr_pop (tr_pure ⟨inv_pop hi4, t, h2, ?_, ?_⟩))
        · show AttrAt C true _ t s4.text
          rw [htx4, htx3]
          exact .missing rfl h3 h4 g
        · show Below s4.text _
          rw [htx4, htx3]
          exact (Below.of_suffix below_cons (gap_suffix g)).of_suffix h5.suffix
      refine tr_bind (tr_peek hi3 (fun _ => ?_) ?_)
      · rw [if_neg (by decide)]
        exact missing s3 hi3 rfl
      · intro a s4 ha hi4 htx4 hb4 _ _
        rw [htx3] at htx4 hb4
        split
        · rename_i e
          subst e
          refine tr_bind (tr_next_buf hb4 ?_)
          have hT := took_of hi4 hb4
          obtain ⟨u, g1, g2, -⟩ := hT.plain (.inr rfl) (by decide)
          rw [TokOk] at g2
          subst g2
          obtain ⟨x, hx⟩ := hT.2.2.1.1 rfl
          refine tr_bind (tr_mono (jsxExpr_tr hC (by simp) hT.1 hx) ?_ id id)
          rintro b s5 ⟨k1, k2, k3, k4⟩
          refine tr_bind (tr_pop (tr_pure ⟨inv_pop (inv_none k1 k2), t, h2, ?_, ?_⟩))
          · have e5 : S.text { s5 with modes := pop s5.modes } = s5.rest := text_none k1
            rw [e5]
            exact .box h3 h4 g g1 k3 (by simp)
          · have e5 : S.text { s5 with modes := pop s5.modes } = s5.rest := text_none k1
            rw [e5]
            exact (Below.of_suffix below_cons k4).of_suffix (((List.suffix_cons 123 _).trans (triv_suffix g1)).trans hsuf)
        · cases a with
          | str v =>
            simp only
            refine tr_bind (tr_next_buf hb4 ?_)
            have hT := took_of hi4 hb4
            obtain ⟨u, g1, -, g3⟩ := hT.plain (.inr rfl) (by simp)
            obtain ⟨k, g4, g5, g6⟩ := g3 rfl v rfl
            subst g5
            have hm4 : s4.modes = .attr :: .jsx :: base := hT.2.2.1.2.2 (by simp) (by simp)
            refine tr_bind (tr_pop (tr_pure ⟨inv_pop (inv_none rfl hm4), t, h2, ?_, ?_⟩))
            · exact .str h3 h4 g g1 g4 rfl g6
            · have := triv_suffix g1
              exact (Below.of_suffix ⟨k :: (v ++ [k]), by simp, by simp [S.text]⟩ this).of_suffix hsuf
          | lt =>
            simp only
            have hT := took_of hi4 hb4
            obtain ⟨u, g1, g2, -⟩ := hT.plain (.inr rfl) (by decide)
            rw [TokOk] at g2
            subst g2
            have hm4 : s4.modes = .attr :: .jsx :: base := hT.2.2.1.2.2 (by simp) (by simp)
            have hsuf4 : (60 :: s4.rest) <:+ s.text := (triv_suffix g1).trans hsuf
            refine tr_bind (tr_mono (R.jsx true false _ s4 _ (by simp) hb4 hm4) ?_ ?_ ?_)
            · rintro x s5 h
              cases x with
              | inr c => exact absurd h.1 (by simp)
              | inl e =>
                obtain ⟨i1, i2, i3, -⟩ := h
                refine tr_bind (tr_pop (tr_pure ⟨inv_pop i1, t, h2, ?_, ?_⟩))
                · exact .elem rfl h3 h4 g g1 i2
                · exact (Below.of_suffix below_cons i3).of_suffix ((List.suffix_cons 60 _).trans hsuf4)
            · intro h
              exact hangAt_suffix h ((List.suffix_cons 60 _).trans hsuf4)
            · intro h
              have := hsuf4.length_le
              simp at this
              omega
          | _ => exact missing s4 hi4 (by rw [htx4, htx3])
    have assign : ∀ s2 : S, s2.buf = some (.assign, s1.text) → s2.modes = .attr :: .jsx :: base →
        Gap true s1.text (61 :: s2.rest) → Tr (do
        let _ ← next C
        let a ← peek C
        if a = .braceL then do
          let _ ← next C
          let v ← jsxExpr C
          popMode
          return .attr nm (some v)
        else match a with
          | .str v => do
            let _ ← next C
            popMode
            return .attr nm (some (.str v))
          | .lt => do
            let e ← r.jsx true false
            popMode
            match e with
            | .inl e => return .attr nm (some e)
            | .inr _ => fail
          | _ => do
            popMode
            return .attr nm none) s2 (fun a s' => Inv C (.jsx :: base) s' ∧ ∃ t, Gap true s.text t ∧ AttrAt C true a t s'.text ∧
        Below s'.text s.text) (HangAt s.text) (n ≤ 3 * s.text.length) := by
      intro s2 hb2 hm2 g
      exact tr_bind (tr_next_buf hb2 (value _ rfl hm2 g))
    refine tr_bind (tr_push ?_)
    have hbs : (∃ p, s1.buf = some p) ∨ s1.buf = none := by cases s1.buf <;> simp
    rcases hbs with ⟨p, hb1⟩ | hb1
    · obtain ⟨a, b⟩ := p
      have hbt : b = s1.text := (text_some hb1).symm
      subst hbt
      refine tr_bind (tr_peek_some (s := { s1 with modes := .attr :: s1.modes }) (t := a) hb1 ?_)
      split
      · refine tr_bind (tr_pop (tr_pure ?_))
        have : ({ s1 with modes := pop (Mode.attr :: s1.modes) } : S) = s1 := by
          have hne : s1.modes ≠ [] := by
            obtain ⟨_, ⟨a1, a2, a3⟩, _⟩ := h1.2 a _ hb1
            by_cases e1 : a = .braceL
            · obtain ⟨x, hx⟩ := a1 e1; rw [hx]; simp
            · by_cases e2 : a = .braceR
              · rw [a2 e2, pop_cons hbase]; exact hbase
              · rw [a3 e1 e2]; simp
          rw [pop_cons hne]
        show Inv C _ { s1 with modes := pop (Mode.attr :: s1.modes) } ∧ _
        rw [this]
        exact ⟨h1, t, h2, .bare h3 h4, h5⟩
      · rename_i he
        have he : a = .assign := Classical.byContradiction he
        subst he
        have hT := took_of h1 hb1
        obtain ⟨u, g1, g2⟩ := hT.tag rfl (by decide)
        rw [TokOk] at g2
        subst g2
        have hm1 : s1.modes = .jsx :: base := hT.2.2.1.2.2 (by decide) (by decide)
        exact assign _ hb1 (by simp [hm1]) g1
    · have hi2 : Inv C (.attr :: .jsx :: base) { s1 with modes := .attr :: s1.modes } := inv_none hb1 (by simp [h1.1 hb1])
      have htx2 : S.text { s1 with modes := .attr :: s1.modes } = s1.text := by simp [S.text, hb1]
      refine tr_bind (tr_peek hi2 (fun _ => ?_) ?_)
      · rw [if_pos (by decide)]
        refine tr_bind (tr_pop (tr_pure ⟨inv_pop hi2, t, h2, ?_, ?_⟩))
        · show AttrAt C true _ t s1.text
          exact .bare h3 h4
        · exact h5
      · intro a s3 ha hi3 htx3 hb3 _ _
        rw [htx2] at htx3 hb3
        split
        · refine tr_bind (tr_pop (tr_pure ⟨inv_pop hi3, t, h2, ?_, ?_⟩))
          · show AttrAt C true _ t s3.text
            rw [htx3]
            exact .bare h3 h4
          · show Below s3.text _
            rw [htx3]
            exact h5
        · rename_i he
          have he : a = .assign := Classical.byContradiction he
          subst he
          have hT := took_of hi3 hb3
          obtain ⟨u, g1, g2, -⟩ := hT.plain (.inr rfl) (by decide)
          rw [TokOk] at g2
          subst g2
          exact assign s3 hb3 (hT.2.2.1.2.2 (by decide) (by decide)) (triv_gap g1)
  unfold jsxAttr
  refine tr_bind (tr_peek hi (fun _ => ?_) ?_)
  · rw [if_neg (by decide)]
    exact name s hi rfl
  · intro a s1 ha hi1 htx1 hb1 _ _
    split
    · rename_i e
      subst e
      refine tr_bind (tr_next_buf hb1 ?_)
      have hT := took_of hi1 hb1
      obtain ⟨u, g1, g2⟩ := hT.tag rfl (by decide)
      rw [TokOk] at g2
      subst g2
      obtain ⟨x, hx⟩ := hT.2.2.1.1 rfl
      refine tr_bind (tr_mono (jsxExpr_tr hC (by simp) hT.1 hx) ?_ id id)
      rintro b s2 ⟨k1, k2, k3, k4⟩
      cases b with
      | spread e =>
        refine tr_pure ⟨inv_none k1 k2, _, g1, ?_, ?_⟩
        · rw [text_none k1]
          exact .spread k3
        · rw [text_none k1]
          exact (Below.of_suffix below_cons k4).of_suffix ((List.suffix_cons 123 _).trans (gap_suffix g1))
      | _ => exact tr_fail
    · exact name s1 hi1 htx1

theorem jsxAttrs_tr {C : Cfg E} (hC : C.Leaves) {r : Rec E} {n : Nat} (R : Specs C r n) {base : List Mode} {s : S}
    (hi : Inv C (.jsx :: base) s) (hbase : base ≠ []) :
    Tr (jsxAttrs C r n) s (fun l s' => Inv C (.jsx :: base) s' ∧ AttrsAt C true l s.text s'.text ∧ s'.text <:+ s.text)
      (HangAt s.text) (n + 1 ≤ 3 * s.text.length + 2) := by
  unfold jsxAttrs
  refine tr_bind (tr_peek hi (fun _ => ?_) ?_)
  · rw [if_pos (by simp)]
    exact tr_pure ⟨hi, .nil, List.suffix_refl _⟩
  · intro a s1 ha hi1 htx1 hb1 _ _
    split
    · exact tr_pure ⟨hi1, by rw [htx1]; exact .nil, by rw [htx1]; exact List.suffix_refl _⟩
    · refine tr_bind (tr_mono (jsxAttr_tr hC R hi1 hbase) ?_ (by rw [htx1]; exact id) (by rw [htx1]; omega))
      rintro x s2 ⟨h1, t, h2, h3, h4⟩
      rw [htx1] at h2 h4
      refine tr_bind (tr_mono (R.attrs base s2 hbase h1) ?_ ?_ ?_)
      · rintro l s3 ⟨k1, k2, k3⟩
        exact tr_pure ⟨k1, .cons h2 h3 k2, k3.trans h4.suffix⟩
      · intro h; exact hangAt_suffix h h4.suffix
      · have := h4.lt
        omega

theorem jsxOpen_tr {C : Cfg E} {r : Rec E} {n : Nat} (R : Specs C r n) {base : List Mode} {s : S}
    (hi : Inv C (.jsx :: base) s) (hbase : base ≠ []) :
    Tr (jsxOpen C r n) s (fun x s' => s'.buf = none ∧ s'.modes = .jsx :: base ∧ (62 :: s'.rest) <:+ s.text ∧
      match x with
      | (some nm, as, true) => ∃ s1 s2 s3 s4 s5, Gap true s.text s1 ∧ PathAt C true nm s1 s2 ∧ DropAt C true s2 s3 ∧
          AttrsAt C true as s3 s4 ∧ Gap true s4 (47 :: s5) ∧ s5.head? ≠ some 47 ∧ Gap true s5 (62 :: s'.rest)
      | (some nm, as, false) => ∃ s1 s2 s3 s4, Gap true s.text s1 ∧ PathAt C true nm s1 s2 ∧ DropAt C true s2 s3 ∧
          AttrsAt C true as s3 s4 ∧ Gap true s4 (62 :: s'.rest)
      | (none, as, b) => b = false ∧ as = [] ∧ Gap true s.text (62 :: s'.rest))
      (HangAt s.text) (n + 1 ≤ 3 * s.text.length + 2) := by
  have gt : ∀ b s', Took C (.jsx :: base) .gt b s' → s'.buf = none ∧ s'.modes = .jsx :: base ∧ Gap true b (62 :: s'.rest) := by
    intro b s' hT
    obtain ⟨u, g1, g2⟩ := hT.tag rfl (by decide)
    rw [TokOk] at g2
    subst g2
    exact ⟨hT.1, hT.2.2.1.2.2 (by decide) (by decide), g1⟩
  have name : ∀ s0 : S, Inv C (.jsx :: base) s0 → s0.text = s.text → Tr (do
    let nm ← jsxName C r n
    let as ← r.attrs
    let a ← peek C
    if a = .div then do
      let _ ← next C
      must C .gt
      return (some nm, as, true)
    else do
      must C .gt
      return (some nm, as, false)) s0 (fun x s' => s'.buf = none ∧ s'.modes = .jsx :: base ∧ (62 :: s'.rest) <:+ s.text ∧
      match x with
      | (some nm, as, true) => ∃ s1 s2 s3 s4 s5, Gap true s.text s1 ∧ PathAt C true nm s1 s2 ∧ DropAt C true s2 s3 ∧
          AttrsAt C true as s3 s4 ∧ Gap true s4 (47 :: s5) ∧ s5.head? ≠ some 47 ∧ Gap true s5 (62 :: s'.rest)
      | (some nm, as, false) => ∃ s1 s2 s3 s4, Gap true s.text s1 ∧ PathAt C true nm s1 s2 ∧ DropAt C true s2 s3 ∧
          AttrsAt C true as s3 s4 ∧ Gap true s4 (62 :: s'.rest)
      | (none, as, b) => b = false ∧ as = [] ∧ Gap true s.text (62 :: s'.rest))
      (HangAt s.text) (n + 1 ≤ 3 * s.text.length + 2) := by
    intro s0 hi0 htx0
    refine tr_bind (tr_mono (jsxName_tr R hi0) ?_ (by rw [htx0]; exact id) (by rw [htx0]; omega))
    rintro nm s1 ⟨h1, t, t1, h2, h3, h4, h5⟩
    rw [htx0] at h2 h5
    refine tr_bind (tr_mono (R.attrs base s1 hbase h1) ?_ ?_ ?_)
    · rintro as s2 ⟨k1, k2, k3⟩
      have hsuf := k3.trans h5.suffix
      refine tr_bind (tr_peek k1 (fun hb => ?_) ?_)
      · rw [if_neg (by decide)]
        refine tr_bind (tr_must k1 (by decide) ?_)
        intro s3 hT
        obtain ⟨g1, g2, g3⟩ := gt _ _ hT
        exact tr_pure ⟨g1, g2, (gap_suffix g3).trans hsuf, _, _, _, _, h2, h3, h4, k2, g3⟩
      · intro a s3 ha hi3 htx3 hb3 _ _
        split
        · rename_i e
          subst e
          refine tr_bind (tr_next_buf hb3 ?_)
          have hT := took_of hi3 hb3
          obtain ⟨u, g1, g2⟩ := hT.tag rfl (by decide)
          simp only [TokOk] at g2
          obtain ⟨g2, g4⟩ := g2
          subst g2
          refine tr_bind (tr_must (hT.inv (by decide) (by decide)) (by decide) ?_)
          intro s4 hT4
          obtain ⟨l1, l2, l3⟩ := gt _ _ hT4
          refine tr_pure ⟨l1, l2, ?_, _, _, _, _, _, h2, h3, h4, k2, g1, g4, l3⟩
          exact (((gap_suffix l3).trans (List.suffix_cons 47 _)).trans (gap_suffix g1)).trans hsuf
        · refine tr_bind (tr_must hi3 (by decide) ?_)
          intro s4 hT
          obtain ⟨g1, g2, g3⟩ := gt _ _ hT
          rw [htx3] at g3
          exact tr_pure ⟨g1, g2, (gap_suffix g3).trans hsuf, _, _, _, _, h2, h3, h4, k2, g3⟩
    · intro h; exact hangAt_suffix h h5.suffix
    · have := h5.lt
      omega
  unfold jsxOpen
  refine tr_bind (tr_peek hi (fun _ => ?_) ?_)
  · rw [if_neg (by decide)]
    exact name s hi rfl
  · intro a s1 ha hi1 htx1 hb1 _ _
    split
    · rename_i e
      subst e
      refine tr_bind (tr_next_buf hb1 ?_)
      obtain ⟨g1, g2, g3⟩ := gt _ _ (took_of hi1 hb1)
      exact tr_pure ⟨g1, g2, gap_suffix g3, rfl, rfl, g3⟩
    · exact name s1 hi1 htx1

theorem jsxClose_tr {C : Cfg E} {r : Rec E} {n : Nat} (R : Specs C r n) {base : List Mode} {s : S} {b : List Nat}
    (hi : Inv C (.jsx :: base) s) (hbase : base ≠ []) (hb : s.buf = some (.div, b)) :
    Tr (jsxClose C r n) s (fun c s' => s'.buf = none ∧ s'.modes = base ∧ CloseAt C true c (60 :: b) s'.rest ∧ (62 :: s'.rest) <:+ b)
      (HangAt b) (n + 1 ≤ 3 * b.length + 2) := by
  have gt : ∀ b s', Took C (.jsx :: base) .gt b s' → s'.buf = none ∧ pop s'.modes = base ∧ Gap true b (62 :: s'.rest) := by
    intro b s' hT
    obtain ⟨u, g1, g2⟩ := hT.tag rfl (by decide)
    rw [TokOk] at g2
    subst g2
    exact ⟨hT.1, by rw [hT.2.2.1.2.2 (by decide) (by decide)]; exact pop_cons hbase, g1⟩
  unfold jsxClose
  refine tr_bind (tr_next_buf hb ?_)
  have hT := took_of hi hb
  obtain ⟨u, g1, g2⟩ := hT.tag rfl (by decide)
  simp only [TokOk] at g2
  obtain ⟨g2, g4⟩ := g2
  subst g2
  have hi1 := hT.inv (by decide) (by decide)
  have hsuf : s.rest <:+ b := (List.suffix_cons 47 _).trans (gap_suffix g1)
  have name : ∀ s0 : S, Inv C (.jsx :: base) s0 → s0.text = s.rest → Tr (do
    let nm ← jsxName C r n
    must C .gt
    popMode
    return some nm) s0 (fun c s' => s'.buf = none ∧ s'.modes = base ∧ CloseAt C true c (60 :: b) s'.rest ∧ (62 :: s'.rest) <:+ b)
      (HangAt b) (n + 1 ≤ 3 * b.length + 2) := by
    intro s0 hi0 htx0
    refine tr_bind (tr_mono (jsxName_tr R hi0) ?_ ?_ ?_)
    · rintro nm s1 ⟨h1, t, t1, h2, h3, h4, h5⟩
      rw [htx0] at h2 h5
      refine tr_bind (tr_must h1 (by decide) ?_)
      intro s2 hT2
      obtain ⟨l1, l2, l3⟩ := gt _ _ hT2
      refine tr_bind (tr_pop (tr_pure ⟨l1, l2, .name g1 g4 h2 h3 h4 l3, ?_⟩))
      exact ((gap_suffix l3).trans h5.suffix).trans hsuf
    · intro h; rw [htx0] at h; exact hangAt_suffix h hsuf
    · have := (gap_suffix g1).length_le
      simp at this
      rw [htx0]
      omega
  refine tr_bind (tr_peek hi1 (fun _ => ?_) ?_)
  · rw [if_neg (by decide)]
    exact name _ hi1 (text_none rfl)
  · intro a s1 ha hi2 htx2 hb2 _ _
    split
    · rename_i e
      subst e
      refine tr_bind (tr_next_buf hb2 ?_)
      obtain ⟨l1, l2, l3⟩ := gt _ _ (took_of hi2 hb2)
      rw [text_none rfl] at l3
      exact tr_bind (tr_pop (tr_pure ⟨l1, l2, .fragment g1 g4 l3, (gap_suffix l3).trans hsuf⟩))
    · exact name s1 hi2 (by rw [htx2]; exact text_none rfl)

/-- A token looked at between tags. -/
theorem kpos_lex {C : Cfg E} {base : List Mode} {s : S} {t : Tok} {b k : List Nat} (hi : Inv C (.child :: base) s)
    (hb : s.buf = some (t, b)) (hk : KPos C s k) :
    (∀ c ∈ s.ws, Span.White c) ∧ ∃ s1, k = s.ws ++ s1 ∧ (∀ c u, s1 = c :: u → ¬Span.White c) ∧ childTok C s.ws s1 = (t, s.rest) := by
  rcases hk with ⟨h, -⟩ | ⟨t', b', h, hk⟩
  · rw [h] at hb; cases hb
  · rw [h] at hb
    cases hb
    rcases hk with ⟨h1, rfl⟩ | ⟨rfl, h1, rfl⟩
    · obtain ⟨-, -, m, hm, w, hl⟩ := hi.2 _ _ h
      have : m = .child := by
        rcases hm with h | ⟨-, h⟩
        · exact h
        · simp [top] at h
      subst this
      rw [hl] at h1
      subst h1
      exact lex_child hl
    · rw [h1]
      refine ⟨by simp, 123 :: s.rest, rfl, ?_, by simp [childTok]⟩
      rintro c u e hw
      cases e
      rw [← Span.isSpace_iff] at hw
      revert hw
      decide

theorem tr_peek_kids {C : Cfg E} {base : List Mode} {s : S} {k : List Nat} (hi : Inv C (.child :: base) s) (hk : KPos C s k)
    {Q : Tok → S → Prop} {H F : Prop} (h0 : s.buf = none → Q .eof s)
    (h1 : ∀ t s' b, t ≠ .eof → Inv C (.child :: base) s' → KPos C s' k → s'.buf = some (t, b) → Q t s') :
    Tr (peek C) s Q H F := by
  refine tr_peek hi h0 ?_
  intro t s' ht hi' htx hb h2 h3
  refine h1 t s' _ ht hi' ?_ hb
  rcases hk with ⟨h, rfl⟩ | ⟨t', b', h, hk⟩
  · refine .inr ⟨_, _, hb, .inl ⟨h2 h, (text_none h).symm⟩⟩
  · have := h3 (by rw [h]; simp)
    subst this
    exact .inr ⟨t', b', h, hk⟩

theorem tr_ws {s : S} {Q : List (J E) → S → Prop} {H F : Prop} (h0 : s.ws = [] → Q [] s)
    (h1 : s.ws ≠ [] → Q [.text s.ws] { s with ws := [] }) : Tr wsTxt s Q H F := by
  unfold Tr wsTxt
  by_cases h : s.ws = []
  · simp only [h, if_true]
    exact h0 h
  · simp only [h, if_false]
    exact h1 h

theorem afterKid_tr {C : Cfg E} {base : List Mode} {s : S} {k : List Nat} (hi : Inv C (.child :: base) s) (hk : KPos C s k)
    {H F : Prop} :
    Tr (afterKid C) s (fun w s' => Inv C (.child :: base) s' ∧ ∃ k2, KPos C s' k2 ∧ k2 <:+ k ∧
      (∀ ks mid, KidsAt C true ks k2 mid → KidsAt C true (w ++ ks) k mid) ∧ (HangAt (62 :: k2) → HangAt (62 :: k))) H F := by
  unfold afterKid
  refine tr_bind (tr_peek_kids hi hk (fun _ => ?_) ?_)
  · rw [if_neg (by simp)]
    exact tr_pure ⟨hi, k, hk, List.suffix_refl _, fun _ _ h => h, id⟩
  · intro t s1 b ht hi1 hk1 hb1
    split
    · rename_i he
      refine tr_ws (fun _ => ⟨hi1, k, hk1, List.suffix_refl _, fun _ _ h => h, id⟩) ?_
      intro hw
      obtain ⟨hW, k1, rfl, hn, hc⟩ := kpos_lex hi1 hb1 hk1
      rcases childTok_ok hc with h | h | h | h | h
      · exfalso; rcases he with e | e <;> rcases h with h | h <;> rw [h] at e <;> cases e
      · obtain ⟨rfl, rfl⟩ := h
        refine ⟨hi1, _, .inr ⟨_, _, hb1, .inr ⟨rfl, rfl, rfl⟩⟩, List.suffix_append _ _, ?_, ?_⟩
        · intro ks mid h
          exact .text (.ws hw hW ⟨_, .inl rfl⟩) h
        · intro h
          refine hangAt_suffix (hangAt_other ?_ h) ((List.suffix_append _ _).trans (List.suffix_cons 62 _))
          rintro c u e
          cases e
          exact .inl rfl
      · exfalso; rcases he with e | e <;> rw [h.1] at e <;> cases e
      · exfalso; rcases he with e | e <;> rw [h.1] at e <;> cases e
      · obtain ⟨v, c, u, h, -⟩ := h
        exfalso; rcases he with e | e <;> rw [h] at e <;> cases e
    · exact tr_pure ⟨hi1, k, hk1, List.suffix_refl _, fun _ _ h => h, id⟩

theorem kids_ws {C : Cfg E} {w k mid : List Nat} {ks l : List (J E)} (hW : ∀ c ∈ w, Span.White c)
    (hl : (w = [] ∧ l = []) ∨ (w ≠ [] ∧ l = [.text w])) (hk : ∃ u, k = 123 :: u ∨ k = 60 :: u) (h : KidsAt C true ks k mid) :
    KidsAt C true (l ++ ks) (w ++ k) mid := by
  rcases hl with ⟨rfl, rfl⟩ | ⟨h0, rfl⟩
  · exact h
  · exact .text (.ws h0 hW hk) h

theorem kids_tr {C : Cfg E} (hC : C.Leaves) {r : Rec E} {n : Nat} (R : Specs C r n) {base : List Mode} {s : S} {k : List Nat}
    (o : Option Name) (hi : Inv C (.child :: base) s) (hbase : base ≠ []) (hk : KPos C s k) :
    Tr (kidsLoop C r o) s (fun x s' => s'.buf = none ∧ s'.modes = .child :: base ∧ (∃ mid, KidsAt C true x.1 k mid ∧
      CloseAt C true x.2 mid s'.rest) ∧ pathOf o = pathOf x.2 ∧ (62 :: s'.rest) <:+ k) (HangAt (62 :: k)) (n + 1 ≤ 3 * k.length) := by
  unfold kidsLoop
  refine tr_bind (tr_peek_kids hi hk (fun _ => tr_fail) ?_)
  intro t s1 b ht hi1 hk1 hb1
  obtain ⟨hW, k1, rfl, hn, hc⟩ := kpos_lex hi1 hb1 hk1
  have hsuf : k1 <:+ s1.ws ++ k1 := List.suffix_append _ _
  -- the tail of the loop
  have more : ∀ (s2 : S) (k2 : List Nat) (l : List (J E)), Inv C (.child :: base) s2 → KPos C s2 k2 → k2.length < k1.length →
      (HangAt (62 :: k2) → HangAt (62 :: (s1.ws ++ k1))) → k2 <:+ k1 →
      (∀ ks mid, KidsAt C true ks k2 mid → KidsAt C true (l ++ ks) (s1.ws ++ k1) mid) →
      Tr (do let (l', c) ← r.kids o; return (l ++ l', c)) s2 (fun x s' => s'.buf = none ∧ s'.modes = .child :: base ∧
        (∃ mid, KidsAt C true x.1 (s1.ws ++ k1) mid ∧ CloseAt C true x.2 mid s'.rest) ∧ pathOf o = pathOf x.2 ∧
        (62 :: s'.rest) <:+ s1.ws ++ k1) (HangAt (62 :: (s1.ws ++ k1))) (n + 1 ≤ 3 * (s1.ws ++ k1).length) := by
    intro s2 k2 l hi2 hk2 hlt hh hs hks
    refine tr_bind (tr_mono (R.kids base o s2 k2 hbase hi2 hk2) ?_ hh ?_)
    · rintro ⟨l', c⟩ s3 ⟨a1, a2, ⟨mid, a3, a4⟩, a5, a6⟩
      exact tr_pure ⟨a1, a2, ⟨mid, hks _ _ a3, a4⟩, a5, (a6.trans hs).trans hsuf⟩
    · simp
      omega
  rcases childTok_ok hc with h | h | h | h | h
  · rcases h with rfl | rfl
    · exact absurd rfl ht
    · exact tr_fail
  · obtain ⟨rfl, rfl⟩ := h
    simp only
    have go : ∀ (l : List (J E)) (w : List Nat), ((s1.ws = [] ∧ l = []) ∨ (s1.ws ≠ [] ∧ l = [.text s1.ws])) →
        Tr (do
          let _ ← next C
          let v ← jsxExpr C
          let w' ← afterKid C
          let (l', c) ← r.kids o
          return (l ++ v :: (w' ++ l'), c)) { s1 with ws := w } (fun x s' => s'.buf = none ∧ s'.modes = .child :: base ∧
        (∃ mid, KidsAt C true x.1 (s1.ws ++ 123 :: s1.rest) mid ∧ CloseAt C true x.2 mid s'.rest) ∧ pathOf o = pathOf x.2 ∧
        (62 :: s'.rest) <:+ s1.ws ++ 123 :: s1.rest) (HangAt (62 :: (s1.ws ++ 123 :: s1.rest)))
        (n + 1 ≤ 3 * (s1.ws ++ 123 :: s1.rest).length) := by
      intro l w hl
      refine tr_bind (tr_next_buf (t := .braceL) (b := b) hb1 ?_)
      obtain ⟨x, hx⟩ := (took_of hi1 hb1).2.2.1.1 rfl
      refine tr_bind (tr_mono (jsxExpr_tr hC (s := { s1 with buf := none, ws := w }) (eff := .child :: base) (x := x) (by simp) rfl hx) ?_ id id)
      rintro v s2 ⟨h1, h2, h3, h4⟩
      refine tr_bind (tr_mono (afterKid_tr (base := base) (inv_none h1 h2) (.inl ⟨h1, rfl⟩)) ?_ id id)
      rintro w' s3 ⟨g1, k2, g2, g3, g4, g5⟩
      have hlen := h4.length_le
      have hlen2 := g3.length_le
      simp only [List.length_cons] at hlen
      have := more s3 k2 (l ++ v :: w') g1 g2 (by simp; omega) ?_ ?_ ?_
      · simpa using this
      · intro h
        refine hangAt_suffix (hangAt_brace (g5 h)) ?_
        exact ((h4.trans (List.suffix_cons 123 _)).trans hsuf).trans (List.suffix_cons 62 _)
      · exact ((g3.trans (List.suffix_cons 125 _)).trans h4).trans (List.suffix_cons 123 _)
      · intro ks mid hks
        have := kids_ws (C := C) (k := 123 :: s1.rest) hW hl ⟨_, .inl rfl⟩ (.box h3 (g4 ks mid hks))
        simpa using this
    refine tr_bind (tr_ws (fun h0 => ?_) fun h0 => ?_)
    · exact go [] s1.ws (.inl ⟨h0, rfl⟩)
    · exact go _ [] (.inr ⟨h0, rfl⟩)
  · obtain ⟨rfl, rfl⟩ := h
    exact tr_hang ⟨[], 62, s1.ws, s1.rest, rfl, .inl rfl, hW⟩
  · obtain ⟨rfl, rfl⟩ := h
    simp only
    have hm1 : s1.modes = .child :: base := (took_of hi1 hb1).2.2.1.2.2 (by decide) (by decide)
    have hrest : s1.rest <:+ s1.ws ++ 60 :: s1.rest := (List.suffix_cons 60 _).trans hsuf
    have go : ∀ (l : List (J E)) (w : List Nat), ((s1.ws = [] ∧ l = []) ∨ (s1.ws ≠ [] ∧ l = [.text s1.ws])) →
        Tr (do
          let x ← r.jsx false true
          match x with
          | .inr c => if pathOf o = pathOf c then return (l, c) else fail
          | .inl e => do
            let w' ← afterKid C
            let (l', c) ← r.kids o
            return (l ++ e :: (w' ++ l'), c)) { s1 with ws := w } (fun x s' => s'.buf = none ∧ s'.modes = .child :: base ∧
        (∃ mid, KidsAt C true x.1 (s1.ws ++ 60 :: s1.rest) mid ∧ CloseAt C true x.2 mid s'.rest) ∧ pathOf o = pathOf x.2 ∧
        (62 :: s'.rest) <:+ s1.ws ++ 60 :: s1.rest) (HangAt (62 :: (s1.ws ++ 60 :: s1.rest)))
        (n + 1 ≤ 3 * (s1.ws ++ 60 :: s1.rest).length) := by
      intro l w hl
      refine tr_bind (tr_mono (R.jsx false true (.child :: base) { s1 with ws := w } b (by simp) hb1 hm1) ?_ ?_ ?_)
      · rintro x s2 h
        cases x with
        | inr c =>
          obtain ⟨-, h1, h2, h3, h4⟩ := h
          simp only
          split
          · rename_i hp
            refine tr_pure ⟨h1, h2, ⟨_, ?_, h3⟩, hp, h4.trans hrest⟩
            have := kids_ws (C := C) (ks := []) hW hl ⟨s1.rest, .inr rfl⟩ .nil
            simpa using this
          · exact tr_fail
        | inl e =>
          obtain ⟨h1, h2, h3, h4⟩ := h
          simp only
          have hkp : KPos C s2 s2.text := by
            have hbs : (∃ p, s2.buf = some p) ∨ s2.buf = none := by cases s2.buf <;> simp
            rcases hbs with ⟨⟨t, b'⟩, hb2⟩ | hb2
            · exact .inr ⟨t, b', hb2, .inl ⟨h4 t b' hb2, text_some hb2⟩⟩
            · exact .inl ⟨hb2, text_none hb2⟩
          refine tr_bind (tr_mono (afterKid_tr h1 hkp) ?_ id id)
          rintro w' s3 ⟨g1, k2, g2, g3, g4, g5⟩
          have hlen := h3.length_le
          have hlen2 := g3.length_le
          simp only [List.length_cons] at hlen
          have := more s3 k2 (l ++ e :: w') g1 g2 (by simp; omega) ?_ ?_ ?_
          · simpa using this
          · intro h
            exact hangAt_suffix (g5 h) ((h3.trans hrest).trans (List.suffix_cons 62 _))
          · exact ((g3.trans (List.suffix_cons 62 _)).trans h3).trans (List.suffix_cons 60 _)
          · intro ks mid hks
            have := kids_ws (C := C) (k := 60 :: s1.rest) hW hl ⟨_, .inr rfl⟩ (.elem h2 (g4 ks mid hks))
            simpa using this
      · intro h
        exact hangAt_suffix h (hrest.trans (List.suffix_cons 62 _))
      · simp
        omega
    refine tr_bind (tr_ws (fun h0 => ?_) fun h0 => ?_)
    · exact go [] s1.ws (.inl ⟨h0, rfl⟩)
    · exact go _ [] (.inr ⟨h0, rfl⟩)
  · obtain ⟨v, c, u, rfl, rfl, hcn, hr⟩ := h
    simp only
    have hc' : c ≠ 123 ∧ c ≠ 60 := by
      constructor <;> (rintro rfl; simp at hcn)
    obtain ⟨⟨p, hp, hpe⟩, hst⟩ := text_stop hc' hr
    have hbel : Below s1.rest (c :: u) := ⟨p, hp, hpe⟩
    refine tr_bind (tr_next_buf hb1 ?_)
    have hT := took_of hi1 hb1
    have := more { s1 with buf := none } s1.rest [.text v] (hT.inv (by simp) (by simp)) (.inl ⟨rfl, rfl⟩) hbel.lt ?_ hbel.suffix ?_
    · exact this
    · intro h
      exact hangAt_suffix (hangAt_other hst h) ((hbel.suffix.trans hsuf).trans (List.suffix_cons 62 _))
    · intro ks mid hks
      refine .text ?_ hks
      exact .text hW (hn _ _ rfl) hcn hr

theorem path_ne {C : Cfg E} {q : Bool} {nm : Name} {s r : List Nat} (h : PathAt C q nm s r) : nm.path ≠ [] := by
  cases h with
  | ns => simp [Name.path]
  | member h =>
    cases h with
    | member => simp [Name.path]
    | id h =>
      obtain ⟨src, esc, -, h, -⟩ := h
      cases h <;> simp [Name.path]

theorem close_path {C : Cfg E} {q : Bool} {c : Option Name} {s r : List Nat} (h : CloseAt C q c s r) (h0 : pathOf c = []) : c = none := by
  cases h with
  | fragment => rfl
  | name _ _ _ h => exact absurd h0 (path_ne h)

theorem elem_tr {C : Cfg E} {r : Rec E} {n : Nat} (R : Specs C r n) (root opening : Bool) {eff : List Mode} {s : S} {b : List Nat}
    (he : eff ≠ []) (hb : s.buf = some (.lt, b)) (hm : s.modes = eff) :
    Tr (jsxElem C r n root opening) s (fun x s' =>
      match x with
      | .inl e => Inv C eff s' ∧ ElemAt C true e (60 :: s.rest) s'.text ∧ (62 :: s'.text) <:+ s.rest ∧
          (∀ t b', s'.buf = some (t, b') → s'.ws = (lex C (top eff) b').1)
      | .inr c => opening = true ∧ s'.buf = none ∧ s'.modes = eff ∧ CloseAt C true c (60 :: s.rest) s'.rest ∧
          (62 :: s'.rest) <:+ s.rest) (HangAt s.rest) (n + 1 ≤ 3 * s.rest.length + 2) := by
  -- the end of an element
  have last : ∀ (s2 : S) (e : J E), s2.buf = none → s2.modes = eff → ElemAt C true e (60 :: s.rest) s2.rest → (62 :: s2.rest) <:+ s.rest →
      Tr (do
        let a ← peek C
        if a = .lt ∧ root = true then fail else return (.inl e : J E ⊕ Option Name)) s2 (fun x s' =>
      match x with
      | .inl e => Inv C eff s' ∧ ElemAt C true e (60 :: s.rest) s'.text ∧ (62 :: s'.text) <:+ s.rest ∧
          (∀ t b', s'.buf = some (t, b') → s'.ws = (lex C (top eff) b').1)
      | .inr c => opening = true ∧ s'.buf = none ∧ s'.modes = eff ∧ CloseAt C true c (60 :: s.rest) s'.rest ∧
          (62 :: s'.rest) <:+ s.rest) (HangAt s.rest) (n + 1 ≤ 3 * s.rest.length + 2) := by
    intro s2 e hb2 hm2 hE hS
    have htx : s2.text = s2.rest := text_none hb2
    rw [← htx] at hE hS
    refine tr_bind (tr_peek (inv_none hb2 hm2) (fun _ => ?_) ?_)
    · rw [if_neg (by simp)]
      refine tr_pure ⟨inv_none hb2 hm2, hE, hS, ?_⟩
      intro t b' h; rw [hb2] at h; cases h
    · intro a s3 ha hi3 htx3 hb3 hws _
      split
      · exact tr_fail
      · refine tr_pure ⟨hi3, by rw [htx3]; exact hE, by rw [htx3]; exact hS, ?_⟩
        intro t b' h
        rw [hb3] at h
        cases h
        exact hws hb2
  unfold jsxElem
  refine tr_bind (tr_next_buf hb ?_)
  refine tr_bind (tr_push ?_)
  have hi0 : Inv C (.jsx :: eff) { s with buf := none, modes := .jsx :: s.modes } := inv_none rfl (by simp [hm])
  -- after the first token
  have open_ : ∀ s1 : S, Inv C (.jsx :: eff) s1 → s1.text = s.rest → Tr (do
    let (nm, as, closed) ← jsxOpen C r n
    if closed then do
      popMode
      let a ← peek C
      if a = .lt ∧ root = true then fail else return (.inl (.elem nm as [] none) : J E ⊕ Option Name)
    else do
      pushMode .child
      let (l, c) ← r.kids nm
      popMode
      popMode
      let a ← peek C
      if a = .lt ∧ root = true then fail else return .inl (.elem nm as l (some c))) s1 (fun x s' =>
      match x with
      | .inl e => Inv C eff s' ∧ ElemAt C true e (60 :: s.rest) s'.text ∧ (62 :: s'.text) <:+ s.rest ∧
          (∀ t b', s'.buf = some (t, b') → s'.ws = (lex C (top eff) b').1)
      | .inr c => opening = true ∧ s'.buf = none ∧ s'.modes = eff ∧ CloseAt C true c (60 :: s.rest) s'.rest ∧
          (62 :: s'.rest) <:+ s.rest) (HangAt s.rest) (n + 1 ≤ 3 * s.rest.length + 2) := by
    intro s1 hi1 htx1
    refine tr_bind (tr_mono (jsxOpen_tr R hi1 he) ?_ (by rw [htx1]; exact id) (by rw [htx1]; exact id))
    rw [htx1]
    rintro ⟨nm, as, closed⟩ s2 ⟨h1, h2, h3, h4⟩
    cases closed with
    | true =>
      cases nm with
      | none => exact absurd h4.1 (by simp)
      | some nm =>
        obtain ⟨t1, t2, t3, t4, t5, g1, g2, g3, g4, g5, g6, g7⟩ := h4
        simp only [if_true]
        refine tr_bind (tr_pop ?_)
        refine last _ _ h1 ?_ (.closed g1 g2 g3 g4 g5 g6 g7) h3
        show pop s2.modes = eff
        rw [h2, pop_cons he]
    | false =>
      simp only [Bool.false_eq_true, if_false]
      refine tr_bind (tr_push ?_)
      refine tr_bind (tr_mono (R.kids (.jsx :: eff) nm { s2 with modes := .child :: s2.modes } s2.rest (by simp)
        (inv_none h1 (by simp [h2])) (.inl ⟨h1, rfl⟩)) ?_ ?_ ?_)
      · rintro ⟨l, c⟩ s3 ⟨k1, k2, ⟨mid, k3, k4⟩, k5, k6⟩
        refine tr_bind (tr_pop (tr_bind (tr_pop ?_)))
        refine last _ _ k1 ?_ ?_ ((k6.trans (List.suffix_cons 62 _)).trans h3)
        · show pop (pop s3.modes) = eff
          rw [k2, pop_cons (by simp), pop_cons he]
        · cases nm with
          | some nm =>
            obtain ⟨t1, t2, t3, t4, g1, g2, g3, g4, g5⟩ := h4
            cases c with
            | none => exact absurd k5 (path_ne g2)
            | some c => exact .pair g1 g2 g3 g4 g5 k3 k4 k5
          | none =>
            obtain ⟨-, rfl, g1⟩ := h4
            have := close_path k4 k5.symm
            subst this
            exact .fragment g1 k3 k4
      · intro h; exact hangAt_suffix h h3
      · have := h3.length_le
        simp at this
        omega
  refine tr_bind (tr_peek hi0 (fun _ => ?_) ?_)
  · rw [if_neg (by decide)]
    exact open_ _ hi0 (text_none rfl)
  · intro a s1 ha hi1 htx1 hb1 _ _
    rw [text_none (s := { s with buf := none, modes := .jsx :: s.modes }) rfl] at htx1 hb1
    split
    · rename_i e
      subst e
      split
      · rename_i ho
        refine tr_bind (tr_mono (jsxClose_tr R hi1 he hb1) ?_ id id)
        rintro c s2 ⟨h1, h2, h3, h4⟩
        exact tr_pure ⟨ho, h1, h2, h3, h4⟩
      · exact tr_fail
    · exact open_ s1 hi1 htx1

theorem specs {C : Cfg E} (hC : C.Leaves) (n : Nat) : Specs C (rec C n) n := by
  induction n with
  | zero =>
    refine ⟨?_, ?_, ?_⟩
    · intros; exact tr_fuel (Nat.zero_le _)
    · intros; exact tr_fuel (Nat.zero_le _)
    · intros; exact tr_fuel (Nat.zero_le _)
  | succ n ih =>
    refine ⟨?_, ?_, ?_⟩
    · intro root opening eff s b he hb hm
      exact elem_tr ih root opening he hb hm
    · intro base s he hi
      exact jsxAttrs_tr hC ih hi he
    · intro base o s k he hi hk
      exact kids_tr hC ih o hi he hk

end Mole.Parser.Jsx
