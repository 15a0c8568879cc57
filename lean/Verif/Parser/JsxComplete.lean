import Verif.Parser.JsxSound

/-! # Each element of JSX is accepted (for C79) -/

namespace Mole.Parser.Jsx

variable {E : Type}

/-- No character begins a name and is white space; `...` is a token. -/
structure Cfg.Std (C : Cfg E) : Prop where
  white : ∀ c, Lexer.isIdStart C.scan.tables c = true → ¬Span.White c
  spread : C.scan.punct.spread = true
  rest : C.scan.punct.bindingRest = true

/-! ## The lexer -/

theorem white_dec {c : Nat} (h : Span.isSpace c = false) : ¬Span.White c := by
  rw [← Span.isSpace_iff, h]; simp

theorem lex_tag {C : Cfg E} {s s1 : List Nat} (h : Gap false s s1) (hs : Stop s1) : lex C .jsx s = ([], tagTok C s1) := by
  simp only [lex, tagGap_eq h hs _ (Nat.lt_succ_self _)]

theorem stop_cons {c : Nat} {r : List Nat} (h : Span.isSpace c = false) (hc : c ≠ 47 ∨ r.head? ≠ some 47) : Stop (c :: r) := by
  refine ⟨?_, ?_⟩
  · rintro d t e
    cases e
    exact white_dec h
  · rintro t e
    simp only [List.cons.injEq] at e
    rcases hc with hc | hc
    · exact hc e.1
    · rw [e.2] at hc; simp at hc

/-- A character that is a token of a tag. -/
theorem lex_char {C : Cfg E} {s r : List Nat} {c : Nat} {t : Tok} (h : Gap false s (c :: r)) (hs : Span.isSpace c = false)
    (hc : c ≠ 47 ∨ r.head? ≠ some 47) (ht : tagTok C (c :: r) = (t, r)) : lex C .jsx s = ([], t, r) := by
  rw [lex_tag h (stop_cons hs hc), ht]

theorem nameAt_head {T : Lexer.IdTables} {s n : List Nat} {e : Bool} (h : Lexer.NameAt T true s n e) :
    ∃ c t, s = c :: t ∧ Lexer.isIdStart T c = true := by
  cases h with
  | ch h => exact ⟨_, _, rfl, h⟩
  | esc => exact ⟨_, _, rfl, rfl⟩

theorem tag_name {C : Cfg E} (hC : C.Std) {src v s r : List Nat} {esc : Bool} (hs : s = src ++ r)
    (hn : Lexer.NameAt C.scan.tables true src v esc)
    (hf : ∀ d, r.head? = some d → Lexer.isIdStart C.scan.tables d = false ∧ Lexer.isIdPart C.scan.tables d = false ∧ d ≠ '-'.toNat) :
    Stop s ∧ tagTok C s = (nameTok C v esc, r) := by
  obtain ⟨c, t, rfl, hc⟩ := nameAt_head hn
  have hsc : Lexer.scanName C.scan.tables true s = some (.ok (v, esc, r)) := by
    refine (Lexer.scanName_iff_partial C.scan.tables true s c (by rw [hs]; rfl) hc v esc r).mpr ⟨_, hs, hn, ?_⟩
    intro d hd
    obtain ⟨h1, h2, h3⟩ := hf d hd
    rw [h1, h2]
    simpa using h3
  have hne : ∀ k, Lexer.isIdStart C.scan.tables k = false → c ≠ k := by
    rintro k hk rfl
    rw [hk] at hc; cases hc
  subst hs
  refine ⟨⟨?_, ?_⟩, ?_⟩
  · rintro d u e
    cases e
    exact hC.white _ hc
  · rintro u e
    simp only [List.cons_append, List.cons.injEq] at e
    exact hne 47 rfl e.1
  · simp only [List.cons_append] at hsc ⊢
    unfold tagTok
    simp only [if_neg (hne 123 rfl), if_neg (hne 125 rfl), if_neg (hne 60 rfl), if_neg (hne 58 rfl), if_neg (hne 46 rfl),
      if_neg (hne 47 rfl), if_neg (hne 62 rfl), if_neg (hne 61 rfl), if_neg (hne 45 rfl), hc, if_true, hsc]

theorem lex_id {C : Cfg E} (hC : C.Std) {v s t r : List Nat} (h : Gap false s t) (hi : IdAt C false v t r) :
    lex C .jsx s = ([], .name v, r) := by
  obtain ⟨src, esc, h1, h2, h3, h4⟩ := hi
  obtain ⟨g1, g2⟩ := tag_name hC h1 h2 (h4 rfl)
  rw [lex_tag h g1, g2, nameTok, h3]

theorem lex_prop {C : Cfg E} (hC : C.Std) {v s t r : List Nat} (h : Gap false s t) (hi : PropAt C false v t r) :
    C.prop v = true ∧ (lex C .jsx s = ([], .name v, r) ∨ lex C .jsx s = ([], .word v true, r)) := by
  obtain ⟨h0, src, esc, h1, h2, h3, h4⟩ := hi
  obtain ⟨g1, g2⟩ := tag_name hC h1 h2 (h4 rfl)
  refine ⟨h0, ?_⟩
  rw [lex_tag h g1, g2, nameTok]
  split <;> simp_all

theorem lex_plain {C : Cfg E} {s s1 : List Nat} (h : Triv s s1) :
    lex C .none s = ([], plainTok C false s1) ∧ lex C .attr s = ([], plainTok C true s1) := by
  obtain ⟨f, h⟩ := h
  have := (Lexer.lexTrivia_iff _ _ _ _ _ (Nat.lt_succ_self _)).mpr h
  constructor <;> (simp only [lex, this]; rfl)

theorem readTok_sym {C : Cfg E} {a : Lexer.Ask} {c : Nat} {t r : List Nat} {p : Lexer.Punct} (ha : a.template = false)
    (h0 : Lexer.isIdStart C.scan.tables c = false) (h1 : Lexer.aheadIsNumStart (c :: t) = false)
    (h2 : c ≠ 39 ∧ c ≠ 34 ∧ c ≠ 96 ∧ c ≠ 35 ∧ c ≠ 13)
    (h3 : Lexer.gate { C.scan.punct with regexpAhead := a.regexp } (Lexer.symSwitch { C.scan.punct with regexpAhead := a.regexp } c t) = .punct p r) :
    Lexer.readTok C.scan a (c :: t) = some (.ok (.punct p, r)) := by
  obtain ⟨k1, k2, k3, k4, k5⟩ := h2
  simp only [Lexer.readTok, h0, h1, Bool.false_eq_true, if_false, k1, k2, k3, k4, ha, or_self, false_and, Lexer.readSymbol,
    Lexer.rd_cons k5, h3]

theorem plain_braceR {C : Cfg E} {r : List Nat} : plainTok C false (125 :: r) = (.braceR, r) := by
  simp only [plainTok, Bool.false_eq_true, false_and, if_false]
  rw [readTok_sym (p := .braceR) (r := r) rfl rfl (by simp [Lexer.aheadIsNumStart, Lexer.onRune, Lexer.isDecimalDigit]) (by decide)
    (by simp [Lexer.symSwitch, Lexer.gate])]
  rfl

theorem plain_braceL {C : Cfg E} {r : List Nat} : plainTok C true (123 :: r) = (.braceL, r) := by
  simp only [plainTok]
  rw [if_neg (by simp)]
  rw [readTok_sym (p := .braceL) (r := r) rfl rfl (by simp [Lexer.aheadIsNumStart, Lexer.onRune, Lexer.isDecimalDigit]) (by decide)
    (by simp [Lexer.symSwitch, Lexer.gate])]
  rfl

theorem plain_dots {C : Cfg E} (hC : C.Std) {r : List Nat} : plainTok C false (46 :: 46 :: 46 :: r) = (.dots, r) := by
  simp only [plainTok, Bool.false_eq_true, false_and, if_false]
  rw [readTok_sym (p := .dotTri) (r := r) rfl rfl
    (by simp [Lexer.aheadIsNumStart, Lexer.onRune, Lexer.isDecimalDigit, Lexer.ahead2nd]) (by decide)
    (by simp [Lexer.symSwitch, Lexer.gate, Lexer.ahead, hC.spread, hC.rest])]
  rfl

theorem plain_str {C : Cfg E} {k : Nat} {v r : List Nat} (hk : k = 34 ∨ k = 39) (hv : k ∉ v) :
    plainTok C true (k :: (v ++ k :: r)) = (.str v, r) := by
  simp only [plainTok]
  rw [if_pos ⟨trivial, hk.symm⟩, strLoop_iff.mpr ⟨rfl, hv⟩]

theorem split_white : ∀ {a b c d : List Nat}, a ++ b = c ++ d → (∀ x ∈ a, Span.White x) → (∀ x ∈ c, Span.White x) →
    (∀ x t, b = x :: t → ¬Span.White x) → (∀ x t, d = x :: t → ¬Span.White x) → a = c ∧ b = d := by
  intro a
  induction a with
  | nil =>
    intro b c d e _ hc hb _
    cases c with
    | nil => exact ⟨rfl, e⟩
    | cons x c => exact absurd (hc x (by simp)) (hb x (c ++ d) e)
  | cons y a ih =>
    intro b c d e ha hc hb hd
    cases c with
    | nil => exact absurd (ha y (by simp)) (hd y (a ++ b) e.symm)
    | cons x c =>
      simp only [List.cons_append, List.cons.injEq] at e
      obtain ⟨rfl, e⟩ := e
      obtain ⟨h1, h2⟩ := ih e (fun x h => ha x (by simp [h])) (fun x h => hc x (by simp [h])) hb hd
      exact ⟨by rw [h1], h2⟩

theorem lex_kids {C : Cfg E} {w k : List Nat} (hw : ∀ c ∈ w, Span.White c) (hk : ∀ c u, k = c :: u → ¬Span.White c) :
    lex C .child (w ++ k) = (w, childTok C w k) := by
  cases h : lex C .child (w ++ k) with
  | mk w' p =>
    obtain ⟨t, r⟩ := p
    obtain ⟨h1, s1, h2, h3, h4⟩ := lex_child h
    obtain ⟨rfl, rfl⟩ := split_white h2 hw h1 hk h3
    rw [h4]

/-! ## Runs -/

/-- It ends well, and this holds, unless the bound on the depth is too low. -/
def Rn {α : Type} (m : M α) (s : S) (Q : α → S → Prop) : Prop :=
  match m s with
  | .ok a s' => Q a s'
  | .fuel => True
  | _ => False

section
variable {α β : Type} {s : S}

theorem rn_bind {m : M α} {f : α → M β} {Q : β → S → Prop} (h : Rn m s (fun a s' => Rn (f a) s' Q)) : Rn (m >>= f) s Q := by
  unfold Rn at h ⊢
  change (match (match m s with | .ok a s' => f a s' | .err => .err | .hang => .hang | .fuel => .fuel) with
    | .ok a s' => Q a s' | .fuel => True | _ => False)
  cases hm : m s <;> simp only [hm] at h ⊢
  exact h

theorem rn_pure {a : α} {Q : α → S → Prop} (h : Q a s) : Rn (pure a : M α) s Q := h

theorem rn_mono {m : M α} {Q Q' : α → S → Prop} (h : Rn m s Q) (hq : ∀ a s', Q a s' → Q' a s') : Rn m s Q' := by
  unfold Rn at h ⊢
  cases hm : m s <;> simp only [hm] at h ⊢
  exact hq _ _ h

theorem rn_fuel {Q : α → S → Prop} : Rn (outOfFuel : M α) s Q := trivial

theorem rn_push {m : Mode} {Q : Unit → S → Prop} (h : Q () { s with modes := m :: s.modes }) : Rn (pushMode m) s Q := h
theorem rn_pop {Q : Unit → S → Prop} (h : Q () { s with modes := pop s.modes }) : Rn popMode s Q := h
theorem rn_get {Q : S → S → Prop} (h : Q s s) : Rn get s Q := h
theorem rn_put {s' : S} {Q : Unit → S → Prop} (h : Q () s') : Rn (put s') s Q := h

end

/-- The lexer is before this text with these modes, or has read the next token ahead. -/
def Seen (C : Cfg E) (ms : List Mode) (r : List Nat) (s : S) : Prop :=
  (s.buf = none ∧ s.rest = r ∧ s.modes = ms) ∨
    ∃ w t r', lex C (top ms) r = (w, t, r') ∧ t ≠ .eof ∧ s = ⟨some (t, r), r', act t ms, w⟩

theorem rn_peek {C : Cfg E} {ms : List Mode} {r r' w : List Nat} {t : Tok} {s : S} {Q : Tok → S → Prop} (hs : Seen C ms r s)
    (hl : lex C (top ms) r = (w, t, r')) (ht : t ≠ .eof) (h : Q t ⟨some (t, r), r', act t ms, w⟩) : Rn (peek C) s Q := by
  unfold Rn peek
  rcases hs with ⟨h1, h2, h3⟩ | ⟨w1, t1, r1, h1, -, rfl⟩
  · simp only [h1, h2, h3, hl, if_neg ht]
    exact h
  · rw [hl] at h1
    cases h1
    exact h

theorem rn_next {C : Cfg E} {ms : List Mode} {r r' w : List Nat} {t : Tok} {s : S} {Q : Tok → S → Prop} (hs : Seen C ms r s)
    (hl : lex C (top ms) r = (w, t, r')) (ht : t ≠ .eof) (h : Q t ⟨none, r', act t ms, w⟩) : Rn (next C) s Q :=
  rn_bind (rn_peek hs hl ht h)

theorem rn_must {C : Cfg E} {ms : List Mode} {r r' w : List Nat} {t : Tok} {s : S} {Q : Unit → S → Prop} (hs : Seen C ms r s)
    (hl : lex C (top ms) r = (w, t, r')) (ht : t ≠ .eof) (h : Q () ⟨none, r', act t ms, w⟩) : Rn (must C t) s Q := by
  refine rn_bind (rn_next hs hl ht ?_)
  rw [if_pos rfl]
  exact rn_pure h

/-- Whatever the next token is. -/
theorem rn_peek_any {C : Cfg E} {ms : List Mode} {r : List Nat} {s : S} {Q : Tok → S → Prop} (hs : Seen C ms r s)
    (h : ∀ s', Seen C ms r s' → Q (lex C (top ms) r).2.1 s') : Rn (peek C) s Q := by
  cases hl : lex C (top ms) r with
  | mk w p =>
    obtain ⟨t, r'⟩ := p
    rw [hl] at h
    by_cases ht : t = .eof
    · subst ht
      unfold Rn peek
      have hs0 := hs
      rcases hs with ⟨h1, h2, h3⟩ | ⟨w1, t1, r1, h1, h2, rfl⟩
      · simp only [h1, h2, h3, hl, if_true]
        exact h s hs0
      · rw [hl] at h1
        cases h1
        exact absurd rfl h2
    · exact rn_peek hs hl ht (h _ (.inr ⟨w, t, r', hl, ht, rfl⟩))

theorem rn_peek_buf {C : Cfg E} {s : S} {t : Tok} {b : List Nat} (hb : s.buf = some (t, b)) {Q : Tok → S → Prop}
    (h : Q t s) : Rn (peek C) s Q := by
  unfold Rn peek
  simp only [hb]
  exact h

theorem rn_next_buf {C : Cfg E} {s : S} {t : Tok} {b : List Nat} (hb : s.buf = some (t, b)) {Q : Tok → S → Prop}
    (h : Q t { s with buf := none }) : Rn (next C) s Q :=
  rn_bind (rn_peek_buf hb h)

theorem seen_none {C : Cfg E} {ms : List Mode} {r w : List Nat} : Seen C ms r ⟨none, r, ms, w⟩ := .inl ⟨rfl, rfl, rfl⟩

/-! ## Boxes and names -/

theorem jsxExpr_rn {C : Cfg E} (hC : C.Std) {eff : List Mode} {x : Mode} {s : S} {r : List Nat} {b : J E} (he : eff ≠ [])
    (hb : s.buf = none) (hm : s.modes = x :: eff) (h : BoxAt C false b s.rest r) :
    Rn (jsxExpr C) s (fun a s' => a = b ∧ s'.buf = none ∧ s'.modes = eff ∧ s'.rest = r) := by
  have pop2 : pop (pop (Mode.none :: x :: eff)) = eff := by rw [pop_cons (by simp), pop_cons he]
  have hs : Seen C (.none :: x :: eff) s.rest { s with modes := .none :: s.modes } := .inl ⟨hb, rfl, by simp [hm]⟩
  unfold jsxExpr
  refine rn_bind (rn_push (rn_bind (rn_get (rn_bind ?_))))
  cases h with
  | empty h =>
    have hl : lex C .none s.rest = ([], .braceR, r) := by rw [(lex_plain h).1, ← plain_braceR]; rfl
    refine rn_peek hs hl (by decide) ?_
    rw [if_neg (by decide), if_pos rfl]
    refine rn_bind (rn_next_buf rfl (rn_bind (rn_pop (rn_pure ⟨rfl, rfl, ?_, rfl⟩))))
    exact pop2
  | spread h h1 h2 =>
    rename_i e t u
    have hl : lex C .none s.rest = ([], .dots, t) := by rw [(lex_plain h).1, ← plain_dots hC]; rfl
    refine rn_peek hs hl (by decide) ?_
    rw [if_pos rfl]
    refine rn_bind (rn_next_buf rfl (rn_bind ?_))
    unfold Rn asgE
    simp only [h1]
    have hl2 : lex C .none u = ([], .braceR, r) := by rw [(lex_plain h2).1, ← plain_braceR]; rfl
    refine rn_bind (rn_must (ms := .none :: x :: eff) (r := u) (.inl ⟨rfl, rfl, rfl⟩) hl2 (by decide) ?_)
    refine rn_bind (rn_pop (rn_pure ⟨rfl, rfl, ?_, rfl⟩))
    exact pop2
  | expr h0 h1 h2 =>
    rename_i e t
    have hl2 : lex C .none t = ([], .braceR, r) := by rw [(lex_plain h2).1, ← plain_braceR]; rfl
    refine rn_peek_any hs ?_
    intro s' _
    have hn : (lex C .none s.rest).2.1 ≠ .dots ∧ (lex C .none s.rest).2.1 ≠ .braceR := by
      cases hl : lex C .none s.rest with
      | mk w p =>
        obtain ⟨a, r'⟩ := p
        constructor
        · rintro e
          simp only at e
          subst e
          obtain ⟨-, s1, -, g1, g2, -⟩ := lex_ok (by decide) hl (by decide)
          rw [TokOk] at g2
          subst g2
          exact (h0 rfl r').2 (g1 (by decide))
        · rintro e
          simp only at e
          subst e
          obtain ⟨-, s1, -, g1, g2, -⟩ := lex_ok (by decide) hl (by decide)
          rw [TokOk] at g2
          subst g2
          exact (h0 rfl r').1 (g1 (by decide))
    have hn' : (lex C (top (.none :: x :: eff)) s.rest).2.1 ≠ .dots ∧ (lex C (top (.none :: x :: eff)) s.rest).2.1 ≠ .braceR := hn
    rw [if_neg hn'.1, if_neg hn'.2]
    refine rn_bind (rn_put (rn_bind ?_))
    unfold Rn exprE
    simp only [h1]
    refine rn_bind (rn_must (ms := .none :: x :: eff) (r := t) (.inl ⟨rfl, rfl, by simp [hm]⟩) hl2 (by decide) ?_)
    refine rn_bind (rn_pop (rn_pure ⟨rfl, rfl, ?_, rfl⟩))
    exact pop2

theorem jsxId_rn {C : Cfg E} (hC : C.Std) {base : List Mode} {s : S} {t0 t r v : List Nat} (hs : Seen C (.jsx :: base) t0 s)
    (hg : Gap false t0 t) (h : IdAt C false v t r) :
    Rn (jsxId C) s (fun a s' => a = v ∧ s' = ⟨none, r, .jsx :: base, []⟩) := by
  unfold jsxId
  refine rn_bind (rn_next hs (lex_id hC hg h) (by simp) ?_)
  exact rn_pure ⟨rfl, rfl⟩

theorem ident_rn {C : Cfg E} (hC : C.Std) {base : List Mode} {s : S} {t0 t r v : List Nat} (hs : Seen C (.jsx :: base) t0 s)
    (hg : Gap false t0 t) (h : PropAt C false v t r) :
    Rn (ident C) s (fun a s' => a = v ∧ s' = ⟨none, r, .jsx :: base, []⟩) := by
  unfold ident
  obtain ⟨hp, hl | hl⟩ := lex_prop hC hg h
  · refine rn_bind (rn_next hs hl (by simp) ?_)
    simp only [hp, if_true]
    exact rn_pure ⟨rfl, rfl⟩
  · refine rn_bind (rn_next hs hl (by simp) ?_)
    simp only [hp, if_true]
    exact rn_pure ⟨rfl, rfl⟩

/-- The rest of a name with dots. -/
inductive Tail (C : Cfg E) : Name → Name → List Nat → List Nat → Prop
  | nil {o t} : Tail C o o t t
  | cons {o n v t t1 t2 t3 r} : Gap false t (46 :: t1) → Gap false t1 t2 → PropAt C false v t2 t3 →
      Tail C (.member o v) n t3 r → Tail C o n t r

theorem tail_snoc {C : Cfg E} {o n : Name} {v t t1 t2 r r' : List Nat} (h : Tail C o n t r) (h1 : Gap false r (46 :: t1))
    (h2 : Gap false t1 t2) (h3 : PropAt C false v t2 r') : Tail C o (.member n v) t r' := by
  induction h with
  | nil => exact .cons h1 h2 h3 .nil
  | cons a b c _ ih => exact .cons a b c (ih h1)

theorem member_tail {C : Cfg E} {n : Name} {s r : List Nat} (h : MemberAt C false n s r) :
    ∃ v t, IdAt C false v s t ∧ Tail C (.id v) n t r := by
  induction h with
  | id h => exact ⟨_, _, h, .nil⟩
  | member _ h1 h2 h3 ih =>
    obtain ⟨v, t, g1, g2⟩ := ih
    exact ⟨v, t, g1, tail_snoc g2 h1 h2 h3⟩

/-- What may follow a name. -/
def Fol (C : Cfg E) (r : List Nat) : Prop := (lex C .jsx r).2.1 ∉ [.eof, .dot, .colon, .lt]

theorem jsxMember_rn {C : Cfg E} (hC : C.Std) {base : List Mode} (n : Nat) : ∀ {o nm : Name} {s : S} {t r : List Nat},
    Seen C (.jsx :: base) t s → Tail C o nm t r → Fol C r →
    Rn (jsxMember C n o) s (fun a s' => a = nm ∧ Seen C (.jsx :: base) r s') := by
  induction n with
  | zero => intros; exact rn_fuel
  | succ n ih =>
    intro o nm s t r hs h hf
    unfold jsxMember
    cases h with
    | nil =>
      refine rn_bind (rn_peek_any hs ?_)
      intro s' hs'
      rw [if_neg (by intro e; apply hf; simp [top] at e; simp [e])]
      exact rn_pure ⟨rfl, hs'⟩
    | cons h1 h2 h3 h4 =>
      refine rn_bind (rn_peek hs (lex_char (t := .dot) h1 (by decide) (.inl (by decide)) (by simp [tagTok])) (by decide) ?_)
      rw [if_pos rfl]
      refine rn_bind (rn_next_buf rfl (rn_bind (rn_mono (ident_rn hC (base := base) seen_none h2 h3) ?_)))
      rintro v s' ⟨rfl, rfl⟩
      exact ih seen_none h4 hf

theorem tail_first {C : Cfg E} {o n : Name} {t r : List Nat} (h : Tail C o n t r) :
    (o = n ∧ t = r) ∨ ∃ t1, Gap false t (46 :: t1) := by
  cases h with
  | nil => exact .inl ⟨rfl, rfl⟩
  | cons h => exact .inr ⟨_, h⟩

theorem jsxName_rn {C : Cfg E} (hC : C.Std) {r0 : Rec E} {n : Nat} {base : List Mode} {s : S} {t0 t r : List Nat} {nm : Name}
    (hs : Seen C (.jsx :: base) t0 s) (hg : Gap false t0 t) (h : PathAt C false nm t r) (hf : Fol C r) :
    Rn (jsxName C r0 n) s (fun a s' => a = nm ∧ ∃ w x r', lex C .jsx r = (w, x, r') ∧ s' = ⟨some (x, r), r', act x (.jsx :: base), w⟩) := by
  have fol : ∀ s1 : S, Seen C (.jsx :: base) r s1 → Rn (do
      let a ← peek C
      if a = .lt then do
        let _ ← r0.jsx true false
        if nm.typed then return nm else fail
      else return nm) s1 (fun a s' => a = nm ∧ ∃ w x r', lex C .jsx r = (w, x, r') ∧ s' = ⟨some (x, r), r', act x (.jsx :: base), w⟩) := by
    intro s1 hs1
    cases hl : lex C .jsx r with
    | mk w p =>
      obtain ⟨x, r'⟩ := p
      unfold Fol at hf
      rw [hl] at hf
      refine rn_bind (rn_peek hs1 hl (by rintro rfl; simp at hf) ?_)
      rw [if_neg (by rintro rfl; simp at hf)]
      exact rn_pure ⟨rfl, w, x, r', rfl, rfl⟩
  unfold jsxName
  refine rn_bind ?_
  unfold jsxName0
  cases h with
  | ns h1 h2 h3 h4 h5 =>
    refine rn_bind (rn_mono (jsxId_rn hC hs hg h2) ?_)
    rintro v s1 ⟨rfl, rfl⟩
    have hl := lex_char (C := C) (t := .colon) h3 (by decide) (.inl (by decide)) (by simp [tagTok])
    refine rn_bind (rn_peek seen_none hl (by decide) ?_)
    rw [if_neg (by decide), if_pos ⟨rfl, h1⟩]
    refine rn_bind (rn_must (ms := .jsx :: base) (.inr ⟨_, _, _, hl, by decide, rfl⟩) hl (by decide) ?_)
    refine rn_bind (rn_mono (jsxId_rn hC (base := base) seen_none h4 h5) ?_)
    rintro v' s2 ⟨rfl, rfl⟩
    exact rn_pure (fol _ seen_none)
  | member h =>
    obtain ⟨v, t1, g1, g2⟩ := member_tail h
    refine rn_bind (rn_mono (jsxId_rn hC hs hg g1) ?_)
    rintro v' s1 ⟨rfl, rfl⟩
    rcases tail_first g2 with ⟨rfl, rfl⟩ | ⟨t2, hd⟩
    · refine rn_bind (rn_peek_any seen_none ?_)
      intro s2 hs2
      unfold Fol at hf
      rw [if_neg (by intro e; apply hf; simp [top] at e; simp [e]), if_neg (by intro e; apply hf; simp [top] at e; simp [e])]
      exact rn_pure (fol s2 hs2)
    · have hl := lex_char (C := C) (t := .dot) hd (by decide) (.inl (by decide)) (by simp [tagTok])
      refine rn_bind (rn_peek seen_none hl (by decide) ?_)
      rw [if_pos rfl]
      refine rn_mono (jsxMember_rn hC n (.inr ⟨_, _, _, hl, by decide, rfl⟩) g2 hf) ?_
      rintro a s3 ⟨rfl, h3⟩
      exact fol s3 h3

/-! ## Attributes -/

theorem path_lex {C : Cfg E} (hC : C.Std) {nm : Name} {s t r : List Nat} (hg : Gap false s t) (h : PathAt C false nm t r) :
    ∃ v u, lex C .jsx s = ([], .name v, u) := by
  cases h with
  | ns _ h => exact ⟨_, _, lex_id hC hg h⟩
  | member h =>
    obtain ⟨v, t1, g1, -⟩ := member_tail h
    exact ⟨_, _, lex_id hC hg g1⟩

theorem attr_lex {C : Cfg E} (hC : C.Std) {a : J E} {s t r : List Nat} (hg : Gap false s t) (h : AttrAt C false a t r) :
    (∃ v u, lex C .jsx s = ([], .name v, u)) ∨ ∃ u, lex C .jsx s = ([], .braceL, u) := by
  cases h with
  | bare h => exact .inl (path_lex hC hg h)
  | str h => exact .inl (path_lex hC hg h)
  | box h => exact .inl (path_lex hC hg h)
  | elem h => cases h
  | missing h => cases h
  | spread h => exact .inr ⟨_, lex_char hg (by decide) (.inl (by decide)) (by simp [tagTok])⟩

/-- What follows the attributes. -/
def Ends (C : Cfg E) (r : List Nat) : Prop := (lex C .jsx r).2.1 = .gt ∨ (lex C .jsx r).2.1 = .div

/-- What may follow an attribute. -/
def AFol (C : Cfg E) (r : List Nat) : Prop := (lex C .jsx r).2.1 ∉ [.eof, .dot, .colon, .lt, .assign, .braceR]

theorem Ends.afol {C : Cfg E} {r : List Nat} (h : Ends C r) : AFol C r := by
  unfold AFol
  rcases h with h | h <;> rw [h] <;> decide

theorem attrs_afol {C : Cfg E} (hC : C.Std) {l : List (J E)} {s r : List Nat} (h : AttrsAt C false l s r) (he : Ends C r) : AFol C s := by
  cases h with
  | nil => exact he.afol
  | cons h1 h2 =>
    unfold AFol
    rcases attr_lex hC h1 h2 with ⟨v, u, h⟩ | ⟨u, h⟩ <;> rw [h] <;> simp

theorem AFol.fol {C : Cfg E} {r : List Nat} (h : AFol C r) : Fol C r := by
  unfold AFol at h
  unfold Fol
  simp only [List.mem_cons, not_or, List.mem_nil_iff, not_false_eq_true, and_true] at h ⊢
  exact ⟨h.1, h.2.1, h.2.2.1, h.2.2.2.1⟩

theorem drop_false {C : Cfg E} {s r : List Nat} (h : DropAt C false s r) : s = r := by
  cases h with
  | none => rfl
  | elem h => cases h

theorem fol_assign {C : Cfg E} {s r : List Nat} (h : Gap false s (61 :: r)) : Fol C s ∧ lex C .jsx s = ([], .assign, r) := by
  have := lex_char (C := C) (t := .assign) h (by decide) (.inl (by decide)) (by simp [tagTok])
  refine ⟨?_, this⟩
  unfold Fol
  rw [this]
  simp

theorem jsxAttr_rn {C : Cfg E} (hC : C.Std) {r0 : Rec E} {n : Nat} {base : List Mode} {s : S} {t0 t r : List Nat} {a : J E}
    (hbase : base ≠ []) (hs : Seen C (.jsx :: base) t0 s) (hg : Gap false t0 t) (h : AttrAt C false a t r) (hf : AFol C r) :
    Rn (jsxAttr C r0 n) s (fun x s' => x = a ∧ Seen C (.jsx :: base) r s') := by
  unfold jsxAttr
  cases h with
  | elem h => cases h
  | missing h => cases h
  | spread h =>
    have hl := lex_char (C := C) (t := .braceL) hg (by decide) (.inl (by decide)) (by simp [tagTok])
    refine rn_bind (rn_peek hs hl (by decide) ?_)
    rw [if_pos rfl]
    refine rn_bind (rn_next_buf rfl (rn_bind (rn_mono (jsxExpr_rn hC (eff := .jsx :: base) (by simp) rfl rfl h) ?_)))
    rintro b s1 ⟨rfl, h1, h2, h3⟩
    exact rn_pure ⟨rfl, .inl ⟨h1, h3, h2⟩⟩
  | bare h1 h2 =>
    have := drop_false h2
    subst this
    obtain ⟨v, u, hl⟩ := path_lex hC hg h1
    refine rn_bind (rn_peek hs hl (by simp) ?_)
    rw [if_neg (by simp)]
    refine rn_bind (rn_mono (jsxName_rn hC (.inr ⟨_, _, _, hl, by simp, rfl⟩) hg h1 hf.fol) ?_)
    rintro nm s1 ⟨rfl, w, x, r', hx, rfl⟩
    refine rn_bind (rn_push (rn_bind (rn_peek_buf rfl ?_)))
    unfold AFol at hf
    rw [hx] at hf
    rw [if_pos (by rintro rfl; simp at hf)]
    refine rn_bind (rn_pop (rn_pure ⟨rfl, .inr ⟨w, x, r', hx, by rintro rfl; simp at hf, ?_⟩⟩))
    simp only [S.mk.injEq, true_and]
    refine ⟨pop_cons ?_, trivial⟩
    cases x <;> simp [act]
    simp at hf
  | str h1 h2 h3 h4 h5 h6 h7 =>
    have := drop_false h2
    subst this
    subst h6
    obtain ⟨v, u, hl⟩ := path_lex hC hg h1
    obtain ⟨hfa, hla⟩ := fol_assign (C := C) h3
    refine rn_bind (rn_peek hs hl (by simp) ?_)
    rw [if_neg (by simp)]
    refine rn_bind (rn_mono (jsxName_rn hC (.inr ⟨_, _, _, hl, by simp, rfl⟩) hg h1 hfa) ?_)
    rintro nm s1 ⟨rfl, w, x, r', hx, rfl⟩
    rw [hla] at hx
    cases hx
    refine rn_bind (rn_push (rn_bind (rn_peek_buf rfl ?_)))
    rw [if_neg (by simp)]
    refine rn_bind (rn_next_buf rfl (rn_bind ?_))
    refine rn_peek (ms := .attr :: .jsx :: base) (.inl ⟨rfl, rfl, rfl⟩) (by
      simp only [top, List.headD_cons]; rw [(lex_plain h4).2, plain_str h5 h7]) (by simp) ?_
    rw [if_neg (by simp)]
    refine rn_bind (rn_next_buf rfl (rn_bind (rn_pop (rn_pure ⟨rfl, .inl ⟨rfl, rfl, ?_⟩⟩))))
    exact pop_cons (m := .attr) (ms := .jsx :: base) (by simp)
  | box h1 h2 h3 h4 h5 h6 =>
    have := drop_false h2
    subst this
    obtain ⟨v, u, hl⟩ := path_lex hC hg h1
    obtain ⟨hfa, hla⟩ := fol_assign (C := C) h3
    refine rn_bind (rn_peek hs hl (by simp) ?_)
    rw [if_neg (by simp)]
    refine rn_bind (rn_mono (jsxName_rn hC (.inr ⟨_, _, _, hl, by simp, rfl⟩) hg h1 hfa) ?_)
    rintro nm s1 ⟨rfl, w, x, r', hx, rfl⟩
    rw [hla] at hx
    cases hx
    refine rn_bind (rn_push (rn_bind (rn_peek_buf rfl ?_)))
    rw [if_neg (by simp)]
    refine rn_bind (rn_next_buf rfl (rn_bind ?_))
    refine rn_peek (ms := .attr :: .jsx :: base) (t := .braceL) (.inl ⟨rfl, rfl, rfl⟩) (by
      simp only [top, List.headD_cons]; rw [(lex_plain h4).2, ← plain_braceL]; rfl) (by simp) ?_
    rw [if_pos rfl]
    refine rn_bind (rn_next_buf rfl (rn_bind (rn_mono (jsxExpr_rn hC (eff := .attr :: .jsx :: base) (by simp) rfl rfl h5) ?_)))
    rintro b s2 ⟨rfl, g1, g2, g3⟩
    refine rn_bind (rn_pop (rn_pure ⟨rfl, .inl ⟨g1, g3, ?_⟩⟩))
    show pop s2.modes = _
    rw [g2]
    exact pop_cons (by simp)

/-! ## Elements -/

/-- Before the text `k` between tags; white space may have been taken already. -/
def KAt (C : Cfg E) (base : List Mode) (k : List Nat) (s : S) : Prop :=
  Seen C (.child :: base) k s ∨ ∃ b k', k = 123 :: k' ∧ s = ⟨some (.braceL, b), k', .none :: .child :: base, []⟩

/-- About the recursive calls. -/
structure Runs (C : Cfg E) (r : Rec E) : Prop where
  elem : ∀ root opening eff s b e r', eff ≠ [] → s.buf = some (.lt, b) → s.modes = eff → ElemAt C false e (60 :: s.rest) r' →
    (root = true → (lex C (top eff) r').2.1 ≠ .lt) →
    Rn (r.jsx root opening) s (fun x s' => x = .inl e ∧ Seen C eff r' s')
  close : ∀ root eff s b c r', eff ≠ [] → s.buf = some (.lt, b) → s.modes = eff → CloseAt C false c (60 :: s.rest) r' →
    Rn (r.jsx root true) s (fun x s' => x = .inr c ∧ s'.buf = none ∧ s'.modes = eff ∧ s'.rest = r')
  attrs : ∀ base s l t r', base ≠ [] → Seen C (.jsx :: base) t s → AttrsAt C false l t r' → Ends C r' →
    Rn r.attrs s (fun x s' => x = l ∧ Seen C (.jsx :: base) r' s')
  kids : ∀ base o s k ks mid c r', base ≠ [] → KAt C base k s → KidsAt C false ks k mid → CloseAt C false c mid r' → pathOf o = pathOf c →
    Rn (r.kids o) s (fun x s' => x = (ks, c) ∧ s'.buf = none ∧ s'.modes = .child :: base ∧ s'.rest = r')

theorem jsxAttrs_rn {C : Cfg E} (hC : C.Std) {r0 : Rec E} (R : Runs C r0) {n : Nat} {base : List Mode} {s : S} {t r : List Nat}
    {l : List (J E)} (hbase : base ≠ []) (hs : Seen C (.jsx :: base) t s) (h : AttrsAt C false l t r) (he : Ends C r) :
    Rn (jsxAttrs C r0 n) s (fun x s' => x = l ∧ Seen C (.jsx :: base) r s') := by
  unfold jsxAttrs
  cases h with
  | nil =>
    refine rn_bind (rn_peek_any hs ?_)
    intro s' hs'
    rw [if_pos (by rcases he with h | h <;> simp [top, h])]
    exact rn_pure ⟨rfl, hs'⟩
  | cons h1 h2 h3 =>
    refine rn_bind (rn_peek_any hs ?_)
    intro s' hs'
    rw [if_neg (by rcases attr_lex hC h1 h2 with ⟨v, u, h⟩ | ⟨u, h⟩ <;> simp [top, h])]
    refine rn_bind (rn_mono (jsxAttr_rn hC hbase hs' h1 h2 (attrs_afol hC h3 he)) ?_)
    rintro x s2 ⟨rfl, hs2⟩
    refine rn_bind (rn_mono (R.attrs base s2 _ _ _ hbase hs2 h3 he) ?_)
    rintro l s3 ⟨rfl, hs3⟩
    exact rn_pure ⟨rfl, hs3⟩

theorem lex_gt {C : Cfg E} {s r : List Nat} (h : Gap false s (62 :: r)) : lex C .jsx s = ([], .gt, r) :=
  lex_char h (by decide) (.inl (by decide)) (by simp [tagTok])

theorem lex_div {C : Cfg E} {s r : List Nat} (h : Gap false s (47 :: r)) (hr : r.head? ≠ some 47) : lex C .jsx s = ([], .div, r) :=
  lex_char h (by decide) (.inr hr) (by simp [tagTok])

/-- The attributes after the name, up to a token that ends the tag. -/
theorem head_rn {C : Cfg E} (hC : C.Std) {r0 : Rec E} (R : Runs C r0) {n : Nat} {base : List Mode} {s : S} {t0 t t1 t2 r : List Nat}
    {nm : Name} {l : List (J E)} {α : Type} {f : Name → List (J E) → M α} {Q : α → S → Prop} (hbase : base ≠ [])
    (hs : Seen C (.jsx :: base) t0 s) (hg : Gap false t0 t) (h1 : PathAt C false nm t t1) (h2 : DropAt C false t1 t2)
    (h3 : AttrsAt C false l t2 r) (he : Ends C r) (hq : ∀ s', Seen C (.jsx :: base) r s' → Rn (f nm l) s' Q) :
    Rn (do let nm ← jsxName C r0 n; let as ← r0.attrs; f nm as) s Q := by
  have := drop_false h2
  subst this
  have ha := attrs_afol hC h3 he
  refine rn_bind (rn_mono (jsxName_rn hC hs hg h1 ha.fol) ?_)
  rintro nm s1 ⟨rfl, w, x, r', hx, rfl⟩
  unfold AFol at ha
  rw [hx] at ha
  refine rn_bind (rn_mono (R.attrs base _ _ _ _ hbase (.inr ⟨w, x, r', hx, by rintro rfl; simp at ha, rfl⟩) h3 he) ?_)
  rintro l s2 ⟨rfl, hs2⟩
  exact hq s2 hs2

theorem jsxClose_rn {C : Cfg E} (hC : C.Std) {r0 : Rec E} {n : Nat} {base : List Mode} {s : S} {t t1 r : List Nat} {c : Option Name}
    (hbase : base ≠ []) (hb : s.buf = some (.div, t)) (hr : s.rest = t1) (hm : s.modes = .jsx :: base)
    (h : (c = none ∧ Gap false t1 (62 :: r)) ∨ ∃ nm t2 t3 t4, c = some nm ∧ Gap false t1 t2 ∧ PathAt C false nm t2 t3 ∧
      DropAt C false t3 t4 ∧ Gap false t4 (62 :: r)) :
    Rn (jsxClose C r0 n) s (fun x s' => x = c ∧ s'.buf = none ∧ s'.modes = base ∧ s'.rest = r) := by
  unfold jsxClose
  refine rn_bind (rn_next_buf hb ?_)
  have hs : Seen C (.jsx :: base) t1 { s with buf := none } := .inl ⟨rfl, hr, hm⟩
  rcases h with ⟨rfl, h⟩ | ⟨nm, t2, t3, t4, rfl, h1, h2, h3, h4⟩
  · refine rn_bind (rn_peek hs (lex_gt h) (by decide) ?_)
    rw [if_pos rfl]
    refine rn_bind (rn_next_buf rfl (rn_bind (rn_pop (rn_pure ⟨rfl, rfl, ?_, rfl⟩))))
    exact pop_cons hbase
  · have := drop_false h3
    subst this
    obtain ⟨v, u, hl⟩ := path_lex hC h1 h2
    refine rn_bind (rn_peek hs hl (by simp) ?_)
    rw [if_neg (by simp)]
    have hg := lex_gt (C := C) h4
    refine rn_bind (rn_mono (jsxName_rn hC (.inr ⟨_, _, _, hl, by simp, rfl⟩) h1 h2 (by unfold Fol; rw [hg]; simp)) ?_)
    rintro nm s1 ⟨rfl, w, x, r', hx, rfl⟩
    refine rn_bind (rn_must (ms := .jsx :: base) (.inr ⟨w, x, r', hx, by rw [hg] at hx; cases hx; decide, rfl⟩) hg (by decide) ?_)
    refine rn_bind (rn_pop (rn_pure ⟨rfl, rfl, ?_, rfl⟩))
    exact pop_cons hbase

theorem elem_first {C : Cfg E} {e : J E} {s r : List Nat} (h : ElemAt C false e s r) : ∃ u, s = 60 :: u := by
  cases h <;> exact ⟨_, rfl⟩

theorem close_first {C : Cfg E} {c : Option Name} {s r : List Nat} (h : CloseAt C false c s r) : ∃ u, s = 60 :: u := by
  cases h <;> exact ⟨_, rfl⟩

/-- White space that is a text. -/
def wt (w : List Nat) : List (J E) := if w = [] then [] else [.text w]

/-- What the children begin with. -/
inductive View (C : Cfg E) (mid : List Nat) : List (J E) → List Nat → Prop
  | box {w b u t ks} : (∀ c ∈ w, Span.White c) → BoxAt C false b u t → KidsAt C false ks t mid → View C mid (wt w ++ b :: ks) (w ++ 123 :: u)
  | elem {w e u t ks} : (∀ c ∈ w, Span.White c) → ElemAt C false e (60 :: u) t → KidsAt C false ks t mid →
      View C mid (wt w ++ e :: ks) (w ++ 60 :: u)
  | close {w} : (∀ c ∈ w, Span.White c) → View C mid (wt w) (w ++ mid)
  | text {v w c s ks t} : (∀ c ∈ w, Span.White c) → ¬Span.White c → c ∉ ['{'.toNat, '}'.toNat, '<'.toNat] →
      Lexer.readJSXTxt C.ents w (c :: s) = some (.ok (.txt v t)) → KidsAt C false ks t mid → View C mid (.text v :: ks) (w ++ c :: s)

theorem kids_view {C : Cfg E} {ks : List (J E)} {k mid : List Nat} (h : KidsAt C false ks k mid) (hm : ∃ u, mid = 60 :: u) :
    View C mid ks k := by
  have mark : ∀ c, c = 123 ∨ c = 60 → ¬Span.White c := by rintro c (rfl | rfl) <;> exact white_dec (by decide)
  cases h with
  | nil => exact View.close (w := []) (by simp)
  | box h1 h2 => exact View.box (w := []) (by simp) h1 h2
  | elem h1 h2 =>
    obtain ⟨u, rfl⟩ := elem_first h1
    exact View.elem (w := []) (by simp) h1 h2
  | text h1 h2 =>
    rename_i v ks t
    cases h1 with
    | text a b c d => exact .text a b c d h2
    | ws h0 hw hu =>
      have e : (J.text v :: ks : List (J E)) = wt v ++ ks := by simp [wt, h0]
      rw [e]
      have hc : ∀ x u, t = x :: u → x = 123 ∨ x = 60 := by
        rintro x u rfl
        obtain ⟨u', h | h⟩ := hu
        · cases h; exact .inl rfl
        · cases h; exact .inr rfl
      cases h2 with
      | nil =>
        rw [List.append_nil]
        exact .close hw
      | box h3 h4 => exact .box hw h3 h4
      | elem h3 h4 =>
        obtain ⟨u, rfl⟩ := elem_first h3
        exact .elem hw h3 h4
      | text h3 h4 =>
        exfalso
        cases h3 with
        | ws g0 g1 _ =>
          rename_i v' t' ks' hx
          cases v' with
          | nil => exact g0 rfl
          | cons x v' => exact mark x (hc x _ rfl) (g1 x (by simp))
        | text g0 g1 g2 =>
          rename_i w' c' s' _
          cases w' with
          | nil => rcases hc c' _ rfl with rfl | rfl <;> simp at g2
          | cons x w' => exact mark x (hc x _ rfl) (g0 x (by simp))

theorem wt_rn {w u b : List Nat} {t : Tok} {ms : List Mode} {Q : List (J E) → S → Prop}
    (h : Q (wt w) ⟨some (t, b), u, ms, []⟩) : Rn wsTxt ⟨some (t, b), u, ms, w⟩ Q := by
  unfold Rn wsTxt
  unfold wt at h
  by_cases hw : w = []
  · subst hw
    simpa using h
  · simp only [hw, if_false] at h ⊢
    exact h

theorem notWhite_mark {c : Nat} {u : List Nat} (hc : Span.isSpace c = false) : ∀ d v, c :: u = d :: v → ¬Span.White d := by
  rintro d v e
  cases e
  exact white_dec hc

/-- Looking at the next token between tags. -/
theorem kat_peek {C : Cfg E} {base : List Mode} {k1 w r : List Nat} {t : Tok} {s : S} {Q : Tok → S → Prop}
    (hs : KAt C base (w ++ k1) s) (hw : ∀ c ∈ w, Span.White c) (hk : ∀ c u, k1 = c :: u → ¬Span.White c)
    (hl : childTok C w k1 = (t, r)) (ht : t ≠ .eof) (h : ∀ b, Q t ⟨some (t, b), r, act t (.child :: base), w⟩) : Rn (peek C) s Q := by
  rcases hs with hs | ⟨b, k', e, rfl⟩
  · exact rn_peek hs (show lex C .child _ = _ by rw [lex_kids hw hk, hl]) ht (h _)
  · have : w = [] ∧ k1 = 123 :: k' := by
      cases w with
      | nil => exact ⟨rfl, e⟩
      | cons x w =>
        cases e
        exact absurd (hw 123 (by simp)) (white_dec (by decide))
    obtain ⟨rfl, rfl⟩ := this
    have : t = .braceL ∧ r = k' := by simpa [childTok, eq_comm] using hl
    obtain ⟨rfl, rfl⟩ := this
    exact rn_peek_buf rfl (h b)

theorem afterKid_rn {C : Cfg E} {base : List Mode} {s : S} {ks : List (J E)} {k mid : List Nat} (hs : Seen C (.child :: base) k s)
    (h : KidsAt C false ks k mid) (hm : ∃ u, mid = 60 :: u) :
    Rn (afterKid C) s (fun w s' => ∃ l k2, ks = w ++ l ∧ KAt C base k2 s' ∧ KidsAt C false l k2 mid) := by
  unfold afterKid
  have other : ∀ w t r, lex C .child k = (w, t, r) → t ≠ .eof → t ≠ .gt → t ≠ .braceL → Rn (do
      let a ← peek C
      if a = .gt ∨ a = .braceL then wsTxt else return []) s
      (fun w s' => ∃ l k2, ks = w ++ l ∧ KAt C base k2 s' ∧ KidsAt C false l k2 mid) := by
    intro w t r hl h0 h1 h2
    refine rn_bind (rn_peek hs hl h0 ?_)
    rw [if_neg (by simp [h1, h2])]
    exact rn_pure ⟨ks, k, rfl, .inl (.inr ⟨w, t, r, hl, h0, rfl⟩), h⟩
  cases kids_view h hm with
  | box hw h1 h2 =>
    rename_i w b u t ks'
    refine rn_bind (rn_peek hs (show lex C .child _ = (w, .braceL, u) by
      rw [lex_kids hw (notWhite_mark (by decide))]; simp [childTok]) (by decide) ?_)
    rw [if_pos (.inr rfl)]
    exact wt_rn ⟨b :: ks', 123 :: u, rfl, .inr ⟨_, u, rfl, rfl⟩, .box h1 h2⟩
  | elem hw h1 h2 =>
    rename_i w b u t ks'
    exact other w .lt u (by rw [lex_kids hw (notWhite_mark (by decide))]; simp [childTok]) (by decide) (by decide) (by decide)
  | close hw =>
    rename_i w
    obtain ⟨u, rfl⟩ := hm
    exact other w .lt u (by rw [lex_kids hw (notWhite_mark (by decide))]; simp [childTok]) (by decide) (by decide) (by decide)
  | text hw hc hn hr h2 =>
    rename_i v w c u ks' t
    refine other w (.txt v) t ?_ (by simp) (by simp) (by simp)
    rw [lex_kids hw (by rintro d v e; cases e; exact hc)]
    simp at hn
    simp [childTok, hn, hr]

theorem kids_rn {C : Cfg E} (hC : C.Std) {r0 : Rec E} (R : Runs C r0) {base : List Mode} {o : Option Name} {s : S} {k mid r : List Nat}
    {ks : List (J E)} {c : Option Name} (hbase : base ≠ []) (hs : KAt C base k s) (h : KidsAt C false ks k mid)
    (hc : CloseAt C false c mid r) (hp : pathOf o = pathOf c) :
    Rn (kidsLoop C r0 o) s (fun x s' => x = (ks, c) ∧ s'.buf = none ∧ s'.modes = .child :: base ∧ s'.rest = r) := by
  have hm := close_first hc
  unfold kidsLoop
  refine rn_bind ?_
  cases kids_view h hm with
  | box hw h1 h2 =>
    rename_i w b u t ks'
    refine kat_peek (t := .braceL) (r := u) hs hw (notWhite_mark (by decide)) (by simp [childTok]) (by decide) (fun b => ?_)
    simp only
    refine rn_bind (wt_rn (rn_bind (rn_next_buf rfl (rn_bind (rn_mono (jsxExpr_rn hC (eff := .child :: base) (by simp) rfl rfl h1) ?_)))))
    rintro v s1 ⟨rfl, g1, g2, g3⟩
    refine rn_bind (rn_mono (afterKid_rn (.inl ⟨g1, g3, g2⟩) h2 hm) ?_)
    rintro w' s2 ⟨l, k2, rfl, h3, h4⟩
    refine rn_bind (rn_mono (R.kids base o s2 k2 l mid c r hbase h3 h4 hc hp) ?_)
    rintro x s3 ⟨rfl, h5⟩
    exact rn_pure ⟨rfl, h5⟩
  | elem hw h1 h2 =>
    rename_i w e u t ks'
    refine kat_peek (t := .lt) (r := u) hs hw (notWhite_mark (by decide)) (by simp [childTok]) (by decide) (fun b => ?_)
    simp only
    refine rn_bind (wt_rn (rn_bind (rn_mono (R.elem false true (.child :: base) _ _ _ _ (by simp) rfl rfl h1 (by simp)) ?_)))
    rintro v s1 ⟨rfl, g1⟩
    refine rn_bind (rn_mono (afterKid_rn g1 h2 hm) ?_)
    rintro w' s2 ⟨l, k2, rfl, h3, h4⟩
    refine rn_bind (rn_mono (R.kids base o s2 k2 l mid c r hbase h3 h4 hc hp) ?_)
    rintro x s3 ⟨rfl, h5⟩
    exact rn_pure ⟨rfl, h5⟩
  | close hw =>
    rename_i w
    obtain ⟨u, rfl⟩ := hm
    refine kat_peek (t := .lt) (r := u) hs hw (notWhite_mark (by decide)) (by simp [childTok]) (by decide) (fun b => ?_)
    simp only
    refine rn_bind (wt_rn (rn_bind (rn_mono (R.close false (.child :: base) _ _ _ _ (by simp) rfl rfl hc) ?_)))
    rintro v s1 ⟨rfl, h5⟩
    simp only [hp, if_true]
    exact rn_pure ⟨rfl, h5⟩
  | text hw hn hx hr h2 =>
    rename_i v w x u ks' t
    refine kat_peek (t := .txt v) (r := t) hs hw (by rintro d v e; cases e; exact hn) ?_ (by simp) (fun b => ?_)
    · simp at hx
      simp [childTok, hx, hr]
    · simp only
      refine rn_bind (rn_next_buf rfl ?_)
      refine rn_bind (rn_mono (R.kids base o _ t ks' mid c r hbase (.inl (.inl ⟨rfl, rfl, rfl⟩)) h2 hc hp) ?_)
      rintro x s3 ⟨rfl, h5⟩
      exact rn_pure ⟨rfl, h5⟩

theorem elem_rn {C : Cfg E} (hC : C.Std) {r0 : Rec E} (R : Runs C r0) {n : Nat} {root opening : Bool} {eff : List Mode} {s : S}
    {b r : List Nat} {e : J E} (he : eff ≠ []) (hb : s.buf = some (.lt, b)) (hm : s.modes = eff) (h : ElemAt C false e (60 :: s.rest) r)
    (hr : root = true → (lex C (top eff) r).2.1 ≠ .lt) :
    Rn (jsxElem C r0 n root opening) s (fun x s' => x = .inl e ∧ Seen C eff r s') := by
  have last : ∀ (s2 : S), s2.buf = none → s2.modes = eff → s2.rest = r →
      Rn (do
        let a ← peek C
        if a = .lt ∧ root = true then fail else return (.inl e : J E ⊕ Option Name)) s2 (fun x s' => x = .inl e ∧ Seen C eff r s') := by
    intro s2 h1 h2 h3
    refine rn_bind (rn_peek_any (.inl ⟨h1, h3, h2⟩) ?_)
    intro s' hs'
    rw [if_neg (fun h => hr h.2 h.1)]
    exact rn_pure ⟨rfl, hs'⟩
  unfold jsxElem
  refine rn_bind (rn_next_buf hb (rn_bind (rn_push ?_)))
  have hs : Seen C (.jsx :: eff) s.rest { s with buf := none, modes := .jsx :: s.modes } := .inl ⟨rfl, rfl, by simp [hm]⟩
  cases h with
  | closed h1 h2 h3 h4 h5 h6 h7 =>
    obtain ⟨v, u, hl⟩ := path_lex hC h1 h2
    refine rn_bind (rn_peek hs hl (by simp) ?_)
    rw [if_neg (by simp)]
    unfold jsxOpen
    refine rn_bind (rn_bind (rn_peek_buf rfl ?_))
    rw [if_neg (by simp)]
    have hd := lex_div (C := C) h5 h6
    refine head_rn hC R he (.inr ⟨_, _, _, hl, by simp, rfl⟩) h1 h2 h3 h4 (.inr (by rw [hd])) ?_
    intro s1 hs1
    refine rn_bind (rn_peek hs1 hd (by decide) ?_)
    rw [if_pos rfl]
    refine rn_bind (rn_next_buf rfl (rn_bind (rn_must (ms := .jsx :: eff) (.inl ⟨rfl, rfl, rfl⟩) (lex_gt h7) (by decide) (rn_pure ?_))))
    simp only [if_true]
    exact rn_bind (rn_pop (last _ rfl (pop_cons he) rfl))
  | pair h1 h2 h3 h4 h5 h6 h7 h8 =>
    obtain ⟨v, u, hl⟩ := path_lex hC h1 h2
    refine rn_bind (rn_peek hs hl (by simp) ?_)
    rw [if_neg (by simp)]
    unfold jsxOpen
    refine rn_bind (rn_bind (rn_peek_buf rfl ?_))
    rw [if_neg (by simp)]
    have hd := lex_gt (C := C) h5
    refine head_rn hC R he (.inr ⟨_, _, _, hl, by simp, rfl⟩) h1 h2 h3 h4 (.inl (by rw [hd])) ?_
    intro s1 hs1
    refine rn_bind (rn_peek hs1 hd (by decide) ?_)
    rw [if_neg (by decide)]
    refine rn_bind (rn_must (ms := .jsx :: eff) (.inr ⟨_, _, _, hd, by decide, rfl⟩) hd (by decide) (rn_pure ?_))
    simp only [Bool.false_eq_true, if_false]
    refine rn_bind (rn_push ?_)
    refine rn_bind (rn_mono (R.kids (.jsx :: eff) _ _ _ _ _ _ _ (by simp) (.inl (.inl ⟨rfl, rfl, rfl⟩)) h6 h7 h8) ?_)
    rintro x s2 ⟨rfl, g1, g2, g3⟩
    refine rn_bind (rn_pop (rn_bind (rn_pop (last _ g1 ?_ g3))))
    show pop (pop s2.modes) = eff
    rw [g2, pop_cons (by simp), pop_cons he]
  | fragment h1 h2 h3 =>
    have hd := lex_gt (C := C) h1
    refine rn_bind (rn_peek hs hd (by decide) ?_)
    rw [if_neg (by decide)]
    unfold jsxOpen
    refine rn_bind (rn_bind (rn_peek_buf rfl ?_))
    rw [if_pos rfl]
    refine rn_bind (rn_next_buf rfl (rn_pure ?_))
    simp only [Bool.false_eq_true, if_false]
    refine rn_bind (rn_push ?_)
    refine rn_bind (rn_mono (R.kids (.jsx :: eff) _ _ _ _ _ _ _ (by simp) (.inl (.inl ⟨rfl, rfl, rfl⟩)) h2 h3 rfl) ?_)
    rintro x s2 ⟨rfl, g1, g2, g3⟩
    refine rn_bind (rn_pop (rn_bind (rn_pop (last _ g1 ?_ g3))))
    show pop (pop s2.modes) = eff
    rw [g2, pop_cons (by simp), pop_cons he]

theorem close_rn {C : Cfg E} (hC : C.Std) {r0 : Rec E} {n : Nat} {root : Bool} {eff : List Mode} {s : S}
    {b r : List Nat} {c : Option Name} (he : eff ≠ []) (hb : s.buf = some (.lt, b)) (hm : s.modes = eff)
    (h : CloseAt C false c (60 :: s.rest) r) :
    Rn (jsxElem C r0 n root true) s (fun x s' => x = .inr c ∧ s'.buf = none ∧ s'.modes = eff ∧ s'.rest = r) := by
  unfold jsxElem
  refine rn_bind (rn_next_buf hb (rn_bind (rn_push ?_)))
  have hs : Seen C (.jsx :: eff) s.rest { s with buf := none, modes := .jsx :: s.modes } := .inl ⟨rfl, rfl, by simp [hm]⟩
  cases h with
  | name h1 h2 h3 h4 h5 h6 =>
    refine rn_bind (rn_peek hs (lex_div h1 h2) (by decide) ?_)
    rw [if_pos rfl, if_pos rfl]
    refine rn_bind (rn_mono (jsxClose_rn hC he rfl rfl rfl (.inr ⟨_, _, _, _, rfl, h3, h4, h5, h6⟩)) ?_)
    rintro x s1 ⟨rfl, h⟩
    exact rn_pure ⟨rfl, h⟩
  | fragment h1 h2 h3 =>
    refine rn_bind (rn_peek hs (lex_div h1 h2) (by decide) ?_)
    rw [if_pos rfl, if_pos rfl]
    refine rn_bind (rn_mono (jsxClose_rn hC he rfl rfl rfl (.inl ⟨rfl, h3⟩)) ?_)
    rintro x s1 ⟨rfl, h⟩
    exact rn_pure ⟨rfl, h⟩

theorem runs {C : Cfg E} (hC : C.Std) (n : Nat) : Runs C (rec C n) := by
  induction n with
  | zero => refine ⟨?_, ?_, ?_, ?_⟩ <;> (intros; exact rn_fuel)
  | succ n ih =>
    refine ⟨?_, ?_, ?_, ?_⟩
    · intro root opening eff s b e r he hb hm h hr
      exact elem_rn hC ih he hb hm h hr
    · intro root eff s b c r he hb hm h
      exact close_rn hC he hb hm h
    · intro base s l t r he hs h hE
      exact jsxAttrs_rn hC ih he hs h hE
    · intro base o s k ks mid c r he hs h hc hp
      exact kids_rn hC ih he hs h hc hp

end Mole.Parser.Jsx
