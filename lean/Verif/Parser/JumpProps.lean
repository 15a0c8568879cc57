import Verif.Parser.JumpLemmas
/-!
# C24, C27, C58: theorems about break, continue, return and switch
-/
namespace Mole.Parser.Sym
open Spec

/-- A scope entered, a body read in it, and left. -/
theorem scoped_ok {j0 : JS} {r : Res} {j1 s1 s up c t st} {k : JS → Res} {j2 m ts} (hr : r = .ok (j1, []))
    (_hi : InvL j1 s1 (s :: up) c t st) (hlo : j1.loops = j0.loops)
    (hk : k j1 = .ok (j2, ts)) (hp : Post true j1 s1 (s :: up) j2 m) :
    ∃ j3, seq r (fun j => seq (k j) leaveJ) = .ok (j3, ts) ∧ j3.tab.chain = s :: up ∧ j3.loops = j0.loops := by
  obtain ⟨j3, h1, h2, h3⟩ := leaveJ_ok j2 _ s up hp.chain
  refine ⟨j3, ?_, h2, by rw [h3, hp.loops, hlo]⟩
  have := seq_both hk h1
  rw [List.append_nil] at this
  exact seq_both (k := fun j => seq (k j) leaveJ) hr this

theorem scoped_err {r : Res} {j1 e} {k : JS → Res} (hr : r = .ok (j1, [])) (hk : k j1 = .error e) :
    seq r (fun j => seq (k j) leaveJ) = .error e :=
  seq_err2 (k := fun j => seq (k j) leaveJ) hr (seq_err hk)

/-- Entering a plain block. -/
theorem enter_plain {j s up c t st} (h : Inv j s up c t st) :
    ∃ j1 s1, enterJ j false [] = .ok (j1, []) ∧ InvL j1 s1 (s :: up) c t st ∧ j1.loops = j.loops :=
  enter_block h [] c t [] (by simp) rfl rfl rfl (by simp) (by simp) (by simp) j rfl rfl

theorem enter_switch {j s up c t st} (h : Inv j s up c t st) :
    ∃ j1 s1, enterJ j false [.switch] = .ok (j1, []) ∧
      InvL j1 s1 (s :: up) { c with brk := true } t st ∧ j1.loops = j.loops :=
  enter_block h [.switch] { c with brk := true } t [] (by simp) rfl rfl rfl (by simp) (by simp) (by simp) j rfl rfl

theorem enter_try {j s up c t st} (h : Inv j s up c t st) :
    ∃ j1 s1, enterJ j false [.try_] = .ok (j1, []) ∧ InvL j1 s1 (s :: up) c true st ∧ j1.loops = j.loops :=
  enter_block h [.try_] c true [] (by simp) rfl rfl rfl (by simp) (by simp) (by simp) j rfl rfl

theorem enter_catch {j s up c t st} (h : Inv j s up c t st) :
    ∃ j1 s1, enterJ j false [.catch_] = .ok (j1, []) ∧ InvL j1 s1 (s :: up) c t st ∧ j1.loops = j.loops :=
  enter_block h [.catch_] c t [] (by simp) rfl rfl rfl (by simp) (by simp) (by simp) j rfl rfl

theorem enter_loop {j s up c t st} (h : Inv j s up c t st) (n : Nat) :
    ∃ j1 s1, enterJ (pushLoop j n) false [.loopDirect] = .ok (j1, []) ∧
      InvL j1 s1 (s :: up) { c with loops := n :: c.loops, brk := true } t st ∧ j1.loops = n :: j.loops :=
  enter_block h [.loopDirect] { c with loops := n :: c.loops, brk := true } t [n] (by simp) rfl rfl rfl (by simp)
    (by simp) (by simp) (pushLoop j n) rfl rfl

/-- Same scopes, same loops: the relation stays. -/
theorem Inv.again {j s up c t st j'} (h : Inv j s up c t st) (hc : j'.tab.chain = s :: up)
    (hl : j'.loops = j.loops) : Inv j' s up c t st :=
  ⟨⟨hc, by rw [hl]; exact h.loops, h.loop, h.brk1, h.brk2, h.try2, h.loopBrk, h.fn1, h.fn2, h.own⟩, h.lab⟩

theorem post_same {j s up j'} (hc : j'.tab.chain = s :: up) (hl : j'.loops = j.loops) (b : Bool) :
    Post b j s up j' s.labels := ⟨hl, hc, .inl rfl⟩

/-- A label put in force. -/
theorem setLabel_ok {j s up c t st} (h : Inv j s up c t st) (l n : Nat) (i : Bool) (hn : c.lookup l = none) :
    ∃ j1, setLabel j l n = .ok (j1, []) ∧ j1.loops = j.loops ∧
      Inv j1 { s with labels := put s.labels l n } up { c with labels := (l, n, i) :: c.labels } t st := by
  have hs : (s.labels l).isSome = false := by
    cases hl : s.labels l with
    | none => rfl
    | some n => obtain ⟨i, hi⟩ := h.own l n hl; rw [hn] at hi; cases hi
  have hlook : ∀ x, ({ c with labels := (l, n, i) :: c.labels } : Ctx).lookup x =
      if x = l then some (n, i) else c.lookup x := by
    intro x
    simp only [Ctx.lookup, List.lookup_cons]
    by_cases hx : x = l
    · subst hx; simp
    · have : (x == l) = false := by simpa using hx
      rw [this, if_neg hx]
  simp only [setLabel, h.chain, hs]
  refine ⟨_, rfl, rfl, ⟨⟨rfl, h.loops, h.loop, h.brk1, h.brk2, h.try2, h.loopBrk, h.fn1, h.fn2, ?_⟩, ?_⟩⟩
  · intro x m hx
    rw [hlook]
    simp only [put] at hx
    split at hx
    · rename_i e; cases hx; subst e; exact ⟨i, by simp⟩
    · rename_i e; rw [if_neg e]; exact h.own x m hx
  · intro x
    rw [hlook, getLabel]
    simp only [put]
    by_cases hx : x = l
    · simp [hx]
    · simp only [if_neg hx]
      have := h.lab x
      rw [getLabel] at this
      exact this

theorem clear_ok {b j1 s up m n l j2 : _} {j0 : JS} (hp : Post b j1 { s with labels := put s.labels l n } up j2 m)
    (hl : j1.loops = j0.loops) :
    ∃ j3, clearLabels j2 = .ok (j3, []) ∧ Post true j0 s up j3 (fun _ => none) := by
  simp only [clearLabels, hp.chain]
  exact ⟨_, rfl, ⟨by rw [← hl]; exact hp.loops, rfl, .inr ⟨rfl, rfl⟩⟩⟩

theorem kinds_nor {a b c d : Bool} :
    (!a && !b && !c && !d) = true ↔ ¬ (a = true ∨ b = true ∨ c = true ∨ d = true) := by
  cases a <;> cases b <;> cases c <;> cases d <;> simp

mutual
theorem stm_ok {j s up c t st} : ∀ (x : Stmt) (_ : Inv j s up c t st) (_ : tidy x = true) {ts},
    valid c x = some ts → ∃ j' m, stm j x = .ok (j', ts) ∧ Post (bare x) j s up j' m
  | .expr, h, _, ts, hv => by
    rw [valid] at hv; cases hv
    exact ⟨j, _, rfl, .refl _ h.chain⟩
  | .ret, h, _, ts, hv => by
    rw [valid] at hv
    split at hv
    · rename_i hf
      cases hv
      rw [stm, retStmt, h.chain]
      have := h.fn1 hf
      refine ⟨j, s.labels, ?_, .refl _ h.chain⟩
      simp only
      rw [if_neg]
      rcases this with h | h <;> simp [h]
    · cases hv
  | .block b, h, hd, ts, hv => by
    rw [valid] at hv; rw [tidy] at hd
    obtain ⟨j1, s1, h1, h2, h3⟩ := enter_plain h
    obtain ⟨j2, m, h4, h5⟩ := stms_ok b h2 hd hv
    obtain ⟨j3, h6, h7, h8⟩ := scoped_ok (k := fun j => stms j b) h1 h2 h3 h4 h5
    exact ⟨j3, _, h6, post_same h7 h8 _⟩
  | .if1 a, h, hd, ts, hv => by
    rw [valid] at hv; rw [tidy] at hd
    exact stm_ok a h hd hv
  | .if2 a b, h, hd, ts, hv => by
    rw [valid] at hv; rw [tidy] at hd
    simp only [Bool.and_eq_true, Bool.not_eq_true'] at hd
    obtain ⟨x, y, hx, hy, rfl⟩ := both_some hv
    obtain ⟨j1, m1, h1, h2⟩ := stm_ok a h hd.1.2 hx
    rw [hd.1.1] at h2
    obtain ⟨j2, m2, h3, h4⟩ := stm_ok b (h2.inv h) hd.2 hy
    refine ⟨j2, m2, seq_both (k := fun j => stm j b) h1 h3, ?_⟩
    have := h2.trans h4
    rw [bare, hd.1.1]
    exact this
  | .loop n b, h, hd, ts, hv => by
    rw [valid] at hv; rw [tidy] at hd
    obtain ⟨j1, s1, h1, h2, h3⟩ := enter_loop h n
    obtain ⟨j2, m, h4, h5⟩ := stm_ok b h2.inv hd hv
    obtain ⟨j3, h6, h7, h8⟩ := leaveJ_ok j2 _ s up h5.chain
    have hl : j3.loops = n :: j.loops := by rw [h8, h5.loops, h3]
    have hpop : popLoop j3 = .ok ({ j3 with loops := j.loops }, []) := by simp only [popLoop, hl]
    refine ⟨{ j3 with loops := j.loops }, s.labels, ?_, ⟨rfl, h7, .inl rfl⟩⟩
    rw [stm]
    have h9 := seq_both h6 hpop
    have h10 := seq_both (k := fun j => seq (leaveJ j) popLoop) h4 h9
    have h11 := seq_both (k := fun j => seq (stm j b) fun j => seq (leaveJ j) popLoop) h1 h10
    simpa using h11
  | .with_ b, h, hd, ts, hv => by
    rw [valid] at hv; rw [tidy] at hd
    exact stm_ok b h hd hv
  | .switch_ cs, h, hd, ts, hv => by
    rw [valid] at hv; rw [tidy] at hd
    split at hv
    · rename_i hdef
      obtain ⟨j1, s1, h1, h2, h3⟩ := enter_switch h
      obtain ⟨j2, m, h4, h5⟩ := clauses_ok cs false h2 hd (by simpa using hdef) hv
      obtain ⟨j3, h6, h7, h8⟩ := scoped_ok (k := fun j => clauses j false cs) h1 h2 h3 h4 h5
      exact ⟨j3, _, h6, post_same h7 h8 _⟩
    · cases hv
  | .try_ b e f, h, hd, ts, hv => by
    rw [valid] at hv; rw [tidy] at hd
    simp only [Bool.and_eq_true] at hd
    obtain ⟨x, yz, hx, hyz, rfl⟩ := both_some hv
    obtain ⟨y, z, hy, hz, rfl⟩ := both_some hyz
    obtain ⟨j1, s1, h1, h2, h3⟩ := enter_try h
    obtain ⟨j2, m, h4, h5⟩ := stms_ok b h2 hd.1.1 hx
    obtain ⟨j3, h6, h7, h8⟩ := scoped_ok (k := fun j => stms j b) h1 h2 h3 h4 h5
    have h' := h.again h7 h8
    obtain ⟨j4, s4, g1, g2, g3⟩ := enter_catch h'
    obtain ⟨j5, m5, g4, g5⟩ := stms_ok e g2 hd.1.2 hy
    obtain ⟨j6, g6, g7, g8⟩ := scoped_ok (k := fun j => stms j e) g1 g2 g3 g4 g5
    have h'' := h'.again g7 g8
    obtain ⟨j7, s7, k1, k2, k3⟩ := enter_plain h''
    obtain ⟨j8, m8, k4, k5⟩ := stms_ok f k2 hd.2 hz
    obtain ⟨j9, k6, k7, k8⟩ := scoped_ok (k := fun j => stms j f) k1 k2 k3 k4 k5
    refine ⟨j9, s.labels, ?_, post_same k7 (by rw [k8, g8, h8]) _⟩
    rw [stm]
    exact seq_both (k := fun j => seq (seq (enterJ j false [.catch_]) fun j => seq (stms j e) leaveJ) fun j =>
      seq (enterJ j false []) fun j => seq (stms j f) leaveJ) h6
      (seq_both (k := fun j => seq (enterJ j false []) fun j => seq (stms j f) leaveJ) g6 k6)
  | .label l n b, h, hd, ts, hv => by
    rw [valid] at hv; rw [tidy] at hd
    split at hv
    · cases hv
    · rename_i hn
      obtain ⟨j1, h1, h2, h3⟩ := setLabel_ok h l n (iter b) hn
      obtain ⟨j2, m, h4, h5⟩ := stm_ok b h3 hd hv
      obtain ⟨j3, h6, h7⟩ := clear_ok (j0 := j) h5 h2
      refine ⟨j3, _, ?_, h7⟩
      rw [stm]
      have := seq_both h4 h6
      rw [List.append_nil] at this
      exact seq_both (k := fun j => seq (stm j b) clearLabels) h1 this
  | .brk none, h, _, ts, hv => by
    rw [valid] at hv
    split at hv
    · rename_i hb
      cases hv
      have := h.brk1 hb
      refine ⟨j, s.labels, ?_, .refl _ h.chain⟩
      simp only [stm, brkStmt, h.chain]
      rw [if_neg]
      rw [kinds_nor]
      exact fun hn => hn this
    · cases hv
  | .brk (some l), h, _, ts, hv => by
    rw [valid] at hv
    have := h.lab l
    cases hl : c.lookup l with
    | none => rw [hl] at hv; cases hv
    | some p =>
      rw [hl] at hv this
      cases hv
      refine ⟨j, s.labels, ?_, .refl _ h.chain⟩
      simp only [stm, brkStmt, h.chain, this, Option.map_some]
  | .cont none, h, _, ts, hv => by
    rw [valid] at hv
    cases hl : c.loops with
    | nil => rw [hl] at hv; cases hv
    | cons n ns =>
      rw [hl] at hv
      cases hv
      obtain ⟨rest, hr⟩ := h.loops
      have := h.loop.2 (by rw [hl]; simp)
      refine ⟨j, s.labels, ?_, .refl _ h.chain⟩
      simp only [stm, contStmt, h.chain]
      rw [if_neg]
      · rw [hr, hl]; rfl
      · rcases this with h | h <;> simp [h]
  | .cont (some l), h, _, ts, hv => by
    rw [valid] at hv
    have := h.lab l
    split at hv
    · rename_i n hl
      rw [hl] at this
      cases hv
      refine ⟨j, s.labels, ?_, .refl _ h.chain⟩
      simp only [stm, contStmt, h.chain, this, Option.map_some]
    · cases hv
  | .fn b, h, hd, ts, hv => by
    rw [valid] at hv; rw [tidy] at hd
    obtain ⟨j1, s1, h1, h2, h3⟩ := enter_fn h.chain { fn := true } st [] (by simp) rfl rfl rfl (.inl rfl)
    obtain ⟨j2, m, h4, h5⟩ := stms_ok b h2 hd hv
    obtain ⟨j3, h6, h7, h8⟩ := scoped_ok (k := fun j => stms j b) h1 h2 h3 h4 h5
    exact ⟨j3, _, h6, post_same h7 h8 _⟩
  | .cls ms, h, hd, ts, hv => by
    rw [valid] at hv; rw [tidy] at hd
    obtain ⟨j1, s1, h1, h2, h3⟩ := enter_fn h.chain {} true [.strict, .cls] (by simp) rfl rfl rfl (.inr rfl)
    obtain ⟨j2, h4, h5⟩ := members_ok ms h2 hd hv
    obtain ⟨j3, h6, h7, h8⟩ := scoped_ok (k := fun j => members j ms) h1 h2 h3 h4 h5
    exact ⟨j3, _, h6, post_same h7 h8 _⟩

theorem stms_ok {j s up c t st} : ∀ (x : Stmts) (_ : InvL j s up c t st) (_ : tidys x = true) {ts},
    valids c x = some ts → ∃ j' m, stms j x = .ok (j', ts) ∧ Post true j s up j' m
  | .nil, h, _, ts, hv => by
    rw [valids] at hv; cases hv
    exact ⟨j, _, rfl, .refl _ h.chain⟩
  | .cons a r, h, hd, ts, hv => by
    rw [valids] at hv; rw [tidys, Bool.and_eq_true] at hd
    obtain ⟨x, y, hx, hy, rfl⟩ := both_some hv
    obtain ⟨j1, m1, h1, h2⟩ := stm_ok a h.inv hd.1 hx
    obtain ⟨j2, m2, h3, h4⟩ := stms_ok r (h2.invL h) hd.2 hy
    refine ⟨j2, m2, seq_both (k := fun j => stms j r) h1 h3, ?_⟩
    have := h2.mono.trans h4
    exact this

theorem clauses_ok {j s up c t st} : ∀ (x : Clauses) (met : Bool) (_ : InvL j s up c t st)
    (_ : tidyc x = true) (_ : (if met then 1 else 0) + defaults x ≤ 1) {ts},
    validc c x = some ts → ∃ j' m, clauses j met x = .ok (j', ts) ∧ Post true j s up j' m
  | .nil, _, h, _, _, ts, hv => by
    rw [validc] at hv; cases hv
    exact ⟨j, _, rfl, .refl _ h.chain⟩
  | .cons d b r, met, h, hd, hm, ts, hv => by
    rw [validc] at hv; rw [tidyc, Bool.and_eq_true] at hd
    rw [defaults] at hm
    obtain ⟨x, y, hx, hy, rfl⟩ := both_some hv
    obtain ⟨j1, m1, h1, h2⟩ := stms_ok b h hd.1 hx
    obtain ⟨j2, m2, h3, h4⟩ := clauses_ok r d (h2.invL h) hd.2
      (by cases met <;> cases d <;> simp at hm ⊢ <;> omega) hy
    refine ⟨j2, m2, ?_, h2.trans h4⟩
    rw [clauses, if_neg]
    · exact seq_both (k := fun j => clauses j d r) h1 h3
    · cases met <;> cases d <;> simp at hm ⊢
      omega

theorem members_ok {j s up st} : ∀ (x : Members) (_ : InvL j s up {} false st)
    (_ : tidym x = true) {ts},
    validm x = some ts → ∃ j', members j x = .ok (j', ts) ∧ Post true j s up j' s.labels
  | .nil, h, _, ts, hv => by
    rw [validm] at hv; cases hv
    exact ⟨j, rfl, .refl _ h.chain⟩
  | .static b r, h, hd, ts, hv => by
    rw [validm] at hv; rw [tidym, Bool.and_eq_true] at hd
    obtain ⟨x, y, hx, hy, rfl⟩ := both_some hv
    obtain ⟨j1, s1, h1, h2, h3⟩ := enter_plain h.inv
    obtain ⟨j2, m, h4, h5⟩ := stms_ok b h2 hd.1 hx
    obtain ⟨j3, h6, h7, h8⟩ := scoped_ok (k := fun j => stms j b) h1 h2 h3 h4 h5
    have hp : Post false j s up j3 s.labels := post_same h7 h8 _
    obtain ⟨j4, h9, h10⟩ := members_ok r (hp.invL h) hd.2 hy
    exact ⟨j4, seq_both (k := fun j => members j r) h6 h9, hp.trans h10⟩
  | .method b r, h, hd, ts, hv => by
    rw [validm] at hv; rw [tidym, Bool.and_eq_true] at hd
    obtain ⟨x, y, hx, hy, rfl⟩ := both_some hv
    obtain ⟨j1, s1, h1, h2, h3⟩ := enter_fn h.chain { fn := true } st [] (by simp) rfl rfl rfl (.inl rfl)
    obtain ⟨j2, m, h4, h5⟩ := stms_ok b h2 hd.1 hx
    obtain ⟨j3, h6, h7, h8⟩ := scoped_ok (k := fun j => stms j b) h1 h2 h3 h4 h5
    have hp : Post false j s up j3 s.labels := post_same h7 h8 _
    obtain ⟨j4, h9, h10⟩ := members_ok r (hp.invL h) hd.2 hy
    exact ⟨j4, seq_both (k := fun j => members j r) h6 h9, hp.trans h10⟩
end

mutual
theorem stm_err {j s up c t st} : ∀ (x : Stmt) (_ : Inv j s up c t st) (_ : tidy x = true)
    (_ : fair c t st x = true), valid c x = none → stm j x = .error .err
  | .expr, _, _, _, hv => by rw [valid] at hv; cases hv
  | .ret, h, _, hf, hv => by
    rw [valid] at hv; rw [fair] at hf
    split at hv
    · cases hv
    · rename_i hc
      have hn : ¬ (s.kind .func = true ∨ s.kind .funcIndirect = true) := by
        intro hk
        rcases h.fn2 hk with h1 | h1
        · exact hc h1
        · rw [h1] at hf; simp at hf; exact hc hf
      rw [stm, retStmt, h.chain]
      simp only
      rw [if_pos]
      cases h1 : s.kind .func <;> cases h2 : s.kind .funcIndirect <;> simp [h1, h2] at hn ⊢
  | .block b, h, hd, hf, hv => by
    rw [valid] at hv; rw [tidy] at hd; rw [fair] at hf
    obtain ⟨j1, s1, h1, h2, h3⟩ := enter_plain h
    exact scoped_err (k := fun j => stms j b) h1 (stms_err b h2 hd hf hv)
  | .if1 a, h, hd, hf, hv => by
    rw [valid] at hv; rw [tidy] at hd; rw [fair] at hf
    exact stm_err a h hd hf hv
  | .if2 a b, h, hd, hf, hv => by
    rw [valid] at hv; rw [tidy] at hd; rw [fair, Bool.and_eq_true] at hf
    simp only [Bool.and_eq_true, Bool.not_eq_true'] at hd
    rcases both_none hv with hx | ⟨x, hx, hy⟩
    · exact seq_err (k := fun j => stm j b) (stm_err a h hd.1.2 hf.1 hx)
    · obtain ⟨j1, m1, h1, h2⟩ := stm_ok a h hd.1.2 hx
      rw [hd.1.1] at h2
      exact seq_err2 (k := fun j => stm j b) h1 (stm_err b (h2.inv h) hd.2 hf.2 hy)
  | .loop n b, h, hd, hf, hv => by
    rw [valid] at hv; rw [tidy] at hd; rw [fair] at hf
    obtain ⟨j1, s1, h1, h2, h3⟩ := enter_loop h n
    exact seq_err2 (k := fun j => seq (stm j b) fun j => seq (leaveJ j) popLoop) h1
      (seq_err (stm_err b h2.inv hd hf hv))
  | .with_ b, h, hd, hf, hv => by
    rw [valid] at hv; rw [tidy] at hd; rw [fair] at hf
    exact stm_err b h hd hf hv
  | .switch_ cs, h, hd, hf, hv => by
    rw [valid] at hv; rw [tidy] at hd; rw [fair, Bool.and_eq_true] at hf
    have hdef : defaults cs ≤ 1 := by simpa using hf.1
    rw [if_pos hdef] at hv
    obtain ⟨j1, s1, h1, h2, h3⟩ := enter_switch h
    exact scoped_err (k := fun j => clauses j false cs) h1
      (clauses_err cs false h2 hd hf.2 (by simpa using hdef) hv)
  | .try_ b e f, h, hd, hf, hv => by
    rw [valid] at hv; rw [tidy] at hd; rw [fair] at hf
    simp only [Bool.and_eq_true] at hd hf
    obtain ⟨j1, s1, h1, h2, h3⟩ := enter_try h
    rw [stm]
    rcases both_none hv with hx | ⟨x, hx, hyz⟩
    · exact seq_err (scoped_err (k := fun j => stms j b) h1 (stms_err b h2 hd.1.1 hf.1.1 hx))
    · obtain ⟨j2, m, h4, h5⟩ := stms_ok b h2 hd.1.1 hx
      obtain ⟨j3, h6, h7, h8⟩ := scoped_ok (k := fun j => stms j b) h1 h2 h3 h4 h5
      have h' := h.again h7 h8
      obtain ⟨j4, s4, g1, g2, g3⟩ := enter_catch h'
      refine seq_err2 (k := fun j => seq (seq (enterJ j false [.catch_]) fun j => seq (stms j e) leaveJ) fun j =>
        seq (enterJ j false []) fun j => seq (stms j f) leaveJ) h6 ?_
      rcases both_none hyz with hy | ⟨y, hy, hz⟩
      · exact seq_err (scoped_err (k := fun j => stms j e) g1 (stms_err e g2 hd.1.2 hf.1.2 hy))
      · obtain ⟨j5, m5, g4, g5⟩ := stms_ok e g2 hd.1.2 hy
        obtain ⟨j6, g6, g7, g8⟩ := scoped_ok (k := fun j => stms j e) g1 g2 g3 g4 g5
        have h'' := h'.again g7 g8
        obtain ⟨j7, s7, k1, k2, k3⟩ := enter_plain h''
        exact seq_err2 (k := fun j => seq (enterJ j false []) fun j => seq (stms j f) leaveJ) g6
          (scoped_err (k := fun j => stms j f) k1 (stms_err f k2 hd.2 hf.2 hz))
  | .label l n b, h, hd, hf, hv => by
    rw [valid] at hv; rw [tidy] at hd; rw [fair, Bool.and_eq_true] at hf
    have hn : c.lookup l = none := by simpa using hf.1
    rw [hn] at hv
    simp only at hv
    obtain ⟨j1, h1, h2, h3⟩ := setLabel_ok h l n (iter b) hn
    exact seq_err2 (k := fun j => seq (stm j b) clearLabels) h1 (seq_err (stm_err b h3 hd hf.2 hv))
  | .brk none, h, _, hf, hv => by
    rw [valid] at hv; rw [fair] at hf
    split at hv
    · cases hv
    · rename_i hb
      simp only [stm, brkStmt, h.chain]
      rw [if_pos]
      rw [kinds_nor]
      intro hk
      rcases h.brk2 hk with h1 | h1
      · exact hb h1
      · rw [h1] at hf; simp at hf; exact hb hf
  | .brk (some l), h, _, _, hv => by
    rw [valid] at hv
    have := h.lab l
    cases hl : c.lookup l with
    | some p => rw [hl] at hv; cases hv
    | none =>
      rw [hl] at this
      simp only [stm, brkStmt, h.chain, this, Option.map_none]
  | .cont none, h, _, _, hv => by
    rw [valid] at hv
    cases hl : c.loops with
    | cons n ns => rw [hl] at hv; cases hv
    | nil =>
      have : ¬ (s.kind .loopDirect = true ∨ s.kind .loopIndirect = true) := by rw [h.loop, hl]; simp
      simp only [stm, contStmt, h.chain]
      rw [if_pos]
      cases h1 : s.kind .loopDirect <;> cases h2 : s.kind .loopIndirect <;> simp [h1, h2] at this ⊢
  | .cont (some l), h, _, hf, hv => by
    rw [valid] at hv; rw [fair] at hf
    have := h.lab l
    cases hl : c.lookup l with
    | some p =>
      obtain ⟨n, i⟩ := p
      rw [hl] at hv hf
      cases i with
      | true => cases hv
      | false => cases hf
    | none =>
      rw [hl] at this
      simp only [stm, contStmt, h.chain, this, Option.map_none]
  | .fn b, h, hd, hf, hv => by
    rw [valid] at hv; rw [tidy] at hd; rw [fair] at hf
    obtain ⟨j1, s1, h1, h2, h3⟩ := enter_fn h.chain { fn := true } st [] (by simp) rfl rfl rfl (.inl rfl)
    exact scoped_err (k := fun j => stms j b) h1 (stms_err b h2 hd hf hv)
  | .cls ms, h, hd, hf, hv => by
    rw [valid] at hv; rw [tidy] at hd; rw [fair] at hf
    obtain ⟨j1, s1, h1, h2, h3⟩ := enter_fn h.chain {} true [.strict, .cls] (by simp) rfl rfl rfl (.inr rfl)
    exact scoped_err (k := fun j => members j ms) h1 (members_err ms h2 hd hf hv)

theorem stms_err {j s up c t st} : ∀ (x : Stmts) (_ : InvL j s up c t st) (_ : tidys x = true)
    (_ : fairs c t st x = true), valids c x = none → stms j x = .error .err
  | .nil, _, _, _, hv => by rw [valids] at hv; cases hv
  | .cons a r, h, hd, hf, hv => by
    rw [valids] at hv; rw [tidys, Bool.and_eq_true] at hd; rw [fairs, Bool.and_eq_true] at hf
    rcases both_none hv with hx | ⟨x, hx, hy⟩
    · exact seq_err (k := fun j => stms j r) (stm_err a h.inv hd.1 hf.1 hx)
    · obtain ⟨j1, m1, h1, h2⟩ := stm_ok a h.inv hd.1 hx
      exact seq_err2 (k := fun j => stms j r) h1 (stms_err r (h2.invL h) hd.2 hf.2 hy)

theorem clauses_err {j s up c t st} : ∀ (x : Clauses) (met : Bool) (_ : InvL j s up c t st)
    (_ : tidyc x = true) (_ : fairc c t st x = true) (_ : (if met then 1 else 0) + defaults x ≤ 1),
    validc c x = none → clauses j met x = .error .err
  | .nil, _, _, _, _, _, hv => by rw [validc] at hv; cases hv
  | .cons d b r, met, h, hd, hf, hm, hv => by
    rw [validc] at hv; rw [tidyc, Bool.and_eq_true] at hd; rw [fairc, Bool.and_eq_true] at hf
    rw [clauses]
    split
    · rfl
    · rcases both_none hv with hx | ⟨x, hx, hy⟩
      · exact seq_err (k := fun j => clauses j d r) (stms_err b h hd.1 hf.1 hx)
      · obtain ⟨j1, m1, h1, h2⟩ := stms_ok b h hd.1 hx
        exact seq_err2 (k := fun j => clauses j d r) h1 (clauses_err r d (h2.invL h) hd.2 hf.2
          (by rw [defaults] at hm; cases met <;> cases d <;> simp at hm ⊢ <;> omega) hy)

theorem members_err {j s up} : ∀ (x : Members) (_ : InvL j s up {} false true)
    (_ : tidym x = true) (_ : fairm x = true), validm x = none → members j x = .error .err
  | .nil, _, _, _, hv => by rw [validm] at hv; cases hv
  | .static b r, h, hd, hf, hv => by
    rw [validm] at hv; rw [tidym, Bool.and_eq_true] at hd; rw [fairm, Bool.and_eq_true] at hf
    obtain ⟨j1, s1, h1, h2, h3⟩ := enter_plain h.inv
    rcases both_none hv with hx | ⟨x, hx, hy⟩
    · exact seq_err (k := fun j => members j r) (scoped_err (k := fun j => stms j b) h1 (stms_err b h2 hd.1 hf.1 hx))
    · obtain ⟨j2, m, h4, h5⟩ := stms_ok b h2 hd.1 hx
      obtain ⟨j3, h6, h7, h8⟩ := scoped_ok (k := fun j => stms j b) h1 h2 h3 h4 h5
      have hp : Post false j s up j3 s.labels := post_same h7 h8 _
      exact seq_err2 (k := fun j => members j r) h6 (members_err r (hp.invL h) hd.2 hf.2 hy)
  | .method b r, h, hd, hf, hv => by
    rw [validm] at hv; rw [tidym, Bool.and_eq_true] at hd; rw [fairm, Bool.and_eq_true] at hf
    obtain ⟨j1, s1, h1, h2, h3⟩ := enter_fn h.chain { fn := true } true [] (by simp) rfl rfl rfl (.inl rfl)
    rcases both_none hv with hx | ⟨x, hx, hy⟩
    · exact seq_err (k := fun j => members j r) (scoped_err (k := fun j => stms j b) h1 (stms_err b h2 hd.1 hf.1 hx))
    · obtain ⟨j2, m, h4, h5⟩ := stms_ok b h2 hd.1 hx
      obtain ⟨j3, h6, h7, h8⟩ := scoped_ok (k := fun j => stms j b) h1 h2 h3 h4 h5
      have hp : Post false j s up j3 s.labels := post_same h7 h8 _
      exact seq_err2 (k := fun j => members j r) h6 (members_err r (hp.invL h) hd.2 hf.2 hy)
end

/-- The parser before the first statement of a program. -/
def JS.new : JS := { tab := Tab.new, loops := [] }

theorem invL_new : ∃ s up, InvL JS.new s up {} false false := by
  refine ⟨_, _, ⟨⟨rfl, ⟨[], rfl⟩, ?_, ?_, ?_, ?_, ?_, ?_, ?_, ?_⟩, ?_⟩⟩ <;> simp [Ctx.lookup, getLabel]

/-- **C24, completeness** (partial: no `if … else` has a bare label in its first branch, see
`else_label_violated`).  A program in which every jump has a target is accepted, however its loops,
switches, labels and functions nest, and each jump is recorded with its target: a labelled one with the labelled statement,
an unlabelled `continue` with the innermost loop. -/
theorem jumps_accepted_partial (p : Stmts) (hd : tidys p = true) (ts : List Tgt) (hv : valids {} p = some ts) :
    ∃ j, stms JS.new p = .ok (j, ts) := by
  obtain ⟨s, up, h⟩ := invL_new
  obtain ⟨j, _, h1, _⟩ := stms_ok p h hd hv
  exact ⟨j, h1⟩

/-- **C24, exactness** (partial: without the four things the parser lets pass; each is shown to violate the
property below).  A program is accepted exactly if every jump has a target, with these targets; otherwise
an error is reported. -/
theorem jumps_iff_partial (p : Stmts) (hd : tidys p = true) (hf : fairs {} false false p = true) :
    (∀ ts, valids {} p = some ts ↔ ∃ j, stms JS.new p = .ok (j, ts)) ∧
    (valids {} p = none ↔ stms JS.new p = .error .err) := by
  obtain ⟨s, up, h⟩ := invL_new
  cases hv : valids {} p with
  | none =>
    have := stms_err p h hd hf hv
    exact ⟨fun ts => ⟨nofun, fun ⟨j, hj⟩ => by rw [this] at hj; cases hj⟩, ⟨fun _ => this, fun _ => rfl⟩⟩
  | some us =>
    obtain ⟨j, _, h1, _⟩ := stms_ok p h hd hv
    refine ⟨fun ts => ⟨fun he => ?_, fun ⟨j', hj⟩ => ?_⟩, ⟨nofun, fun he => ?_⟩⟩
    · cases he; exact ⟨j, h1⟩
    · rw [h1] at hj; cases hj; rfl
    · rw [h1] at he; cases he

/-! A program that is tidy and fair, with its targets:
`a: while (1) { b: for (;;) { switch (x) { case 1: continue a; default: break } break b } }`. -/
example :
    let p := Stmts.cons (.label 0 10 (.loop 11 (.block (.cons (.label 1 12 (.loop 13 (.block
      (.cons (.switch_ (.cons false (.cons (.cont (some 0)) .nil) (.cons true (.cons (.brk none) .nil) .nil)))
        (.cons (.brk (some 1)) .nil))))) .nil)))) .nil
    tidys p = true ∧ fairs {} false false p = true ∧
      valids {} p = some [.cont 10, .brk none, .brk (some 12)] := ⟨rfl, rfl, rfl⟩
/-! And one with a jump out of a function: `while (1) { function f() { break } }`. -/
example :
    let p := Stmts.cons (.loop 11 (.block (.cons (.fn (.cons (.brk none) .nil)) .nil))) .nil
    tidys p = true ∧ fairs {} false false p = true ∧ valids {} p = none := ⟨rfl, rfl, rfl⟩

/-- **C24 is violated**: `try { { break } } finally { }` is accepted outside any loop. -/
theorem try_break_violated :
    let p := Stmts.cons (.try_ (.cons (.block (.cons (.brk none) .nil)) .nil) .nil .nil) .nil
    valids {} p = none ∧ ∃ j, stms JS.new p = .ok (j, [.brk none]) := ⟨rfl, _, rfl⟩

/-- **C24 is violated**: `a: { continue a }` is accepted. -/
theorem continue_block_violated :
    let p := Stmts.cons (.label 0 10 (.block (.cons (.cont (some 0)) .nil))) .nil
    valids {} p = none ∧ ∃ j, stms JS.new p = .ok (j, [.cont 10]) := ⟨rfl, _, rfl⟩

/-- **C24 is violated**: `a: if (x) b: y; else break a;` is rejected. -/
theorem else_label_violated :
    let p := Stmts.cons (.label 0 10 (.if2 (.label 1 11 .expr) (.brk (some 0)))) .nil
    valids {} p = some [.brk (some 10)] ∧ stms JS.new p = .error .err := ⟨rfl, rfl⟩

/-- **C24 is violated**: `a: { b: x; a: y }` is accepted although the label is given twice; and a
`break a` in the inner one would go to the inner one. -/
theorem label_twice_violated :
    let p := Stmts.cons (.label 0 10 (.block (.cons (.label 1 11 .expr) (.cons (.label 0 12 .expr) .nil)))) .nil
    valids {} p = none ∧ ∃ j, stms JS.new p = .ok (j, []) := ⟨rfl, _, rfl⟩

/-- **C58** is violated: `function f() { class A { static { return } } }` is accepted.  (Where there is no function around, the code panics:
`static_panic_violated` of C77.) -/
theorem static_return_violated :
    let p := Stmts.cons (.fn (.cons (.cls (.static (.cons .ret .nil) .nil)) .nil)) .nil
    valids {} p = none ∧ ∃ j, stms JS.new p = .ok (j, []) := ⟨rfl, _, rfl⟩

/-! ## C27 -/

/-- **C27 is violated**: `switch (x) { default: case 1: default: }` is accepted. -/
theorem two_defaults_violated :
    let cs := Clauses.cons true .nil (.cons false .nil (.cons true .nil .nil))
    defaults cs = 2 ∧ ∃ j, stm JS.new (.switch_ cs) = .ok (j, []) := ⟨rfl, _, rfl⟩

/-- No two clauses next to each other are both `default`. -/
def apart : Clauses → Prop
  | .nil => True
  | .cons _ _ .nil => True
  | .cons d _ (.cons e b r) => ¬ (d = true ∧ e = true) ∧ apart (.cons e b r)

theorem seq_ok_inv {r : Res} {k : JS → Res} {j ts} (h : seq r k = .ok (j, ts)) :
    ∃ j1 t1 t2, r = .ok (j1, t1) ∧ k j1 = .ok (j, t2) ∧ ts = t1 ++ t2 := by
  unfold seq at h
  split at h
  · cases h
  · rename_i j1 t1
    split at h
    · cases h
    · rename_i heq
      cases h
      exact ⟨_, _, _, rfl, heq, rfl⟩

theorem clauses_apart : ∀ (cs : Clauses) (j : JS) (met : Bool) {j' ts},
    clauses j met cs = .ok (j', ts) → apart cs ∧ ∀ d b r, cs = .cons d b r → ¬ (met = true ∧ d = true)
  | .nil, _, _, _, _, _ => ⟨trivial, nofun⟩
  | .cons d b r, j, met, j', ts, h => by
    rw [clauses] at h
    split at h
    · cases h
    · rename_i hm
      obtain ⟨j1, t1, t2, _, h2, _⟩ := seq_ok_inv h
      obtain ⟨h3, h4⟩ := clauses_apart r j1 d h2
      refine ⟨?_, fun d' b' r' he => ?_⟩
      · cases r with
        | nil => trivial
        | cons e b' r' => exact ⟨h4 e b' r' rfl, h3⟩
      · cases he
        simpa [and_comm] using hm

/-- **C27** (partial: of clauses next to each other; the full claim, `defaults cs ≤ 1`, is violated by
`two_defaults_violated`).  A switch that is accepted has no two `default` clauses in a row. -/
theorem switch_default_partial (cs : Clauses) (j j' : JS) (ts : List Tgt)
    (h : stm j (.switch_ cs) = .ok (j', ts)) : apart cs := by
  rw [stm] at h
  obtain ⟨j1, _, _, _, h2, _⟩ := seq_ok_inv h
  obtain ⟨j2, _, _, h3, _, _⟩ := seq_ok_inv h2
  exact (clauses_apart cs j1 false h3).1

/-- **C27, the other half.** At most one `default` is never a reason to reject: the rest being
valid, the switch is accepted. -/
theorem switch_one_default (cs : Clauses) (hd : tidyc cs = true) (h1 : defaults cs ≤ 1) (ts : List Tgt)
    (hv : validc { brk := true } cs = some ts) : ∃ j, stm JS.new (.switch_ cs) = .ok (j, ts) := by
  have : valids {} (.cons (.switch_ cs) .nil) = some (ts ++ []) := by
    rw [valids, valid, if_pos h1, hv]; rfl
  obtain ⟨j, hj⟩ := jumps_accepted_partial (.cons (.switch_ cs) .nil) (by rw [tidys, tidy, hd]; rfl) _ this
  rw [stms] at hj
  obtain ⟨j1, t1, t2, h2, h3, h4⟩ := seq_ok_inv hj
  cases h3
  rw [List.append_nil, List.append_nil] at h4
  exact ⟨_, by rw [h2, h4]⟩

/-- With `default` between two cases. -/
example : let cs := Clauses.cons false .nil (.cons true (.cons (.brk none) .nil) (.cons false .nil .nil))
    tidyc cs = true ∧ defaults cs = 1 ∧ validc { brk := true } cs = some [.brk none] := ⟨rfl, rfl, rfl⟩

/-! ## No panic -/

/-- A statement reports an error, or leaves the open scopes (but for the labels) and loops as they were. -/
def Tame (j : JS) (s : Scope) (up : List Scope) (r : Res) : Prop :=
  r = .error .err ∨ ∃ j' m ts, r = .ok (j', ts) ∧ j'.loops = j.loops ∧ j'.tab.chain = { s with labels := m } :: up

/-- In a loop, by the flags, there is a loop on the stack. -/
structure Safe (j : JS) (s : Scope) (up : List Scope) : Prop where
  chain : j.tab.chain = s :: up
  loop : s.kind .loopDirect = true ∨ s.kind .loopIndirect = true → j.loops ≠ []

theorem Safe.next {j s up j'} (h : Safe j s up) {m} (hl : j'.loops = j.loops)
    (hc : j'.tab.chain = { s with labels := m } :: up) : Safe j' { s with labels := m } up :=
  ⟨hc, by rw [hl]; exact h.loop⟩

theorem tame_seq {j s up r} {k : JS → Res} (h : Safe j s up) (hr : Tame j s up r)
    (hk : ∀ j' m, Safe j' { s with labels := m } up → Tame j' { s with labels := m } up (k j')) :
    Tame j s up (seq r k) := by
  rcases hr with rfl | ⟨j', m, ts, rfl, hl, hc⟩
  · exact .inl rfl
  · rcases hk j' m (h.next hl hc) with he | ⟨j2, m2, us, he, hl2, hc2⟩
    · exact .inl (seq_err2 rfl he)
    · exact .inr ⟨j2, m2, _, seq_both rfl he, hl2.trans hl, hc2⟩

theorem tame_scope {j s up} (h : Safe j s up) (fn : Bool) (extra : List Flag) (ns : List Nat) (j0 : JS)
    (h0 : j0.tab = j.tab) (hl0 : j0.loops = ns ++ j.loops)
    (he : .loopIndirect ∉ extra) (hn : .loopDirect ∈ extra → ns ≠ []) (k : JS → Res) (fin : JS → Res)
    (hk : ∀ j1 s1, Safe j1 s1 (s :: up) → Tame j1 s1 (s :: up) (k j1))
    (hfin : ∀ j1, j1.loops = ns ++ j.loops → fin j1 = .ok ({ j1 with loops := j.loops }, [])) :
    Tame j s up (seq (enterJ j0 fn extra) fun j => seq (k j) fun j => seq (leaveJ j) fin) := by
  obtain ⟨j1, s1, h1, h2, h3, h4, h5⟩ := enterJ_ok j0 fn extra s up (by rw [h0]; exact h.chain)
  have hs : Safe j1 s1 (s :: up) := by
    refine ⟨h2, ?_⟩
    rw [h4, h4, h3, hl0]
    intro hk
    have : .loopDirect ∈ extra ∨ s.kind .loopDirect = true ∨ s.kind .loopIndirect = true := by
      simp [inherit, he] at hk
      rcases hk with hk | hk
      · exact .inl hk
      · exact .inr hk.2
    rcases this with h' | h'
    · intro hnil; exact hn h' (List.append_eq_nil_iff.1 hnil).1
    · intro hnil; exact h.loop h' (List.append_eq_nil_iff.1 hnil).2
  rcases hk j1 s1 hs with hr | ⟨j2, m, ts, hr, hl, hc⟩
  · exact .inl (seq_err2 (k := fun j => seq (k j) fun j => seq (leaveJ j) fin) h1 (seq_err hr))
  · obtain ⟨j3, g1, g2, g3⟩ := leaveJ_ok j2 _ s up hc
    have hf := hfin j3 (by rw [g3, hl, h3, hl0])
    refine .inr ⟨{ j3 with loops := j.loops }, s.labels, [] ++ (ts ++ ([] ++ [])), ?_, rfl, g2⟩
    exact seq_both (k := fun j => seq (k j) fun j => seq (leaveJ j) fin) h1
      (seq_both (k := fun j => seq (leaveJ j) fin) hr (seq_both g1 hf))

theorem tame_block {j s up} (h : Safe j s up) (fn : Bool) (extra : List Flag)
    (he : .loopIndirect ∉ extra) (hn : .loopDirect ∉ extra) (k : JS → Res)
    (hk : ∀ j1 s1, Safe j1 s1 (s :: up) → Tame j1 s1 (s :: up) (k j1)) :
    Tame j s up (seq (enterJ j fn extra) fun j => seq (k j) leaveJ) := by
  obtain ⟨j1, s1, h1, h2, h3, h4, h5⟩ := enterJ_ok j fn extra s up h.chain
  have hs : Safe j1 s1 (s :: up) := by
    refine ⟨h2, ?_⟩
    rw [h4, h4, h3]
    intro hk
    simp [inherit, he, hn] at hk
    exact h.loop hk.2
  rcases hk j1 s1 hs with hr | ⟨j2, m, ts, hr, hl, hc⟩
  · exact .inl (scoped_err h1 hr)
  · obtain ⟨j3, g1, g2, g3⟩ := leaveJ_ok j2 _ s up hc
    refine .inr ⟨j3, s.labels, _, seq_both (k := fun j => seq (k j) leaveJ) h1 (seq_both hr g1), ?_, g2⟩
    rw [g3, hl, h3]

theorem tame_same {j s up} (h : Safe j s up) (ts) : Tame j s up (.ok (j, ts)) :=
  .inr ⟨j, s.labels, ts, rfl, rfl, h.chain⟩

mutual
theorem stm_tame {j s up} : ∀ (x : Stmt), Safe j s up → Tame j s up (stm j x)
  | .expr, h => tame_same h _
  | .ret, h => by
    rw [stm, retStmt, h.chain]
    simp only
    split
    · exact .inl rfl
    · exact tame_same h _
  | .block b, h => by
    rw [stm]
    exact tame_block h false [] (by simp) (by simp) (fun j => stms j b) fun j1 s1 hs => stms_tame b hs
  | .if1 a, h => by rw [stm]; exact stm_tame a h
  | .if2 a b, h => by
    rw [stm]
    exact tame_seq h (stm_tame a h) fun j' m hs => stm_tame b hs
  | .loop n b, h => by
    rw [stm]
    refine tame_scope h false [.loopDirect] [n] (pushLoop j n) rfl rfl (by simp) (by simp) (fun j => stm j b) popLoop
      (fun j1 s1 hs => stm_tame b hs) ?_
    intro j1 hl
    simp only [popLoop, hl, List.singleton_append]
  | .with_ b, h => by rw [stm]; exact stm_tame b h
  | .switch_ cs, h => by
    rw [stm]
    exact tame_block h false [.switch] (by simp) (by simp) (fun j => clauses j false cs)
      fun j1 s1 hs => clauses_tame cs false hs
  | .try_ b e f, h => by
    rw [stm]
    refine tame_seq h (tame_block h false [.try_] (by simp) (by simp) (fun j => stms j b)
      fun j1 s1 hs => stms_tame b hs) fun j' m hs => ?_
    refine tame_seq hs (tame_block hs false [.catch_] (by simp) (by simp) (fun j => stms j e)
      fun j1 s1 hs => stms_tame e hs) fun j' m hs => ?_
    exact tame_block hs false [] (by simp) (by simp) (fun j => stms j f) fun j1 s1 hs => stms_tame f hs
  | .label l n b, h => by
    rw [stm]
    refine tame_seq h ?_ fun j' m hs => tame_seq hs (stm_tame b hs) fun j2 m2 h2 => ?_
    · simp only [setLabel, h.chain]
      split
      · exact .inl rfl
      · exact .inr ⟨_, put s.labels l n, _, rfl, rfl, rfl⟩
    · simp only [clearLabels, h2.chain]
      exact .inr ⟨_, fun _ => none, _, rfl, rfl, rfl⟩
  | .brk none, h => by
    simp only [stm, brkStmt, h.chain]
    split
    · exact .inl rfl
    · exact tame_same h _
  | .brk (some l), h => by
    simp only [stm, brkStmt]
    split
    · exact .inl rfl
    · exact tame_same h _
  | .cont none, h => by
    simp only [stm, contStmt, h.chain]
    split
    · exact .inl rfl
    · rename_i hk
      have : s.kind .loopDirect = true ∨ s.kind .loopIndirect = true := by
        cases h1 : s.kind .loopDirect <;> cases h2 : s.kind .loopIndirect <;> simp [h1, h2] at hk ⊢
      cases hl : j.loops with
      | nil => exact absurd hl (h.loop this)
      | cons n ns => exact tame_same h _
  | .cont (some l), h => by
    simp only [stm, contStmt]
    split
    · exact .inl rfl
    · exact tame_same h _
  | .fn b, h => by
    rw [stm]
    exact tame_block h true [] (by simp) (by simp) (fun j => stms j b) fun j1 s1 hs => stms_tame b hs
  | .cls ms, h => by
    rw [stm]
    exact tame_block h true [.strict, .cls] (by simp) (by simp) (fun j => members j ms)
      fun j1 s1 hs => members_tame ms hs

theorem stms_tame {j s up} : ∀ (x : Stmts), Safe j s up → Tame j s up (stms j x)
  | .nil, h => tame_same h _
  | .cons a r, h => by
    rw [stms]
    exact tame_seq h (stm_tame a h) fun j' m hs => stms_tame r hs

theorem clauses_tame {j s up} : ∀ (x : Clauses) (met : Bool), Safe j s up → Tame j s up (clauses j met x)
  | .nil, _, h => tame_same h _
  | .cons d b r, met, h => by
    rw [clauses]
    split
    · exact .inl rfl
    · exact tame_seq h (stms_tame b h) fun j' m hs => clauses_tame r d hs

theorem members_tame {j s up} : ∀ (x : Members), Safe j s up → Tame j s up (members j x)
  | .nil, h => tame_same h _
  | .static b r, h => by
    rw [members]
    exact tame_seq h (tame_block h false [] (by simp) (by simp) (fun j => stms j b)
      fun j1 s1 hs => stms_tame b hs) fun j' m hs => members_tame r hs
  | .method b r, h => by
    rw [members]
    exact tame_seq h (tame_block h true [] (by simp) (by simp) (fun j => stms j b)
      fun j1 s1 hs => stms_tame b hs) fun j' m hs => members_tame r hs
end

/-- **C24, C23.** Whatever the program, reading it ends in a tree or an error: no stack of scopes or loops is
ever popped or read when empty, and at the end both are as at the start. -/
theorem jumps_no_panic (p : Stmts) :
    stms JS.new p = .error .err ∨
    ∃ j ts, stms JS.new p = .ok (j, ts) ∧ j.loops = [] ∧ j.tab.chain.length = 1 := by
  have h : ∃ s up, Safe JS.new s up ∧ up = [] :=
    ⟨_, _, ⟨rfl, by simp⟩, rfl⟩
  obtain ⟨s, up, hs, rfl⟩ := h
  rcases stms_tame p hs with h | ⟨j, m, ts, h1, h2, h3⟩
  · exact .inl h
  · exact .inr ⟨j, ts, h1, h2, by rw [h3]; rfl⟩

end Mole.Parser.Sym
