import Verif.Parser.ProgSpec

/-! # What is left after a function of the parser: rules for proofs (for C76) -/

namespace Mole.Parser.Prog

/-- The tokens left, without the flags. -/
def S.T (s : S) : List K := s.ts.map Tok.k

/-- The next token. -/
def S.h (s : S) : K := hd s.ts

/-- The exceptions of the tokens left are allowed. -/
def Good (L : Ex → Prop) (s : S) : Prop := ∀ x, Occ s.T x → L x

/-- If it ends without an error, this holds. -/
def WP {α : Type} (m : M α) (Q : α → S → Prop) (s : S) : Prop := ∀ a s', m s = .ok a s' → Q a s'

/-- What is taken is related to the result. -/
def Spec (L : Ex → Prop) {α : Type} (m : M α) (P : α → List K → Prop) : Prop :=
  ∀ s, Good L s → WP m (fun a s' => ∃ x, s.T = x ++ s'.T ∧ P a x) s

/-- The same when this is the next token. -/
def SpecAt (L : Ex → Prop) (k : K) {α : Type} (m : M α) (P : α → List K → Prop) : Prop :=
  ∀ s, Good L s → s.h = k → WP m (fun a s' => ∃ x, s.T = x ++ s'.T ∧ P a x) s

theorem within_append {p : List K → Prop} {a b : List K} (h : Within p b) : Within p (a ++ b) := by
  obtain ⟨x, m, y, rfl, hm⟩ := h
  exact ⟨a ++ x, m, y, by simp, hm⟩

theorem within_left {p : List K → Prop} {a b : List K} (h : Within p a) : Within p (a ++ b) := by
  obtain ⟨x, m, y, rfl, hm⟩ := h
  exact ⟨x, m, y ++ b, by simp, hm⟩

theorem occ_append {a b : List K} {x : Ex} (h : Occ b x) : Occ (a ++ b) x := by
  cases x <;> exact within_append h

theorem occ_left {a b : List K} {x : Ex} (h : Occ a x) : Occ (a ++ b) x := by
  cases x <;> exact within_left h

theorem Good.after {L : Ex → Prop} {s s' : S} {x : List K} (h : Good L s) (e : s.T = x ++ s'.T) : Good L s' :=
  fun y hy => h y (by rw [e]; exact occ_append hy)

theorem h_T (s : S) : s.h = s.T.headD .eof := by
  unfold S.h S.T
  cases s.ts <;> rfl

theorem T_of_h {s : S} {k : K} (h : s.h = k) (hk : k ≠ .eof) : s.T = k :: s.T.tail := by
  rw [h_T] at h
  cases e : s.T with
  | nil => rw [e] at h; exact absurd h.symm hk
  | cons a l => rw [e] at h; simp at h; simp [h]

section
variable {L : Ex → Prop} {α β : Type} {s : S}

theorem wp_bind {m : M α} {f : α → M β} {Q : β → S → Prop} (h : WP m (fun a s1 => WP (f a) Q s1) s) : WP (m >>= f) Q s := by
  intro b s' e
  change (match m s with | .ok a s' => f a s' | .err => .err | .panic => .panic | .noRets => .noRets) = _ at e
  cases hm : m s with
  | ok a s1 => rw [hm] at e; exact h a s1 hm b s' e
  | err => rw [hm] at e; cases e
  | panic => rw [hm] at e; cases e
  | noRets => rw [hm] at e; cases e

theorem wp_pure {a : α} {Q : α → S → Prop} (h : Q a s) : WP (pure a : M α) Q s := by
  intro b s' e
  change Out.ok a s = _ at e
  cases e
  exact h

theorem wp_fail {Q : α → S → Prop} : WP (fail : M α) Q s := by
  intro b s' e
  cases e

theorem wp_ite {c : Prop} [Decidable c] {m n : M α} {Q : α → S → Prop} (h1 : c → WP m Q s) (h2 : ¬c → WP n Q s) :
    WP (if c then m else n) Q s := by
  split
  · exact h1 ‹_›
  · exact h2 ‹_›

theorem wp_peek {Q : K → S → Prop} (h : Q s.h s) : WP peek Q s := by
  intro b s' e
  cases e
  exact h

theorem wp_nl {Q : Bool → S → Prop} (h : ∀ b, Q b s) : WP nl Q s := by
  intro b s' e
  cases e
  exact h _

theorem wp_scope {Q : Ctx → S → Prop} (h : ∀ b, Q b s) : WP scope Q s := by
  intro b s' e
  cases e
  exact h _

theorem wp_scopeRef {Q : Nat → S → Prop} (h : ∀ b, Q b s) : WP scopeRef Q s := by
  intro b s' e
  cases e
  exact h _

theorem wp_left {Q : List Tok → S → Prop} (h : ∀ ts, hd ts = s.h → ts.map Tok.k = s.T → Q ts s) : WP left Q s := by
  intro b s' e
  cases e
  exact h _ rfl rfl

/-- A token that is known is taken. -/
theorem wp_next {Q : Unit → S → Prop} {k : K} (hG : Good L s) (hk : s.h = k) (hne : k ≠ .eof)
    (h : ∀ s1 : S, s.T = k :: s1.T → Good L s1 → Q () s1) : WP next Q s := by
  intro b s' e
  cases e
  have : s.T = k :: S.T { s with ts := s.ts.tail } := by
    rw [T_of_h hk hne]
    simp [S.T]
  exact h _ this (hG.after (x := [k]) this)

theorem wp_must {Q : Unit → S → Prop} {k : K} (hG : Good L s) (hne : k ≠ .eof)
    (h : ∀ s1 : S, s.T = k :: s1.T → Good L s1 → Q () s1) : WP (must k) Q s := by
  intro b s' e
  unfold must at e
  split at e
  · exact wp_next hG (k := k) ‹_› hne h b s' e
  · cases e

theorem wp_req {Q : Unit → S → Prop} {b : Bool} (h : b = true → Q () s) : WP (req b) Q s := by
  intro u s' e
  unfold req at e
  split at e
  · cases e; exact h ‹_›
  · cases e

theorem wp_chk {Q : Unit → S → Prop} {o : Chk} {n : Nat} {t : Node} (h : Q () s) : WP (chk o n t) Q s := by
  intro u s' e
  unfold chk at e
  split at e
  · cases e; exact h
  · cases e

theorem wp_opening {Q : Unit → S → Prop} (h : Q () s) : WP opening Q s := by
  intro u s' e
  unfold opening at e
  split at e
  · cases e; exact h
  · cases e

theorem wp_enter {Q : Unit → S → Prop} {f : Ctx → Ctx} (hG : Good L s)
    (h : ∀ s1 : S, s.T = s1.T → s.h = s1.h → Good L s1 → Q () s1) : WP (enter f) Q s := by
  intro u s' e
  cases e
  exact h _ rfl rfl hG

theorem wp_enterFn {Q : Unit → S → Prop} {a b c : Bool} (hG : Good L s)
    (h : ∀ s1 : S, s.T = s1.T → s.h = s1.h → Good L s1 → Q () s1) : WP (enterFn a b c) Q s := by
  intro u s' e
  cases e
  exact h _ rfl rfl hG

theorem wp_enterCls {Q : Unit → S → Prop} (hG : Good L s)
    (h : ∀ s1 : S, s.T = s1.T → s.h = s1.h → Good L s1 → Q () s1) : WP enterCls Q s := by
  intro u s' e
  cases e
  exact h _ rfl rfl hG

theorem wp_pushRet {Q : Unit → S → Prop} (h : Q () s) : WP pushRet Q s := by
  intro u s' e
  unfold pushRet at e
  split at e
  · cases e
    exact h
  · cases e

theorem wp_setKind {Q : Unit → S → Prop} {d : Nat} {f : Ctx → Ctx} (hG : Good L s)
    (h : ∀ s1 : S, s.T = s1.T → s.h = s1.h → Good L s1 → Q () s1) : WP (setKind d f) Q s := by
  intro u s' e
  cases e
  exact h _ rfl rfl hG

theorem wp_pushLoop {Q : Unit → S → Prop} (hG : Good L s)
    (h : ∀ s1 : S, s.T = s1.T → s.h = s1.h → Good L s1 → Q () s1) : WP pushLoop Q s := by
  intro u s' e
  cases e
  exact h _ rfl rfl hG

theorem wp_leave {Q : Unit → S → Prop} (hG : Good L s)
    (h : ∀ s1 : S, s.T = s1.T → s.h = s1.h → Good L s1 → Q () s1) : WP leave Q s := by
  intro u s' e
  unfold leave at e
  split at e
  · cases e
  · cases e
    exact h _ rfl rfl hG

theorem wp_popLoop {Q : Unit → S → Prop} (hG : Good L s)
    (h : ∀ s1 : S, s.T = s1.T → s.h = s1.h → Good L s1 → Q () s1) : WP popLoop Q s := by
  intro u s' e
  unfold popLoop at e
  split at e
  · cases e
  · cases e
    exact h _ rfl rfl hG

theorem wp_lastLoop {Q : Unit → S → Prop} (h : Q () s) : WP lastLoop Q s := by
  intro u s' e
  unfold lastLoop at e
  split at e
  · cases e
  · cases e
    exact h

theorem wp_semi {Q : Unit → S → Prop} {b : Bool} (hG : Good L s)
    (h : ∀ (x : List K) (s1 : S), s.T = x ++ s1.T → Semi x → Good L s1 → Q () s1) : WP (semi b) Q s := by
  intro u s' e
  unfold semi at e
  split at e
  · cases e
  · cases e
    by_cases hs : hd s.ts = .pu .semi
    · simp only [hs, if_true]
      have : s.T = [.pu .semi] ++ S.T { s with ts := s.ts.tail } := by
        rw [T_of_h (s := s) hs (by decide)]
        simp [S.T]
      exact h _ _ this (Or.inr rfl) (hG.after this)
    · simp only [hs, if_false]
      exact h [] s rfl (Or.inl rfl) hG

/-- The same, and the next token is known if there is no semicolon. -/
theorem wp_semiOr {Q : Unit → S → Prop} {b : Bool} (hG : Good L s)
    (h : ∀ (x : List K) (s1 : S), s.T = x ++ s1.T → (x = [.pu .semi] ∨ (x = [] ∧ s1.h = s.h)) → Good L s1 → Q () s1) :
    WP (semi b) Q s := by
  intro u s' e
  unfold semi at e
  split at e
  · cases e
  · cases e
    by_cases hs : hd s.ts = .pu .semi
    · simp only [hs, if_true]
      have : s.T = [.pu .semi] ++ S.T { s with ts := s.ts.tail } := by
        rw [T_of_h (s := s) hs (by decide)]
        simp [S.T]
      exact h _ _ this (Or.inl rfl) (hG.after this)
    · simp only [hs, if_false]
      exact h [] s rfl (Or.inr ⟨rfl, rfl⟩) hG

theorem wp_mono {m : M α} {P Q : α → S → Prop} (hm : WP m P s) (h : ∀ a s', P a s' → Q a s') : WP m Q s :=
  fun a s' e => h a s' (hm a s' e)

/-- A function with a specification is called. -/
theorem wp_spec {m : M α} {P : α → List K → Prop} (hm : Spec L m P) {Q : α → S → Prop} (hG : Good L s)
    (h : ∀ a x s1, s.T = x ++ s1.T → P a x → Good L s1 → Q a s1) : WP m Q s := by
  intro a s' e
  obtain ⟨x, h1, h2⟩ := hm s hG a s' e
  exact h a x s' h1 h2 (hG.after h1)

theorem wp_specAt {m : M α} {k : K} {P : α → List K → Prop} (hm : SpecAt L k m P) {Q : α → S → Prop} (hG : Good L s) (hk : s.h = k)
    (h : ∀ a x s1, s.T = x ++ s1.T → P a x → Good L s1 → Q a s1) : WP m Q s := by
  intro a s' e
  obtain ⟨x, h1, h2⟩ := hm s hG hk a s' e
  exact h a x s' h1 h2 (hG.after h1)

/-- The last call. -/
theorem wp_last {m : M α} {P P' : α → List K → Prop} {s0 : S} {y : List K} (hm : Spec L m P) (hG : Good L s) (e0 : s0.T = y ++ s.T)
    (h : ∀ a x, P a x → P' a (y ++ x)) : WP m (fun a s' => ∃ x, s0.T = x ++ s'.T ∧ P' a x) s := by
  intro a s' e
  obtain ⟨x, h1, h2⟩ := hm s hG a s' e
  exact ⟨y ++ x, by simp [e0, h1], h a x h2⟩

end

end Mole.Parser.Prog
