import Verif.Parser.RngSpec

/-! # Rules for the ranges of nodes -/

namespace Mole.Parser.Rng

open Prog (K Kw Cw Pu isTplHead)

/-- If the function returns, then this holds. -/
def WP {α : Type} (e : Env) (m : M α) (Q : α → S → Prop) (s : S) : Prop := ∀ a s', m e s = some (a, s') → Q a s'

variable {e : Env} {α β : Type} {i a c : Nat}

theorem wp_bind {m : M α} {f : α → M β} {Q : β → S → Prop} {s : S} (h : WP e m (fun x s' => WP e (f x) Q s') s) :
    WP e (m >>= f) Q s := by
  intro b s' hb
  change (match m e s with | some (a, s') => f a e s' | none => none) = some (b, s') at hb
  split at hb
  · rename_i x s1 hx
    exact h x s1 hx b s' hb
  · cases hb

theorem wp_pure {x : α} {Q : α → S → Prop} {s : S} (h : Q x s) : WP e (pure x) Q s := by
  intro b s' hb
  cases hb
  exact h

theorem wp_fail {Q : α → S → Prop} {s : S} : WP e (fail : M α) Q s := by
  intro b s' hb
  cases hb

theorem wp_call {m : M α} {P Q : α → S → Prop} {s : S} (h : WP e m P s) (hq : ∀ x j a c, P x ⟨j, a, c⟩ → Q x ⟨j, a, c⟩) :
    WP e m Q s := fun x s' hx => hq x s'.i s'.ahead s'.c (h x s' hx)

theorem wp_ite {p : Prop} [Decidable p] {x y : M α} {Q : α → S → Prop} {s : S} (h1 : p → WP e x Q s) (h2 : ¬p → WP e y Q s) :
    WP e (if p then x else y) Q s := by
  split
  · exact h1 ‹_›
  · exact h2 ‹_›

theorem wp_req {b : Bool} {Q : Unit → S → Prop} {s : S} (h : b = true → Q () s) : WP e (req b) Q s := by
  intro x s' hx
  unfold req at hx
  split at hx
  · cases hx; exact h ‹_›
  · cases hx

theorem wp_ask {Q : Bool → S → Prop} (h : ∀ b c, Q b ⟨i, a, c⟩) : WP e ask Q ⟨i, a, c⟩ := by
  intro x s' hx
  cases hx
  exact h _ _

theorem wp_chk {Q : Unit → S → Prop} (h : ∀ c, Q () ⟨i, a, c⟩) : WP e chk Q ⟨i, a, c⟩ := by
  intro x s' hx
  unfold chk at hx
  split at hx
  · cases hx; exact h _
  · cases hx

theorem wp_peekT {Q : T → S → Prop} (h : ∀ a, 0 < a → Q (tokAt e.t i) ⟨i, a, c⟩) : WP e peekT Q ⟨i, a, c⟩ := by
  intro x s' hx
  cases hx
  exact h _ (by change 0 < max a 1; omega)

theorem wp_peek {Q : K → S → Prop} (h : ∀ a, 0 < a → Q (tokAt e.t i).k ⟨i, a, c⟩) : WP e peek Q ⟨i, a, c⟩ := by
  intro x s' hx
  cases hx
  exact h _ (by change 0 < max a 1; omega)

theorem wp_grow {Q : T → S → Prop} (h : ∀ x a, 0 < a → Q x ⟨i, a, c⟩) : WP e grow Q ⟨i, a, c⟩ := by
  intro x s' hx
  cases hx
  exact h _ _ (Nat.succ_pos _)

theorem wp_peek2 {Q : T → S → Prop} (h : ∀ a, 0 < a → Q (tokAt e.t (i + 1)) ⟨i, a, c⟩) : WP e peek2 Q ⟨i, a, c⟩ := by
  intro x s' hx
  cases hx
  exact h _ (by change 0 < max a 2; omega)

theorem lt_of_tok {t : List T} {i : Nat} (h : (tokAt t i).k ≠ .eof) : i < t.length := by
  apply Decidable.byContradiction
  intro hn
  apply h
  unfold tokAt
  rw [List.getD_eq_getElem?_getD, List.getElem?_eq_none (by omega)]
  rfl

theorem wp_next {Q : Unit → S → Prop} (h : i < e.t.length → Q () ⟨i + 1, a - 1, c⟩) : WP e next Q ⟨i, a, c⟩ := by
  intro x s' hx
  unfold next at hx
  split at hx
  · cases hx
  · cases hx; exact h (lt_of_tok ‹_›)

theorem wp_take {Q : T → S → Prop} (h : i < e.t.length → Q (tokAt e.t i) ⟨i + 1, a - 1, c⟩) : WP e take Q ⟨i, a, c⟩ := by
  intro x s' hx
  unfold take at hx
  split at hx
  · cases hx
  · cases hx; exact h (lt_of_tok ‹_›)

theorem wp_must {k : K} {Q : Nat → S → Prop} (h : (tokAt e.t i).k = k → i < e.t.length → Q (tokAt e.t i).lo ⟨i + 1, a - 1, c⟩) :
    WP e (must k) Q ⟨i, a, c⟩ := by
  intro x s' hx
  unfold must at hx
  split at hx
  · rename_i hk
    cases hx
    exact h hk.1 (lt_of_tok (by rw [hk.1]; exact hk.2))
  · cases hx

theorem wp_rng {Q : Nat → S → Prop} (ha : 0 < a) (h : Q (tokAt e.t i).lo ⟨i, a, c⟩) : WP e rng Q ⟨i, a, c⟩ := by
  intro x s' hx
  unfold rng at hx
  cases hx
  rw [if_neg (by change ¬ a = 0; omega)]
  exact h

theorem wp_rng' {Q : Nat → S → Prop} (hi : 0 < i) (h1 : 0 < a → Q (tokAt e.t i).lo ⟨i, a, c⟩) (h2 : a = 0 → Q (tokAt e.t (i - 1)).hi ⟨i, a, c⟩) : WP e rng Q ⟨i, a, c⟩ := by
  intro x s' hx
  unfold rng at hx
  cases hx
  by_cases h : a = 0
  · rw [if_pos h]
    unfold prev
    rw [if_neg (by change ¬ i = 0; omega)]
    exact h2 h
  · rw [if_neg h]
    exact h1 (by omega)

theorem wp_fin {Q : Nat → S → Prop} (hi : 0 < i) (h : Q (tokAt e.t (i - 1)).hi ⟨i, a, c⟩) : WP e fin Q ⟨i, a, c⟩ := by
  intro x s' hx
  unfold fin at hx
  cases hx
  unfold prev
  rw [if_neg (by change ¬ i = 0; omega)]
  exact h

theorem wp_mk {k : Kd} {lo : Nat} {kids : List Nd} {Q : Nd → S → Prop} (hi : 0 < i)
    (h : Q (.node k lo (tokAt e.t (i - 1)).hi kids) ⟨i, a, c⟩) : WP e (mk k lo kids) Q ⟨i, a, c⟩ := by
  unfold mk
  refine wp_bind (wp_fin hi (wp_pure h))

/-! ## What the functions return -/

/-- A node from `i` to where the parser is. -/
def PN (e : Env) (i : Nat) (n : Nd) (s : S) : Prop := i < s.i ∧ s.i ≤ e.t.length ∧ Loc e.t n i s.i

/-- Nodes from `i` on, before where the parser is. -/
def PL (e : Env) (i : Nat) (l : List Nd) (s : S) : Prop := i ≤ s.i ∧ s.i ≤ e.t.length ∧ ∃ a b, b ≤ s.i ∧ Locs e.t l i a b

theorem Loc.mono {t : List T} {n : Nd} {i j : Nat} (h : Loc t n i j) : i < j ∧ j ≤ t.length := by
  refine Loc.rec (motive_1 := fun _ i j _ => i < j ∧ j ≤ t.length) (motive_2 := fun _ _ _ _ _ => True)
    (motive_3 := fun _ i j _ => i < j ∧ j ≤ t.length) ?_ ?_ ?_ ?_ ?_ ?_ ?_ ?_ ?_ ?_ ?_ h
  · intros; omega
  · intros; omega
  · intros; omega
  · intros; assumption
  · intros; omega
  · intros; omega
  · intros; trivial
  · intros; trivial
  · intros; trivial
  · intros; omega
  · intros; omega

theorem Parts.mono {t : List T} {l : List Nd} {i j : Nat} (h : Parts t l i j) : i < j ∧ j ≤ t.length := by
  induction h using Parts.rec (motive_1 := fun _ i j _ => True) (motive_2 := fun _ _ _ _ _ => True) with
  | last => omega
  | more _ _ h1 _ _ ih => have := h1.mono; omega
  | _ => trivial

theorem Locs.weaken {t : List T} {l : List Nd} {i i' a b : Nat} (h : Locs t l i a b) (hi : i' ≤ i) : Locs t l i' a b := by
  cases h with
  | nil h => exact .nil (by omega)
  | one h1 h2 => exact .one (by omega) h2
  | cons h1 h2 h3 => exact .cons (by omega) h2 h3

theorem Locs.bounds {t : List T} : ∀ {l : List Nd} {i a b : Nat}, Locs t l i a b → i ≤ b ∧ (l ≠ [] → i ≤ a ∧ a < b ∧ b ≤ t.length)
  | [], _, _, _, h => by
    cases h
    exact ⟨by omega, fun h => absurd rfl h⟩
  | [n], _, _, _, h => by
    cases h with
    | one h1 h2 => have := h2.mono; exact ⟨by omega, fun _ => by omega⟩
  | n :: n' :: l, _, _, _, h => by
    cases h with
    | cons h1 h2 h3 =>
      have := h2.mono
      have := Locs.bounds h3
      have := this.2 (by simp)
      exact ⟨by omega, fun _ => by omega⟩

/-- A node before nodes. -/
theorem Locs.push {t : List T} {n : Nd} {l : List Nd} {i x m i' a b : Nat} (hi : i ≤ x) (hn : Loc t n x m) (hm : m ≤ i')
    (h : Locs t l i' a b) : ∃ b', Locs t (n :: l) i x b' ∧ b' ≤ b ∧ (l ≠ [] → b' = b) ∧ (l = [] → b' = m) := by
  cases h with
  | nil h => exact ⟨m, .one hi hn, by omega, fun h => absurd rfl h, fun _ => rfl⟩
  | one h1 h2 => exact ⟨b, .cons hi hn (.one (by omega) h2), Nat.le_refl _, fun _ => rfl, fun h => by cases h⟩
  | cons h1 h2 h3 => exact ⟨b, .cons hi hn (.cons (by omega) h2 h3), Nat.le_refl _, fun _ => rfl, fun h => by cases h⟩

/-- Nodes after nodes. -/
theorem Locs.append {t : List T} : ∀ {l l' : List Nd} {i a b i' a' b' : Nat}, Locs t l i a b → b ≤ i' → Locs t l' i' a' b' →
    ∃ a'' b'', Locs t (l ++ l') i a'' b'' ∧ (l ≠ [] → a'' = a) ∧ (l = [] → a'' = a') ∧ (l' ≠ [] → b'' = b') ∧ (l' = [] → b'' = b)
  | [], l', i, a, b, i', a', b', h, hb, h' => by
    have := h.bounds
    cases h' with
    | nil h' => exact ⟨a', b, .nil (by omega), fun h => absurd rfl h, fun _ => rfl, fun h => absurd rfl h, fun _ => rfl⟩
    | one h1 h2 => exact ⟨a', b', .one (by omega) h2, fun h => absurd rfl h, fun _ => rfl, fun _ => rfl, fun h => by cases h⟩
    | cons h1 h2 h3 =>
      exact ⟨a', b', .cons (by omega) h2 h3, fun h => absurd rfl h, fun _ => rfl, fun _ => rfl, fun h => by cases h⟩
  | [n], l', i, a, b, i', a', b', h, hb, h' => by
    cases h with
    | one h1 h2 =>
      obtain ⟨b1, h3, h4, h5, h6⟩ := Locs.push h1 h2 hb h'
      exact ⟨a, b1, h3, fun _ => rfl, (fun h => by cases h), h5, h6⟩
  | n :: n' :: l, l', i, a, b, i', a', b', h, hb, h' => by
    cases h with
    | cons h1 h2 h3 =>
      obtain ⟨a1, b1, h4, h5, h6, h7, h8⟩ := Locs.append h3 hb h'
      have := h5 (by simp)
      exact ⟨a, b1, .cons h1 h2 h4, fun _ => rfl, (fun h => by cases h), h7, h8⟩

/-! ## Expressions as patterns -/

/-- The same place, or that of what is in parentheses. -/
def Same (t : List T) (n n' : Nd) (i j i' j' : Nat) : Prop :=
  Loc t n' i' j' ∧ i ≤ i' ∧ j' ≤ j ∧
  (i' = i ∧ j' = j ∧ n'.lo = n.lo ∨ n.lo = (tokAt t i).lo ∧ (tokAt t i).k = .pu .parenL ∧ (tokAt t (j - 1)).k = .pu .parenR)

theorem same_refl {t : List T} {n : Nd} {i j : Nat} (h : Loc t n i j) : Same t n n i j i j :=
  ⟨h, Nat.le_refl _, Nat.le_refl _, .inl ⟨rfl, rfl, rfl⟩⟩

theorem toPat_same {t : List T} : ∀ (n : Nd) (i j : Nat), Loc t n i j → ∃ i' j', Same t n (toPat n) i j i' j' := by
  intro n
  refine toPat.induct (fun n => ∀ (i j : Nat), Loc t n i j → ∃ i' j', Same t n (toPat n) i j i' j')
    (fun l => ∀ (i a b : Nat), Locs t l i a b → ∃ a' b', Locs t (toPats l) i a' b' ∧ b' ≤ b) ?_ ?_ ?_ ?_ ?_ ?_ ?_ ?_ ?_ ?_ ?_ n
  · intro lo hi kids ih i j h
    cases h with
    | leaf h => cases h
    | node h1 h2 h3 h4 h5 h6 h7 h8 =>
      obtain ⟨a', b', h9, h10⟩ := ih _ _ _ h3
      refine ⟨i, j, ?_, Nat.le_refl _, Nat.le_refl _, .inl ⟨rfl, rfl, by simp [toPat, Nd.lo]⟩⟩
      simp [lk, rk] at h6 h7 h8
      rw [toPat]
      exact .node h1 h2 h9 (by omega) h5 (.inl h6) (.inr h7) (.inr h8)
  · intro lo hi kids ih i j h
    cases h with
    | leaf h => cases h
    | node h1 h2 h3 h4 h5 h6 h7 h8 =>
      obtain ⟨a', b', h9, h10⟩ := ih _ _ _ h3
      refine ⟨i, j, ?_, Nat.le_refl _, Nat.le_refl _, .inl ⟨rfl, rfl, by simp [toPat, Nd.lo]⟩⟩
      simp [lk, rk] at h6 h7 h8
      rw [toPat]
      exact .node h1 h2 h9 (by omega) h5 (.inl h6) (.inr h7) (.inr h8)
  · intro lo hi key v ih i j h
    cases h with
    | node h1 h2 h3 h4 h5 h6 h7 h8 =>
      cases h3 with
      | cons h31 h32 h33 =>
        cases h33 with
        | one h34 h35 =>
          obtain ⟨i', j', h9, h10, h11, h12⟩ := ih _ _ h35
          have := h32.mono
          refine ⟨i, j, ?_, Nat.le_refl _, Nat.le_refl _, .inl ⟨rfl, rfl, by simp [toPat, Nd.lo]⟩⟩
          rw [toPat]
          refine .node h1 h2 (.cons h31 h32 (.one (by omega) h9)) (by omega) h5 ?_ ?_ ?_
          · rcases h6 with h6 | ⟨h6, h6', n, l, h6'', h6'''⟩
            · exact .inl h6
            · cases h6''
              exact .inr ⟨h6, h6', _, _, rfl, h6'''⟩
          · rcases h7 with ⟨h7, h7', h7''⟩ | h7
            · exact .inl ⟨h7, h7', by simp⟩
            · exact .inr h7
          · rcases h12 with ⟨h13, h14, h15⟩ | ⟨h13, h14, h15⟩
            · rcases h8 with ⟨h8, h8', h8''⟩ | h8
              · exact .inl ⟨h8, by omega, by simp⟩
              · exact .inr h8
            · rcases h8 with ⟨h8, h8', h8''⟩ | h8
              · subst h8'
                exact .inr (by simp [rt, h15])
              · exact .inr h8
  · intro lo hi key v ih i j h
    cases h with
    | node h1 h2 h3 h4 h5 h6 h7 h8 =>
      cases h3 with
      | cons h31 h32 h33 =>
        cases h33 with
        | one h34 h35 =>
          obtain ⟨i', j', h9, h10, h11, h12⟩ := ih _ _ h32
          have := h35.mono
          have := h9.mono
          have hA : Loc t (.node .assignPat lo hi [toPat key, v]) i j := by
            refine .node h1 h2 (.cons (by omega) h9 (.one (by omega) h35)) h4 h5 ?_ ?_ ?_
            · rcases h6 with h6 | ⟨h6, h6', n, l, h6'', h6'''⟩
              · exact .inl h6
              · cases h6''
                rcases h6''' with h6''' | h6'''
                · rcases h12 with ⟨h13, h14, h15⟩ | ⟨h13, h14, h15⟩
                  · exact .inr ⟨rfl, by omega, _, _, rfl, .inl (by rw [h15]; exact h6''')⟩
                  · left
                    rw [h6''', h13, h6']
                · simp at h6'''
            · rcases h7 with ⟨h7, h7', h7''⟩ | h7
              · rcases h12 with ⟨h13, h14, h15⟩ | ⟨h13, h14, h15⟩
                · exact .inl ⟨rfl, by omega, by simp⟩
                · subst h7'
                  exact .inr (by simp [lt, h14])
              · simp [lt] at h7
                exact .inr (by simp [lt, h7])
            · simp [rt] at h8
              exact .inl ⟨rfl, h8.2, by simp⟩
          refine ⟨i, j, ?_, Nat.le_refl _, Nat.le_refl _, .inl ⟨rfl, rfl, by simp [toPat, Nd.lo]⟩⟩
          rw [toPat]
          refine .node h1 h2 (.one (Nat.le_refl _) hA) (Nat.le_refl _) h5 (.inr ⟨rfl, rfl, _, _, rfl, .inl rfl⟩)
            (.inl ⟨rfl, rfl, by simp⟩) (.inl ⟨rfl, rfl, by simp⟩)
  · intro lo hi l r ih i j h
    cases h with
    | node h1 h2 h3 h4 h5 h6 h7 h8 =>
      cases h3 with
      | cons h31 h32 h33 =>
        cases h33 with
        | one h34 h35 =>
          obtain ⟨i', j', h9, h10, h11, h12⟩ := ih _ _ h32
          have := h35.mono
          have := h9.mono
          refine ⟨i, j, ?_, Nat.le_refl _, Nat.le_refl _, .inl ⟨rfl, rfl, by simp [toPat, Nd.lo]⟩⟩
          rw [toPat]
          refine .node h1 h2 (.cons (by omega) h9 (.one (by omega) h35)) h4 h5 ?_ ?_ ?_
          · rcases h6 with h6 | ⟨h6, h6', n, l, h6'', h6'''⟩
            · exact .inl h6
            · cases h6''
              rcases h6''' with h6''' | h6'''
              · rcases h12 with ⟨h13, h14, h15⟩ | ⟨h13, h14, h15⟩
                · exact .inr ⟨rfl, by omega, _, _, rfl, .inl (by rw [h15]; exact h6''')⟩
                · left
                  rw [h6''', h13, h6']
              · simp at h6'''
          · rcases h7 with ⟨h7, h7', h7''⟩ | h7
            · rcases h12 with ⟨h13, h14, h15⟩ | ⟨h13, h14, h15⟩
              · exact .inl ⟨rfl, by omega, by simp⟩
              · subst h7'
                exact .inr (by simp [lt, h14])
            · simp [lt] at h7
              exact .inr (by simp [lt, h7])
          · simp [rt] at h8
            exact .inl ⟨rfl, h8.2, by simp⟩
  · intro lo hi x ih i j h
    cases h with
    | node h1 h2 h3 h4 h5 h6 h7 h8 =>
      cases h3 with
      | one h31 h32 =>
        obtain ⟨i', j', h9, h10, h11, h12⟩ := ih _ _ h32
        have := h9.mono
        refine ⟨i, j, ?_, Nat.le_refl _, Nat.le_refl _, .inl ⟨rfl, rfl, by simp [toPat, Nd.lo]⟩⟩
        rw [toPat]
        simp [lk, rt] at h6 h7 h8
        refine .node h1 h2 (.one (by omega) h9) (by omega) h5 (.inl h6) (.inr h7) ?_
        rcases h12 with ⟨h13, h14, h15⟩ | ⟨h13, h14, h15⟩
        · exact .inl ⟨rfl, by omega, by simp⟩
        · rw [h8.2] at h15
          exact .inr (by simp [rt, h15])
  · intro lo hi lo' hi' kids i j h
    cases h with
    | node h1 h2 h3 h4 h5 h6 h7 h8 =>
      cases h3 with
      | one h31 h32 =>
        simp [lk, rk] at h6 h7 h8
        rw [toPat]
        exact ⟨_, _, h32, h31, h4, .inr ⟨h6, by simpa [lt] using h7, by simpa [rt] using h8⟩⟩
  · intro lo hi lo' hi' kids i j h
    cases h with
    | node h1 h2 h3 h4 h5 h6 h7 h8 =>
      cases h3 with
      | one h31 h32 =>
        simp [lk, rk] at h6 h7 h8
        rw [toPat]
        exact ⟨_, _, h32, h31, h4, .inr ⟨h6, by simpa [lt] using h7, by simpa [rt] using h8⟩⟩
  · intro n h1 h2 h3 h4 h5 h6 h7 h8 i j h
    rw [toPat] <;> first | assumption | exact ⟨i, j, same_refl h⟩
  · intro i a b h
    rw [toPats]
    exact ⟨a, b, h, Nat.le_refl _⟩
  · intro n l ih1 ih2 i a b h
    cases h with
    | one h1 h2 =>
      obtain ⟨i', j', h3, h4, h5, h6⟩ := ih1 _ _ h2
      rw [toPats, toPats]
      exact ⟨_, _, .one (by omega) h3, h5⟩
    | cons h1 h2 h3 =>
      obtain ⟨i', j', h4, h5, h6, h7⟩ := ih1 _ _ h2
      obtain ⟨a', b', h8, h9⟩ := ih2 _ _ _ h3
      rw [toPats]
      obtain ⟨b'', h10, h11, h12⟩ := Locs.push (show i ≤ i' by omega) h4 h6 h8
      exact ⟨_, _, h10, by omega⟩

theorem toPats_locs {t : List T} : ∀ (l : List Nd) (i a b : Nat), Locs t l i a b → ∃ a' b', Locs t (toPats l) i a' b' ∧ b' ≤ b
  | [], i, a, b, h => by
    rw [toPats]
    exact ⟨a, b, h, Nat.le_refl _⟩
  | [n], i, a, b, h => by
    cases h with
    | one h1 h2 =>
      obtain ⟨i', j', h3, h4, h5, h6⟩ := toPat_same _ _ _ h2
      rw [toPats, toPats]
      exact ⟨_, _, .one (by omega) h3, h5⟩
  | n :: n' :: l, i, a, b, h => by
    cases h with
    | cons h1 h2 h3 =>
      obtain ⟨i', j', h4, h5, h6, h7⟩ := toPat_same _ _ _ h2
      obtain ⟨a', b', h8, h9⟩ := toPats_locs _ _ _ _ h3
      rw [toPats]
      obtain ⟨b'', h10, h11, h12⟩ := Locs.push (show i ≤ i' by omega) h4 h6 h8
      exact ⟨_, _, h10, by omega⟩

end Mole.Parser.Rng
