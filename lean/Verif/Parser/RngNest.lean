import Verif.Parser.RngProof

/-! # Nodes in nodes -/

namespace Mole.Parser.Rng

open Prog (K Pu isTplHead)

mutual
/-- There is no template with a tag and no `async * (a, b)` in the tree. -/
def plain : Nd → Bool
  | .node k _ _ kids => k ≠ .tagged && k ≠ .starSeq && plains kids

def plains : List Nd → Bool
  | [] => true
  | n :: l => plain n && plains l
end

/-- The nodes are between these places, one after the other. -/
def Ordered (lo hi : Nat) : List Nd → Prop
  | [] => lo ≤ hi
  | n :: l => lo ≤ n.lo ∧ n.lo ≤ n.hi ∧ Ordered n.hi hi l

mutual
/-- The parts of every node of the tree are inside it, one after the other. -/
def Nested : Nd → Prop
  | .node _ lo hi kids => Ordered lo hi kids ∧ NestedAll kids

def NestedAll : List Nd → Prop
  | [] => True
  | n :: l => Nested n ∧ NestedAll l
end

/-- Tokens of a source: each has a length, and they follow each other. -/
structure Src (t : List T) : Prop where
  pos : ∀ i, i < t.length → (tokAt t i).lo < (tokAt t i).hi
  txt : ∀ i, i < t.length → (tokAt t i).lo ≤ (tokAt t i).slo ∧ (tokAt t i).slo ≤ (tokAt t i).shi ∧ (tokAt t i).shi ≤ (tokAt t i).hi
  ord : ∀ i, i + 1 < t.length → (tokAt t i).hi ≤ (tokAt t (i + 1)).lo

variable {t : List T}

theorem Src.lt (hs : Src t) {i : Nat} : ∀ {j : Nat}, i < j → j < t.length → (tokAt t i).hi ≤ (tokAt t j).lo
  | 0, h, _ => absurd h (Nat.not_lt_zero _)
  | j + 1, h, hj => by
    have h1 := hs.ord j hj
    by_cases he : i = j
    · rw [he]; exact h1
    · have h2 := Src.lt hs (i := i) (j := j) (by omega) (by omega)
      have h3 := hs.pos j (by omega)
      omega

theorem Src.hi_le (hs : Src t) {i j : Nat} (h : i ≤ j) (hj : j < t.length) : (tokAt t i).hi ≤ (tokAt t j).hi := by
  by_cases he : i = j
  · rw [he]; exact Nat.le_refl _
  · have := hs.lt (show i < j by omega) hj
    have := hs.pos j hj
    omega

theorem Src.lo_le (hs : Src t) {i j : Nat} (h : i ≤ j) (hj : j < t.length) : (tokAt t i).lo ≤ (tokAt t j).lo := by
  by_cases he : i = j
  · rw [he]; exact Nat.le_refl _
  · have := hs.lt (show i < j by omega) hj
    have := hs.pos i (by omega)
    omega

theorem Src.lo_hi (hs : Src t) {i j : Nat} (h : i ≤ j) (hj : j < t.length) : (tokAt t i).lo < (tokAt t j).hi := by
  have := hs.lo_le h hj
  have := hs.pos j hj
  omega

/-- Nodes begin where their first tokens do, and their parts are inside. -/
def Good (t : List T) (n : Nd) (i j : Nat) : Prop :=
  i < j ∧ j ≤ t.length ∧ n.lo = (tokAt t i).lo ∧ n.hi = (tokAt t (j - 1)).hi ∧ (∀ y, Lft n y → y = (tokAt t i).lo) ∧ Nested n

/-- The same for lists. -/
def Goods (t : List T) (l : List Nd) (i a b : Nat) : Prop :=
  (∀ L H, (∀ x, i ≤ x → x < t.length → L ≤ (tokAt t x).lo) → (∀ x, x < b → x < t.length → (tokAt t x).hi ≤ H) → L ≤ H → Ordered L H l) ∧
  NestedAll l ∧ ∀ n l', l = n :: l' → n.lo = (tokAt t a).lo ∧ ∀ y, Lft n y → y = (tokAt t a).lo

/-- The same for the parts of a template. -/
def GoodParts (t : List T) (l : List Nd) (i j : Nat) : Prop :=
  i < j ∧ j ≤ t.length ∧ (∀ L H, L ≤ (tokAt t i).lo → (tokAt t (j - 1)).hi ≤ H → Ordered L H l) ∧ NestedAll l

theorem spine_lt {k : Kd} (h : spine k = true) (x : K) : lt k x = false := by
  cases k <;> first | rfl | cases h

theorem good_leaf {k : Kd} {i : Nat} (hs : Src t) (h : single k = true) (hi : i < t.length) :
    Good t (.node k (tokAt t i).lo (tokAt t i).hi []) i (i + 1) := by
  refine ⟨Nat.lt_succ_self _, hi, rfl, rfl, ?_, ?_⟩
  · intro y hy
    cases hy with
    | self => rfl
  · exact ⟨Nat.le_of_lt (hs.pos i hi), trivial⟩

theorem good_node {k : Kd} {lo hi : Nat} {kids : List Nd} {i j a b : Nat} (hs : Src t) (h1 : i < j) (h2 : j ≤ t.length) (h4 : b ≤ j)
    (h5 : hi = (tokAt t (j - 1)).hi)
    (h6 : lo = (tokAt t i).lo ∨ lk k = true ∧ a = i ∧ ∃ n l, kids = n :: l ∧ (lo = n.lo ∨ k = .call ∧ Lft n lo))
    (h7 : lk k = true ∧ a = i ∧ kids ≠ [] ∨ lt k (tokAt t i).k = true) (h : Goods t kids i a b) : Good t (.node k lo hi kids) i j := by
  have hlo : lo = (tokAt t i).lo := by
    rcases h6 with h6 | ⟨h6, h8, n, l, h9, h10⟩
    · exact h6
    · obtain ⟨h11, h12⟩ := h.2.2 n l h9
      rcases h10 with h10 | ⟨_, h10⟩
      · rw [h10, h11, h8]
      · rw [h12 _ h10, h8]
  refine ⟨h1, h2, hlo, h5, ?_, ?_, h.2.1⟩
  · intro y hy
    cases hy with
    | self => exact hlo
    | step hk hy =>
      rcases h7 with h7 | h7
      · rw [(h.2.2 _ _ rfl).2 _ hy, h7.2.1]
      · rw [spine_lt hk] at h7
        cases h7
  · refine h.1 _ _ ?_ ?_ ?_
    · intro x hx hx'
      rw [hlo]
      exact hs.lo_le hx hx'
    · intro x hx hx'
      rw [h5]
      exact hs.hi_le (by omega) (by omega)
    · rw [hlo, h5]
      exact Nat.le_of_lt (hs.lo_hi (by omega) (by omega))

theorem good_member {lo hi nlo nhi : Nat} {obj : Nd} {i m : Nat} (hs : Src t) (h1 : m + 1 < t.length)
    (h3 : lo = obj.lo) (h4 : hi = (tokAt t (m + 1)).hi) (h5 : nlo = (tokAt t (m + 1)).lo ∨ nlo = (tokAt t m).hi ∧ (tokAt t m).k = .pu .dot)
    (h6 : nhi = (tokAt t (m + 1)).hi) (h : Good t obj i m) : Good t (.node .member lo hi [obj, .node .dotName nlo nhi []]) i (m + 2) := by
  obtain ⟨h7, h8, h9, h10, h11, h12⟩ := h
  have p1 := hs.lt (show m - 1 < m by omega) (by omega)
  have p2 := hs.ord m h1
  have p3 := hs.pos m (by omega)
  have p4 := hs.pos (m + 1) h1
  have p5 := hs.lo_hi (show i ≤ m - 1 by omega) (by omega)
  have hn : (tokAt t (m - 1)).hi ≤ nlo ∧ nlo ≤ nhi := by
    rcases h5 with h | ⟨h, _⟩ <;> omega
  refine ⟨by omega, by omega, by rw [← h9]; exact h3, h4, ?_, ?_, ?_⟩
  · intro y hy
    cases hy with
    | self => rw [← h9]; exact h3
    | step hk hy => exact h11 _ hy
  · refine ⟨by rw [h3]; exact Nat.le_refl _, by omega, by rw [h10]; exact hn.1, hn.2, ?_⟩
    show nhi ≤ hi
    omega
  · exact ⟨h12, ⟨by show nlo ≤ nhi; exact hn.2, trivial⟩, trivial⟩

theorem good_tpl {lo hi : Nat} {l : List Nd} {i j : Nat} (h1 : lo = (tokAt t i).lo) (h2 : hi = (tokAt t (j - 1)).hi)
    (h : GoodParts t l i j) : Good t (.node .tpl lo hi l) i j := by
  obtain ⟨h3, h4, h5, h6⟩ := h
  refine ⟨h3, h4, h1, h2, ?_, h5 _ _ (by omega) (by omega), h6⟩
  intro y hy
  cases hy with
  | self => exact h1
  | step hk _ => cases hk

theorem goods_cons {n : Nd} {l : List Nd} {i a m a' b : Nat} (hs : Src t) (hi : i ≤ a) (hn : Good t n a m) (hl : Goods t l m a' b) (hmb : m ≤ b) :
    Goods t (n :: l) i a b := by
  obtain ⟨h1, h2, h3, h4, h5, h6⟩ := hn
  refine ⟨?_, ⟨h6, hl.2.1⟩, ?_⟩
  · intro L H hL hH hLH
    have p1 := hs.lo_hi (show a ≤ m - 1 by omega) (by omega)
    have p2 := hH (m - 1) (by omega) (by omega)
    refine ⟨by rw [h3]; exact hL a hi (by omega), by omega, ?_⟩
    refine hl.1 _ _ ?_ hH (by omega)
    intro x hx hx'
    rw [h4]
    exact hs.lt (by omega) hx'
  · intro n' l' he
    cases he
    exact ⟨h3, h5⟩

theorem goods_nil {i a b : Nat} : Goods t [] i a b :=
  ⟨fun _ _ _ _ h => h, trivial, fun _ _ h => by cases h⟩

theorem goodParts_last {i : Nat} (hs : Src t) (h : i < t.length) : GoodParts t [.node .text (tokAt t i).slo (tokAt t i).shi []] i (i + 1) := by
  have h1 := hs.txt i h
  refine ⟨Nat.lt_succ_self _, h, ?_, ⟨h1.2.1, trivial⟩, trivial⟩
  intro L H hL hH
  rw [Nat.add_sub_cancel] at hH
  exact ⟨Nat.le_trans hL h1.1, h1.2.1, Nat.le_trans h1.2.2 hH⟩

theorem goodParts_more {e : Nd} {l : List Nd} {i m j : Nat} (hs : Src t) (h : i < t.length) (he : Good t e (i + 1) m) (hl : GoodParts t l m j) :
    GoodParts t (.node .text (tokAt t i).slo (tokAt t i).shi [] :: e :: l) i j := by
  have h1 := hs.txt i h
  obtain ⟨h2, h3, h4, h5, h6, h7⟩ := he
  obtain ⟨h8, h9, h10, h11⟩ := hl
  refine ⟨by omega, h9, ?_, ⟨h1.2.1, trivial⟩, h7, h11⟩
  intro L H hL hH
  have p1 := hs.lt (show i < i + 1 by omega) (by omega)
  have p2 := hs.lo_hi (show i + 1 ≤ m - 1 by omega) (by omega)
  have p3 := hs.lt (show m - 1 < m by omega) (by omega)
  refine ⟨Nat.le_trans hL h1.1, h1.2.1, ?_, by omega, h10 _ _ (by omega) hH⟩
  show (tokAt t i).shi ≤ _
  omega

theorem Locs.head_le {l : List Nd} {i a b : Nat} (h : Locs t l i a b) : i ≤ b := h.bounds.1

theorem Loc.good (hs : Src t) {n : Nd} {i j : Nat} (h : Loc t n i j) : plain n = true → Good t n i j := by
  refine Loc.rec (motive_1 := fun n i j _ => plain n = true → Good t n i j) (motive_2 := fun l i a b _ => plains l = true → Goods t l i a b)
    (motive_3 := fun l i j _ => plains l = true → GoodParts t l i j) ?_ ?_ ?_ ?_ ?_ ?_ ?_ ?_ ?_ ?_ ?_ h
  · intro k i h1 h2 _
    exact good_leaf hs h1 h2
  · intro k lo hi kids i j a b h1 h2 h3 h4 h5 h6 h7 h8 ih hp
    simp only [plain, Bool.and_eq_true] at hp
    exact good_node hs h1 h2 h4 h5 h6 h7 (ih hp.2)
  · intro lo hi nlo nhi obj i m h1 h2 h3 h4 h5 h6 h7 ih hp
    simp only [plain, plains, Bool.and_eq_true] at hp
    exact good_member hs h2 h4 h5 h6 h7 (ih hp.2.1)
  · intro lo hi l i j h1 h2 h3 h4 ih hp
    simp only [plain, Bool.and_eq_true] at hp
    exact good_tpl h3 h4 (ih hp.2)
  · intro lo hi tag l i e m j _ _ _ _ _ _ _ _ hp
    simp [plain] at hp
  · intro lo hi kids f i j b _ _ _ _ _ _ _ _ _ _ _ hp
    simp [plain] at hp
  · intro i a b _ _
    exact goods_nil
  · intro n i a b h1 h2 ih hp
    simp only [plains, Bool.and_eq_true] at hp
    exact goods_cons hs h1 (ih hp.1) (goods_nil (i := b) (a := b) (b := b)) (Nat.le_refl _)
  · intro n n' l i a a' b m h1 h2 h3 ih1 ih2 hp
    simp only [plains, Bool.and_eq_true] at hp
    exact goods_cons hs h1 (ih1 hp.1) (ih2 (by simp [plains, hp.2])) h3.head_le
  · intro i h1 h2 _
    exact goodParts_last hs h1
  · intro e l i m j h1 h2 h3 h4 ih1 ih2 hp
    simp only [plains, Bool.and_eq_true] at hp
    exact goodParts_more hs h1 (ih1 hp.2.1) (ih2 hp.2.2)

theorem Locs.goods (hs : Src t) : ∀ {l : List Nd} {i a b : Nat}, Locs t l i a b → plains l = true → Goods t l i a b
  | [], _, _, _, _, _ => goods_nil
  | [n], _, _, b, .one h1 h2, hp => by
    simp only [plains, Bool.and_eq_true] at hp
    exact goods_cons hs h1 (h2.good hs hp.1) (goods_nil (i := b) (a := b) (b := b)) (Nat.le_refl _)
  | n :: n' :: l, _, _, _, .cons h1 h2 h3, hp => by
    rw [plains, Bool.and_eq_true] at hp
    exact goods_cons hs h1 (h2.good hs hp.1) (Locs.goods hs h3 hp.2) h3.head_le

/-- A node somewhere in a tree. -/
inductive Sub (s : Nd) : Nd → Prop where
  | self : Sub s s
  | part {k : Kd} {lo hi : Nat} {kids : List Nd} {p : Nd} : p ∈ kids → Sub s p → Sub s (.node k lo hi kids)

theorem Locs.mem : ∀ {l : List Nd} {i a b : Nat}, Locs t l i a b → ∀ s, s ∈ l → ∃ i' j', i ≤ i' ∧ j' ≤ b ∧ Loc t s i' j'
  | [], _, _, _, _, _, hm => nomatch hm
  | n :: l, i, a, b, h, s, hm => by
    cases h with
    | one h1 h2 =>
      cases List.mem_singleton.1 hm
      exact ⟨_, _, h1, Nat.le_refl _, h2⟩
    | cons h1 h2 h3 =>
      have hb := h2.mono
      rcases List.mem_cons.1 hm with h | h
      · subst h
        exact ⟨_, _, h1, h3.bounds.1, h2⟩
      · obtain ⟨i', j', h4, h5, h6⟩ := Locs.mem h3 s h
        exact ⟨i', j', by omega, h5, h6⟩

theorem Parts.mem : ∀ {l : List Nd} {i j : Nat}, Parts t l i j → ∀ s, s ∈ l →
    (s.kd = .text ∧ s.kids = []) ∨ ∃ i' j', i ≤ i' ∧ j' ≤ j ∧ Loc t s i' j'
  | [], _, _, h, _, _ => nomatch h
  | [_], i, j, h, s, hm => by
    cases h with
    | last h1 h2 =>
      cases List.mem_singleton.1 hm
      exact .inl ⟨rfl, rfl⟩
  | n :: m :: l, i, j, h, s, hm => by
    cases h with
    | more h1 h2 h3 h4 =>
      have ha := h3.mono
      have hb := h4.mono
      rcases List.mem_cons.1 hm with h | h
      · subst h
        exact .inl ⟨rfl, rfl⟩
      · rcases List.mem_cons.1 h with h | h
        · subst h
          exact .inr ⟨_, _, by omega, by omega, h3⟩
        · rcases Parts.mem h4 s h with h | ⟨i', j', h5, h6, h7⟩
          · exact .inl h
          · exact .inr ⟨i', j', by omega, by omega, h7⟩

theorem Loc.kid {n : Nd} {i j : Nat} (h : Loc t n i j) (s : Nd) (hm : s ∈ n.kids) :
    ((s.kd = .text ∨ s.kd = .dotName) ∧ s.kids = []) ∨ ∃ i' j', i ≤ i' ∧ j' ≤ j ∧ Loc t s i' j' := by
  cases h with
  | leaf => exact nomatch hm
  | node h1 h2 h3 h4 =>
    obtain ⟨i', j', h5, h6, h7⟩ := h3.mem s hm
    exact .inr ⟨i', j', h5, by omega, h7⟩
  | member h1 h2 =>
    simp only [Nd.kids, List.mem_cons, List.not_mem_nil, or_false] at hm
    rcases hm with h | h
    · subst h
      exact .inr ⟨_, _, Nat.le_refl _, by omega, h1⟩
    · subst h
      exact .inl ⟨.inr rfl, rfl⟩
  | tpl h1 =>
    rcases h1.mem s hm with h | h
    · exact .inl ⟨.inl h.1, h.2⟩
    · exact .inr h
  | tagged h1 h2 h3 =>
    have ha := h1.mono
    have hb := h3.mono
    rcases List.mem_cons.1 hm with h | h
    · subst h
      exact .inr ⟨_, _, Nat.le_refl _, by omega, h1⟩
    · rcases h3.mem s h with h | ⟨i', j', h5, h6, h7⟩
      · exact .inl ⟨.inl h.1, h.2⟩
      · exact .inr ⟨i', j', by omega, by omega, h7⟩
  | starSeq h1 h2 h3 h4 h5 h6 h7 h8 =>
    obtain ⟨i', j', h9, h10, h11⟩ := h6.mem s hm
    exact .inr ⟨i', j', h9, by omega, h11⟩

theorem Sub.loc {s n : Nd} (h : Sub s n) : ∀ {i j : Nat}, Loc t n i j →
    (s.kd = .text ∨ s.kd = .dotName) ∨ ∃ i' j', i ≤ i' ∧ j' ≤ j ∧ Loc t s i' j' := by
  induction h with
  | self => exact fun h => .inr ⟨_, _, Nat.le_refl _, Nat.le_refl _, h⟩
  | @part k lo hi kids p hm hs ih =>
    intro i j hl
    rcases hl.kid p hm with h | ⟨i', j', h1, h2, h3⟩
    · obtain ⟨hk, hn⟩ := h
      cases hs with
      | self => exact .inl hk
      | part hm' _ =>
        simp only [Nd.kids] at hn
        subst hn
        exact nomatch hm'
    · rcases ih h3 with h | ⟨i'', j'', h4, h5, h6⟩
      · exact .inl h
      · exact .inr ⟨i'', j'', by omega, by omega, h6⟩

theorem plains_mem : ∀ {l : List Nd}, plains l = true → ∀ {s}, s ∈ l → plain s = true
  | [], _, _, hm => nomatch hm
  | n :: l, h, s, hm => by
    simp only [plains, Bool.and_eq_true] at h
    rcases List.mem_cons.1 hm with h' | h'
    · exact h' ▸ h.1
    · exact plains_mem h.2 h'

theorem Sub.plain {s n : Nd} (h : Sub s n) : plain n = true → plain s = true := by
  induction h with
  | self => exact id
  | part hm _ ih =>
    intro h
    simp only [Rng.plain, Bool.and_eq_true] at h
    exact ih (plains_mem h.2 hm)

end Mole.Parser.Rng
