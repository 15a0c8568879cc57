import Verif.Parser.TsTypeTr
import Verif.Parser.TsTypeAs

/-! # What is accepted as a type (for C80) -/

namespace Mole.Parser.TsType
variable {X : Type}

/-- The other parts of the parser take at least one token. -/
def Cfg.Takes (C : Cfg X) : Prop :=
  ∀ s x r, (∃ b, C.obj b s = some (x, r)) ∨ C.tpl s = some (x, r) ∨ C.param s = some (x, r) ∨ C.tparams s = some (x, r) →
    r.length < s.length

/-- No function type among the members. -/
def NoFn (ms : List (Bool × Nd X)) : Prop := ∀ x ∈ ms, isFn x.2 = false

/-- Where the loop over the operators is. -/
inductive St (X : Type) where
  | b0 (l : Nd X)
  | b1 (l : Nd X) (es : List (Nd X))
  | b2 (last : Nat) (l : Nd X) (es : List (Nd X))

def St.Match (lhs : Option (Nd X)) (nt : Option Bool) (elems : List (Nd X)) (k : K) : St X → Prop
  | .b0 l => lhs = some l ∧ nt = none
  | .b1 l es => lhs = some l ∧ nt = some false ∧ elems = l :: es ∧ es ≠ [] ∧ 10 ≤ pcd k
  | .b2 last l es => lhs = some l ∧ nt = some true ∧ elems = l :: es ∧ es ≠ [] ∧ last ≤ pcd k ∧ k ≠ .amp

def St.mean (p : Nat) (ms : List (Bool × Nd X)) : St X → Nd X
  | .b0 l => tree p l ms
  | .b1 l es => tree p l (es.map (fun e => (false, e)) ++ ms)
  | .b2 last l es => build p last (l :: es) (rest ms)

/-- What is left of members with an operator before the first. -/
def InLead (ms : List (Bool × Nd X)) (t : Nd X) : Prop := (∃ o, (o, t) ∈ ms) ∨ ∃ l, l <:+ ms ∧ t = .inter (l.map Prod.snd)

/-- What the functions give. -/
structure Specs (C : Cfg X) (n : Nat) : Prop where
  typ : ∀ F s, Tr ((run C n).typ F) s (fun t r => (∀ top, G C true (.typ F top t) s r) ∧ r.length < s.length) (n < 6 * s.length + 3)
  uniN : ∀ F s, Tr ((run C n).uni none 0 F false) s (fun t r => (∀ top, G C true (.typ F top t) s r) ∧ r.length < s.length)
    (n < 6 * s.length + 2)
  uniS : ∀ a min F canFn s, min = 0 ∨ min = 10 → Tr ((run C n).uni (some a) min F canFn) s (fun t r => ∃ ms, G C true (.ops F ms) s r ∧
    r.length + ms.length ≤ s.length ∧ (min = 10 → ∀ x ∈ ms, x.1 = false) ∧
    (isFn a = false ∨ canFn = true → (isOp (hd r).k = true → pcd (hd r).k < min) ∧ (NoFn ms → t = tree (pcd (hd r).k) a ms)))
    (n < 6 * s.length + 2)
  loop : ∀ min F lhs nt elems rhs s, min = 0 ∨ min = 10 → Tr ((run C n).loop min F lhs nt elems rhs) s (fun t r => ∃ ms,
    G C true (.ops F ms) s r ∧ r.length + ms.length ≤ s.length ∧ (isOp (hd r).k = true → pcd (hd r).k < min) ∧ (min = 10 → ∀ x ∈ ms, x.1 = false) ∧
    (∀ st : St X, st.Match lhs nt elems (hd s).k → NoFn ms → t = st.mean (pcd (hd r).k) ms) ∧
    (lhs = none → NoFn ms → (ms = [] ∧ rhs = some t) ∨ (ms ≠ [] ∧ InLead ms t))) (n < 6 * s.length + 1)
  prim : ∀ F s, Tr ((run C n).prim F) s (fun t r => (∀ top, G C true (.prim F top t) s r) ∧ r.length < s.length) (n < 6 * s.length + 1)
  arr : ∀ t s, Tr ((run C n).arr t) s (fun t' r => G C true (.suf t t') s r ∧ r.length ≤ s.length ∧ (hd r).k ≠ .brackL)
    (n < 6 * s.length + 1)
  args : ∀ c acc s, Tr ((run C n).args c acc) s (fun l r => ∃ l', l = acc ++ l' ∧ r.length < s.length ∧
    (G C true (.args c l') s r ∨ (l' = [] ∧ acc ≠ [] ∧ ∃ a, s = ⟨.gt, a⟩ :: r))) (n < 6 * s.length + 4)
  mem : ∀ b s, Tr ((run C n).mem b) s (fun t r => G C true (.mem b t) s r ∧ r.length < s.length) (n < 6 * s.length + 4)
  mems : ∀ b acc s, OptLast acc ∧ NamesAgree acc → Tr ((run C n).mems b acc) s (fun l r => ∃ l', l = acc ++ l' ∧ G C true (.mems b l') s r ∧
    r.length < s.length ∧ OptLast l ∧ NamesAgree l) (n < 6 * s.length + 5)
  params : ∀ acc s, Tr ((run C n).params acc) s (fun l r => ∃ l', l = acc ++ l' ∧ G C true (.more l') s r ∧ r.length < s.length)
    (n < 6 * s.length + 1)

variable {C : Cfg X} {n : Nat}

theorem ops_head {F : Fl} {ms : List (Bool × Nd X)} {s r : List Tok} (h : G C true (.ops F ms) s r) :
    (ms = [] ∧ s = r) ∨ ∃ o m l, ms = (o, m) :: l ∧ (hd s).k = if o then .bar else .amp := by
  cases h with
  | opsNil => exact .inl ⟨rfl, rfl⟩
  | opsCons h1 h2 => exact .inr ⟨_, _, _, rfl, rfl⟩

theorem ops_append {F : Fl} {ms ms' : List (Bool × Nd X)} {s m r : List Tok} (h : G C true (.ops F ms) s m) (h' : G C true (.ops F ms') m r) :
    G C true (.ops F (ms ++ ms')) s r := by
  induction ms generalizing s with
  | nil => cases h; exact h'
  | cons x l ih =>
    cases h with
    | opsCons h1 h2 => exact .opsCons h1 (ih h2)

theorem and_map {ms : List (Bool × Nd X)} (h : ∀ x ∈ ms, x.1 = false) : ms = (ms.map Prod.snd).map (fun e => (false, e)) := by
  induction ms with
  | nil => rfl
  | cons x l ih =>
    have h1 : x.1 = false := h x (by simp)
    rw [List.map_cons, List.map_cons, ← ih (fun y hy => h y (by simp [hy])), ← h1]

/-- After a `|`. -/
theorem bar_step {p q : Nat} {last : Nat} {l : Nd X} {es : List (Nd X)} {r1 : Nd X} {ms1 ms2 : List (Bool × Nd X)}
    (h1 : ∀ x ∈ ms1, x.1 = false) (h2 : ∀ m l, ms2 ≠ (false, m) :: l) (hq : (ms2 = [] ∧ q = p) ∨ (ms2 ≠ [] ∧ q = 8)) :
    build p last (l :: es) (rest ((true, r1) :: (ms1 ++ ms2))) =
      if q < (if ms1 = [] then 8 else 10) then tree p (.union (l :: (es ++ [tree q r1 ms1]))) ms2
      else build p (if ms1 = [] then 8 else 10) (l :: (es ++ [tree q r1 ms1])) (rest ms2) := by
  obtain ⟨e1, hm1⟩ : ∃ e1 : List (Nd X), ms1 = e1.map (fun e => (false, e)) := ⟨_, and_map h1⟩
  subst hm1
  have ht : tree q r1 (e1.map (fun e => (false, e))) = if q < 10 then interOf (r1 :: e1) else r1 := by
    have := tree_and q r1 e1 [] (by simp)
    simp only [List.append_nil, rest, build] at this
    rw [this]; simp
  have he1 : e1.map (fun e => ((false, e) : Bool × Nd X)) = [] ↔ e1 = [] := by simp
  rw [build_group p last (l :: es) r1 e1 true ms2 h2, ht, tree_bar p _ ms2 h2]
  simp only [he1]
  rcases hq with ⟨rfl, rfl⟩ | ⟨hne, rfl⟩
  · simp only [if_true, rest]
    by_cases hc : q < (if e1 = [] then 8 else 10)
    · rw [if_pos hc]
      have : l :: es ++ [if q < 10 then interOf (r1 :: e1) else r1] = l :: (es ++ [if q < 10 then interOf (r1 :: e1) else r1]) := rfl
      rw [this]
      cases hes : es ++ [if q < 10 then interOf (r1 :: e1) else r1] with
      | nil => simp at hes
      | cons a b => simp [build, hc]
    · rw [if_neg hc]; rfl
  · simp only [hne, if_false]
    by_cases he : e1 = []
    · subst he; simp [interOf]
    · simp only [he, if_false]
      cases e1 with
      | nil => exact absurd rfl he
      | cons x y =>
        simp only [show (8 : Nat) < 10 by decide, if_true, interOf, List.cons_append]
        exact build_last ..

/-- After a `&`. -/
theorem amp_step {p q : Nat} {l : Nd X} {es : List (Nd X)} {r1 : Nd X} {ms2 : List (Bool × Nd X)}
    (h2 : ∀ m l, ms2 ≠ (false, m) :: l) (hq : ms2 = [] → q = p) (hlt : q < 10) :
    tree p l (es.map (fun e => (false, e)) ++ (false, r1) :: ms2) = tree p (.inter (l :: (es ++ [r1]))) ms2 := by
  have e : es.map (fun e => (false, e)) ++ (false, r1) :: ms2 = (es ++ [r1]).map (fun e => (false, e)) ++ ms2 := by simp
  rw [e, tree_and p l _ ms2 h2, tree_bar p _ ms2 h2]
  have : rest ms2 ≠ [] ∨ p < 10 := by
    by_cases hm : ms2 = []
    · exact .inr (hq hm ▸ hlt)
    · exact .inl (rest_ne hm)
  rw [if_pos this]
  cases hes : es ++ [r1] with
  | nil => simp at hes
  | cons a b => rfl

theorem tree_all_and {q : Nat} {r1 : Nd X} {ms : List (Bool × Nd X)} (h : ∀ x ∈ ms, x.1 = false) :
    tree q r1 ms = r1 ∨ tree q r1 ms = .inter (r1 :: ms.map Prod.snd) := by
  obtain ⟨es, rfl⟩ : ∃ es : List (Nd X), ms = es.map (fun e => (false, e)) := ⟨_, and_map h⟩
  have := tree_and q r1 es [] (by simp)
  simp only [List.append_nil, rest, build] at this
  rw [this]
  have e : ((es.map (fun e => ((false, e) : Bool × Nd X))).map Prod.snd) = es := by simp [Function.comp_def]
  rw [e]
  cases es with
  | nil => simp [interOf]
  | cons a b => simp only [ne_eq, not_true_eq_false, false_or, interOf]; split <;> simp

theorem loop_spec (H : Specs C n) (min : Nat) (F : Fl) (lhs : Option (Nd X)) (nt : Option Bool) (elems : List (Nd X)) (rhs : Option (Nd X))
    (s : List Tok) (hmin : min = 0 ∨ min = 10) : Tr (uniLoop (run C n) min F lhs nt elems rhs) s (fun t r => ∃ ms,
    G C true (.ops F ms) s r ∧ r.length + ms.length ≤ s.length ∧ (isOp (hd r).k = true → pcd (hd r).k < min) ∧ (min = 10 → ∀ x ∈ ms, x.1 = false) ∧
    (∀ st : St X, st.Match lhs nt elems (hd s).k → NoFn ms → t = st.mean (pcd (hd r).k) ms) ∧
    (lhs = none → NoFn ms → (ms = [] ∧ rhs = some t) ∨ (ms ≠ [] ∧ InLead ms t))) (n + 1 < 6 * s.length + 1) := by
  unfold uniLoop
  refine tr_bind (tr_peek ?_)
  refine tr_ite ?_ ?_
  · rintro ⟨ha, hma⟩
    have hne : (hd s).k ≠ .eof := by rcases isOp_iff.mp ha with h | h <;> rw [h] <;> decide
    refine tr_bind (tr_next rfl hne ?_)
    intro nl s1 hs
    refine tr_bind (tr_mono (H.prim F s1) ?_ (by rw [hs]; simp; omega))
    rintro r1 s2 ⟨hr1, hl1⟩
    refine tr_bind ?_
    /- the member, with what is joined to it by `&` -/
    have inner : Tr (climb (run C n) (hd s).k r1 F) s2 (fun x s3 => ∃ ms1, G C true (.ops F ms1) s2 s3 ∧ s3.length + ms1.length ≤ s2.length ∧
        (∀ y ∈ ms1, y.1 = false) ∧ (isFn r1 = false → NoFn ms1 → x.1 = tree (pcd (hd s3).k) r1 ms1) ∧
        ((hd s).k = .amp → ms1 = [] ∧ x.2 = 10) ∧
        (isFn r1 = false → (hd s).k = .bar → (hd s3).k ≠ .amp ∧ x.2 = if ms1 = [] then 8 else 10)) (n + 1 < 6 * s.length + 1) := by
      unfold climb
      refine tr_bind (tr_peek ?_)
      refine tr_ite ?_ ?_
      · rintro ⟨hb, hlt⟩
        obtain ⟨hb1, hb2⟩ : (hd s2).k = .amp ∧ pcd (hd s2).k = 10 := by
          rcases op_pcd hb with h | h
          · rcases op_pcd ha with h' | h' <;> omega
          · exact h
        have hs8 : (hd s).k = .bar := by
          rcases op_pcd ha with h' | h'
          · exact h'.1
          · omega
        rw [hb2]
        refine tr_bind (tr_mono (H.uniS r1 10 F false s2 (.inr rfl)) ?_ (by rw [hs]; simp; omega))
        rintro t s3 ⟨ms1, g1, g2, g3, g4⟩
        refine tr_pure ⟨ms1, g1, g2, g3 rfl, fun hf hn => (g4 (.inl hf)).2 hn, fun h => ?_, fun hf _ => ?_⟩
        · rw [hs8] at h; cases h
        · have hst := (g4 (.inl hf)).1
          have hna : (hd s3).k ≠ .amp := by
            intro h
            have := hst (by rw [h]; rfl)
            rw [h] at this
            exact absurd this (by decide)
          refine ⟨hna, ?_⟩
          rcases ops_head g1 with ⟨-, rfl⟩ | ⟨o, m, l, rfl, -⟩
          · exact absurd hb1 hna
          · simp
      · intro hnb
        refine tr_pure ⟨[], .opsNil, Nat.le_refl _, by simp, fun _ _ => ?_, fun h => ⟨rfl, by rw [h]; rfl⟩, fun _ h => ⟨?_, by simp [h, pcd]⟩⟩
        · rw [tree_bar _ _ [] (by simp)]; simp [rest, build]
        · intro hb
          exact hnb ⟨by rw [hb]; rfl, by rw [h, hb]; decide⟩
    refine tr_mono inner ?_ id
    rintro x s3 ⟨ms1, g1, g2, g3, g4, g5, g6⟩
    refine tr_bind (tr_peek ?_)
    have fin : ∀ (o : Bool) (ms2 : List (Bool × Nd X)) (r : List Tok), ((hd s).k = if o then .bar else .amp) → G C true (.ops F ms2) s3 r →
        G C true (.ops F ((o, r1) :: (ms1 ++ ms2))) s r := by
      intro o ms2 r ho h
      rw [hs, ho]
      exact .opsCons (hr1 _) (ops_append g1 h)
    obtain ⟨o, ho⟩ : ∃ o : Bool, (hd s).k = if o then .bar else .amp := by
      rcases isOp_iff.mp ha with h | h
      · exact ⟨true, h⟩
      · exact ⟨false, h⟩
    have hlen : s3.length + ms1.length + 2 ≤ s.length := by rw [hs]; simp; omega
    have hm10 : min = 10 → o = false := by
      rintro rfl
      cases o with
      | false => rfl
      | true => rw [ho] at hma; exact absurd hma (by decide)
    have all10 : ∀ ms2 : List (Bool × Nd X), (min = 10 → ∀ x ∈ ms2, x.1 = false) → min = 10 → ∀ x ∈ (o, r1) :: (ms1 ++ ms2), x.1 = false := by
      intro ms2 h hm x hx
      simp only [List.mem_cons, List.mem_append] at hx
      rcases hx with rfl | hx | hx
      · exact hm10 hm
      · exact g3 x hx
      · exact h hm x hx
    have after : ∀ {ms2 : List (Bool × Nd X)} {r : List Tok}, G C true (.ops F ms2) s3 r → (hd s3).k ≠ .amp →
        (∀ m l, ms2 ≠ (false, m) :: l) ∧ ((ms2 = [] ∧ pcd (hd s3).k = pcd (hd r).k) ∨ (ms2 ≠ [] ∧ pcd (hd s3).k = 8)) := by
      intro ms2 r h hna
      rcases ops_head h with ⟨rfl, rfl⟩ | ⟨o, m, l, rfl, ho⟩
      · exact ⟨by simp, .inl ⟨rfl, rfl⟩⟩
      · cases o with
        | true => exact ⟨by simp, .inr ⟨by simp, by rw [ho]; rfl⟩⟩
        | false => exact absurd ho hna
    have noFn : ∀ ms2 : List (Bool × Nd X), NoFn ((o, r1) :: (ms1 ++ ms2)) → isFn r1 = false ∧ NoFn ms1 ∧ NoFn ms2 := by
      intro ms2 h
      exact ⟨h (o, r1) (by simp), fun x hx => h x (by simp [hx]), fun x hx => h x (by simp [hx])⟩
    refine tr_ite ?_ ?_
    · rintro ⟨hl, hlt⟩
      obtain ⟨l, rfl⟩ := Option.isSome_iff_exists.mp hl
      refine tr_mono (H.loop min F _ none [] _ s3 hmin) ?_ (by omega)
      rintro t r ⟨ms2, k1, k2, k3, k4, k5, -⟩
      refine ⟨_, fin o ms2 r ho k1, by simp; omega, k3, all10 ms2 k4, ?_, by simp⟩
      intro st hst hn
      obtain ⟨n1, n2, n3⟩ := noFn ms2 hn
      have hmean := k5 (.b0 _) ⟨rfl, rfl⟩ n3
      simp only [St.mean] at hmean
      rw [hmean]
      cases o with
      | true =>
        obtain ⟨hna, hx2⟩ := g6 n1 ho
        obtain ⟨hm2, hq⟩ := after k1 hna
        rw [g4 n1 n2]
        rw [hx2] at hlt
        cases st with
        | b0 l' =>
          obtain ⟨e, rfl⟩ := hst
          cases e
          simp only [St.mean]
          rw [tree_bar _ l ((true, r1) :: (ms1 ++ ms2)) (by simp), bar_step g3 hm2 hq, if_pos hlt]
          simp [ho, mk]
        | b1 l' es =>
          obtain ⟨-, -, -, -, h10⟩ := hst
          rw [ho] at h10; exact absurd h10 (by decide)
        | b2 last l' es =>
          obtain ⟨e, rfl, rfl, -, -, -⟩ := hst
          cases e
          simp only [St.mean]
          rw [bar_step g3 hm2 hq, if_pos hlt]
          simp [mk]
      | false =>
        obtain ⟨rfl, hx2⟩ := g5 ho
        rw [hx2] at hlt
        have hna : (hd s3).k ≠ .amp := by
          intro h; rw [h] at hlt; exact absurd hlt (by decide)
        obtain ⟨hm2, hq⟩ := after k1 hna
        have hq' : ms2 = [] → pcd (hd s3).k = pcd (hd r).k := by
          intro h
          rcases hq with ⟨-, h'⟩ | ⟨h', -⟩
          · exact h'
          · exact absurd h h'
        have ht : x.1 = r1 := by
          rw [g4 n1 n2, tree_bar _ _ [] (by simp)]; simp [rest, build]
        rw [ht]
        cases st with
        | b0 l' =>
          obtain ⟨e, rfl⟩ := hst
          cases e
          have := amp_step (p := pcd (hd r).k) (l := l) (es := []) (r1 := r1) hm2 hq' hlt
          simp only [List.map_nil, List.nil_append] at this
          simp only [St.mean, List.nil_append]
          rw [this]
          simp [ho, mk]
        | b1 l' es =>
          obtain ⟨e, rfl, rfl, -, -⟩ := hst
          cases e
          simp only [St.mean, List.nil_append]
          rw [amp_step hm2 hq' hlt]
          simp [mk]
        | b2 last l' es =>
          obtain ⟨-, -, -, -, -, h⟩ := hst
          exact absurd ho h
    · intro hc
      refine tr_mono (H.loop min F lhs _ _ _ s3 hmin) ?_ (by omega)
      rintro t r ⟨ms2, k1, k2, k3, k4, k5, k6⟩
      refine ⟨_, fin o ms2 r ho k1, by simp; omega, k3, all10 ms2 k4, ?_, ?_⟩
      · intro st hst hn
        obtain ⟨n1, n2, n3⟩ := noFn ms2 hn
        cases o with
        | true =>
          obtain ⟨hna, hx2⟩ := g6 n1 ho
          obtain ⟨hm2, hq⟩ := after k1 hna
          have hx1 := g4 n1 n2
          cases st with
          | b0 l' =>
            obtain ⟨rfl, rfl⟩ := hst
            have hge : ¬ pcd (hd s3).k < x.2 := fun h => hc ⟨rfl, h⟩
            rw [k5 (.b2 x.2 l' [x.1]) ⟨rfl, by simp [ho], by simp, by simp, by omega, hna⟩ n3]
            simp only [St.mean]
            rw [hx2] at hge ⊢
            rw [tree_bar _ _ _ (by simp), bar_step g3 hm2 hq, if_neg hge, hx1]
            rfl
          | b1 l' es =>
            obtain ⟨-, -, -, -, h10⟩ := hst
            rw [ho] at h10; exact absurd h10 (by decide)
          | b2 last l' es =>
            obtain ⟨rfl, rfl, rfl, -, -, -⟩ := hst
            have hge : ¬ pcd (hd s3).k < x.2 := fun h => hc ⟨rfl, h⟩
            rw [k5 (.b2 x.2 l' (es ++ [x.1])) ⟨rfl, by simp, by simp, by simp, by omega, hna⟩ n3]
            simp only [St.mean]
            rw [hx2] at hge ⊢
            rw [bar_step g3 hm2 hq, if_neg hge, hx1]
        | false =>
          obtain ⟨rfl, hx2⟩ := g5 ho
          have ht : x.1 = r1 := by
            rw [g4 n1 n2, tree_bar _ _ [] (by simp)]; simp [rest, build]
          cases st with
          | b0 l' =>
            obtain ⟨rfl, rfl⟩ := hst
            have hge : ¬ pcd (hd s3).k < x.2 := fun h => hc ⟨rfl, h⟩
            rw [k5 (.b1 l' [x.1]) ⟨rfl, by simp [ho], by simp, by simp, by omega⟩ n3, ht]
            simp [St.mean]
          | b1 l' es =>
            obtain ⟨rfl, rfl, rfl, -, -⟩ := hst
            have hge : ¬ pcd (hd s3).k < x.2 := fun h => hc ⟨rfl, h⟩
            rw [k5 (.b1 l' (es ++ [x.1])) ⟨rfl, by simp, by simp, by simp, by omega⟩ n3, ht]
            simp [St.mean]
          | b2 last l' es =>
            obtain ⟨-, -, -, -, -, h⟩ := hst
            exact absurd ho h
      · rintro rfl hn
        obtain ⟨n1, n2, n3⟩ := noFn ms2 hn
        right
        refine ⟨by simp, ?_⟩
        rcases k6 rfl n3 with ⟨rfl, hr⟩ | ⟨-, hr⟩
        · cases hr
          rw [List.append_nil]
          have ht := g4 n1 n2
          rcases tree_all_and (q := pcd (hd s3).k) (r1 := r1) g3 with h | h
          · exact .inl ⟨o, by simp [ht, h]⟩
          · exact .inr ⟨_, List.suffix_refl _, by simp [ht, h]⟩
        · rcases hr with ⟨o', hr⟩ | ⟨l, hl, hr⟩
          · exact .inl ⟨o', by simp [hr]⟩
          · exact .inr ⟨l, hl.trans ⟨(o, r1) :: ms1, by simp⟩, hr⟩
  · intro hno
    cases lhs with
    | some l =>
      refine tr_pure ⟨[], .opsNil, Nat.le_refl _, ?_, by simp, ?_, by simp⟩
      · intro h
        exact Nat.lt_of_not_le fun hh => hno ⟨h, hh⟩
      · intro st hst _
        cases st with
        | b0 l' =>
          obtain ⟨e, -⟩ := hst
          cases e
          simp only [St.mean]
          rw [tree_bar _ _ [] (by simp)]; simp [rest, build]
        | b1 l' es =>
          obtain ⟨e, -, -, he, h10⟩ := hst
          cases e
          simp only [St.mean]
          rw [tree_and _ _ _ [] (by simp)]
          have : ¬ pcd (hd s).k < 10 := by omega
          simp [rest, build, this]
        | b2 last l' es =>
          obtain ⟨e, -, -, he, h10, -⟩ := hst
          cases e
          cases es with
          | nil => exact absurd rfl he
          | cons x y => simp only [St.mean, rest, build]; rw [if_neg (by omega)]
    | none =>
      cases rhs with
      | some t =>
        refine tr_pure ⟨[], .opsNil, Nat.le_refl _, ?_, by simp, ?_, ?_⟩
        · intro h
          exact Nat.lt_of_not_le fun hh => hno ⟨h, hh⟩
        · intro st hst _
          cases st <;> simp [St.Match] at hst
        · intro _ _; exact .inl ⟨rfl, rfl⟩
      | none => exact tr_fail

theorem uniN_spec (H : Specs C n) (F : Fl) (s : List Tok) : Tr (uni (run C n) none 0 F false) s
    (fun t r => (∀ top, G C true (.typ F top t) s r) ∧ r.length < s.length) (n + 1 < 6 * s.length + 2) := by
  unfold uni operand
  refine tr_bind (tr_bind (tr_peek (tr_ite ?_ ?_)))
  · intro ho
    refine tr_pure (tr_mono (H.loop 0 F none none [] none s (.inl rfl)) ?_ (by omega))
    rintro t r ⟨ms, g1, g2, g3, -, -, g6⟩
    have hstop : isOp (hd r).k = false := by
      cases h : isOp (hd r).k with
      | false => rfl
      | true => exact absurd (g3 h) (by omega)
    have hne : ms ≠ [] := by
      rintro rfl
      cases g1; rw [ho] at hstop; cases hstop
    refine ⟨fun top => .lead rfl hne g1 hstop fun hn => ?_, ?_⟩
    · rcases g6 rfl hn with ⟨h, -⟩ | ⟨-, h⟩
      · exact absurd h hne
      · exact h
    · have := List.length_pos_iff.mpr hne; omega
  · intro ho
    refine tr_bind (tr_mono (H.prim F s) ?_ (by omega))
    rintro a m ⟨ha, hm⟩
    refine tr_pure ?_
    refine tr_ite ?_ ?_
    · rintro ⟨hf, -⟩
      exact tr_pure ⟨fun top => .fnTyp hf (ha _), hm⟩
    · intro hf
      have hf' : isFn a = false := by
        cases h : isFn a with
        | false => rfl
        | true => exact absurd ⟨h, rfl⟩ hf
      refine tr_mono (H.loop 0 F (some a) none [] none m (.inl rfl)) ?_ (by omega)
      rintro t r ⟨ms, g1, g2, g3, -, g5, -⟩
      have hstop : isOp (hd r).k = false := by
        cases h : isOp (hd r).k with
        | false => rfl
        | true => exact absurd (g3 h) (by omega)
      exact ⟨fun top => .uni (ha _) g1 hf' hstop (fun hn => g5 (.b0 a) ⟨rfl, rfl⟩ hn) (by simp), by omega⟩

theorem uniS_spec (H : Specs C n) (a : Nd X) (min : Nat) (F : Fl) (canFn : Bool) (s : List Tok) (hmin : min = 0 ∨ min = 10) :
    Tr (uni (run C n) (some a) min F canFn) s (fun t r => ∃ ms, G C true (.ops F ms) s r ∧
    r.length + ms.length ≤ s.length ∧ (min = 10 → ∀ x ∈ ms, x.1 = false) ∧
    (isFn a = false ∨ canFn = true → (isOp (hd r).k = true → pcd (hd r).k < min) ∧ (NoFn ms → t = tree (pcd (hd r).k) a ms)))
    (n + 1 < 6 * s.length + 2) := by
  unfold uni operand
  refine tr_bind (tr_pure (tr_ite ?_ ?_))
  · rintro ⟨h1, h2⟩
    refine tr_pure ⟨[], .opsNil, by simp, by simp, ?_⟩
    rw [h1, h2]; simp
  · intro h
    refine tr_mono (H.loop min F (some a) none [] none s hmin) ?_ (by omega)
    rintro t r ⟨ms, g1, g2, g3, g4, g5, -⟩
    exact ⟨ms, g1, g2, g4, fun _ => ⟨g3, fun hn => g5 (.b0 a) ⟨rfl, rfl⟩ hn⟩⟩

theorem more_close {q : Bool} {l : List (Nd X)} {s r : List Tok} (h : G C q (.more l) s r) (hs : (hd s).k = .parenR) :
    l = [] ∧ ∃ a, s = ⟨.parenR, a⟩ :: r := by
  cases h with
  | moreNil => exact ⟨rfl, _, rfl⟩
  | moreLast h1 => exact absurd hs h1
  | moreCons h1 => exact absurd hs h1

theorem params_spec (T : C.Takes) (H : Specs C n) (acc : List (Nd X)) (s : List Tok) : Tr (paramLoop C (run C n) acc) s
    (fun l r => ∃ l', l = acc ++ l' ∧ G C true (.more l') s r ∧ r.length < s.length) (n + 1 < 6 * s.length + 1) := by
  unfold paramLoop
  refine tr_bind (tr_peek (tr_ite ?_ ?_))
  · intro h
    refine tr_bind (tr_next h (by decide) ?_)
    rintro nl s' rfl
    exact tr_pure ⟨[], by simp, .moreNil, by simp⟩
  · intro h1
    refine tr_ite (fun _ => tr_fail) fun h2 => ?_
    refine tr_bind (tr_call ?_)
    intro x m hx
    have hlt := T s x m (.inr (.inr (.inl hx)))
    refine tr_bind (tr_peek (tr_ite ?_ ?_))
    · intro hc
      refine tr_bind (tr_next hc (by decide) ?_)
      rintro nl s' rfl
      simp only [List.length_cons] at hlt
      refine tr_mono (H.params _ s') ?_ (by omega)
      rintro l r ⟨l', rfl, g, hr⟩
      exact ⟨.ext x :: l', by simp, .moreCons h1 h2 hx g, by omega⟩
    · intro _
      refine tr_ite ?_ (fun _ => tr_fail)
      intro hp
      refine tr_mono (H.params _ m) ?_ (by omega)
      rintro l r ⟨l', rfl, g, hr⟩
      obtain ⟨rfl, -⟩ := more_close g hp
      exact ⟨[.ext x], by simp, .moreLast h1 h2 hx hp g, by omega⟩

theorem roughList_spec (H : Specs C n) (s : List Tok) : Tr (roughList (run C n)) s
    (fun l r => ∃ a s1, s = ⟨.parenL, a⟩ :: s1 ∧ G C true (.plist l) s1 r ∧ r.length < s1.length) (n + 1 < 6 * s.length + 1) := by
  unfold roughList
  refine tr_bind (tr_must (by decide) ?_)
  rintro a s1 rfl
  refine tr_bind (tr_peek (tr_ite ?_ ?_))
  · intro h
    refine tr_bind (tr_next h (by decide) ?_)
    rintro nl s' rfl
    exact tr_pure ⟨_, _, rfl, .plistNil, by simp⟩
  · intro h1
    refine tr_ite (fun _ => tr_fail) fun h2 => tr_ite (fun _ => tr_fail) fun h3 => ?_
    have h3' : modifier (hd s1).k = false := by simpa using h3
    refine tr_bind ?_
    unfold roughParam
    refine tr_bind (tr_mono (H.typ _ s1) ?_ (by simp; omega))
    rintro t m ⟨ht, hm⟩
    refine tr_bind ?_
    have hopt : Tr opt m (fun o m' => m'.length ≤ m.length ∧ ((o = false ∧ m' = m ∧ (hd m).k ≠ .hook) ∨ (o = true ∧ ∃ a, m = ⟨.hook, a⟩ :: m')))
        (n + 1 < 6 * (⟨.parenL, a⟩ :: s1 : List Tok).length + 1) := by
      unfold opt
      refine tr_bind (tr_peek (tr_ite ?_ ?_))
      · intro h
        refine tr_bind (tr_next h (by decide) ?_)
        rintro nl s' rfl
        exact tr_pure ⟨by simp, .inr ⟨rfl, _, rfl⟩⟩
      · intro h
        exact tr_pure ⟨Nat.le_refl _, .inl ⟨rfl, rfl, h⟩⟩
    refine tr_mono hopt ?_ id
    rintro o m' ⟨hm', ho⟩
    refine tr_ite (fun _ => tr_fail) fun hthis => ?_
    have hann : Tr (anno (run C n) t o) m' (fun p m2 => G C true (.first p) s1 m2 ∧ m2.length < s1.length)
        (n + 1 < 6 * (⟨.parenL, a⟩ :: s1 : List Tok).length + 1) := by
      unfold anno
      refine tr_bind (tr_peek (tr_ite ?_ ?_))
      · intro h
        refine tr_bind (tr_next h (by decide) ?_)
        rintro nl s' rfl
        simp only [List.length_cons] at hm'
        refine tr_bind (tr_mono (H.typ _ s') ?_ (by simp; omega))
        rintro u m2 ⟨hu, hm2⟩
        refine tr_pure ?_
        rcases ho with ⟨rfl, rfl, -⟩ | ⟨rfl, b, rfl⟩
        · exact ⟨.firstTy h3' (ht _) (hu _), by omega⟩
        · refine ⟨.firstOptTy h3' (ht _) ?_ (hu _), by omega⟩
          rintro rfl
          exact hthis ⟨rfl, rfl⟩
      · intro h
        refine tr_pure ?_
        rcases ho with ⟨rfl, rfl, hh⟩ | ⟨rfl, b, rfl⟩
        · exact ⟨.first h3' (ht _) hh h, by omega⟩
        · refine ⟨.firstOpt h3' (ht _) ?_ h, by omega⟩
          rintro rfl
          exact hthis ⟨rfl, rfl⟩
    refine tr_mono hann ?_ id
    rintro p m2 ⟨hp, hm2⟩
    refine tr_bind (tr_peek (tr_ite ?_ ?_))
    · intro h
      refine tr_bind (tr_next h (by decide) ?_)
      rintro nl s' rfl
      simp only [List.length_cons] at hm2
      refine tr_mono (H.params _ s') ?_ (by simp; omega)
      rintro l r ⟨l', rfl, g, hr⟩
      exact ⟨_, _, rfl, .plistCons hp g, by omega⟩
    · intro _
      refine tr_ite ?_ (fun _ => tr_fail)
      intro h
      refine tr_mono (H.params _ m2) ?_ (by simp; omega)
      rintro l r ⟨l', rfl, g, hr⟩
      obtain ⟨rfl, a, rfl⟩ := more_close g h
      exact ⟨_, _, rfl, .plistOne hp, by omega⟩

theorem tpars_spec (T : C.Takes) (s : List Tok) {D : Prop} : Tr (tpars C) s (fun tp r => TPar C tp s r ∧ r.length ≤ s.length) D := by
  unfold tpars
  refine tr_bind (tr_peek (tr_ite ?_ ?_))
  · intro h
    refine tr_bind (tr_call ?_)
    intro x r hx
    exact tr_pure ⟨.cons h hx, Nat.le_of_lt (T s x r (.inr (.inr (.inr hx))))⟩
  · intro h
    exact tr_pure ⟨.nil h, Nat.le_refl _⟩

theorem paren_spec (T : C.Takes) (H : Specs C n) (s : List Tok) : Tr (paren C (run C n)) s
    (fun t r => (∀ top, G C true (.par top t) s r) ∧ r.length < s.length) (n + 1 < 6 * s.length + 1) := by
  unfold paren
  refine tr_bind (tr_mono (tpars_spec T s) ?_ id)
  rintro tp s0 ⟨htp, hl0⟩
  refine tr_bind (tr_mono (roughList_spec H s0) ?_ (by omega))
  rintro l m ⟨a, s1, rfl, hg, hl1⟩
  simp only [List.length_cons] at hl0
  refine tr_bind (tr_peek (tr_ite ?_ ?_))
  · intro harr
    cases hf : firstParam C l with
    | none => exact tr_fail
    | some l' =>
      refine tr_bind (tr_must (by decide) ?_)
      rintro b s2 rfl
      simp only [List.length_cons] at hl1
      refine tr_bind (tr_mono (H.typ _ s2) ?_ (by omega))
      rintro t r ⟨ht, hr⟩
      exact tr_pure ⟨fun top => .fn (.inl rfl) htp hg (asFirst_iff.1 hf) (ht _), by omega⟩
  · intro harr
    split
    · rename_i t o
      cases hu : toTyp C t with
      | none => exact tr_fail
      | some u =>
        refine tr_ite ?_ ?_
        · intro hop
          refine tr_mono (H.uniS u 0 no true m (.inl rfl)) ?_ (by omega)
          rintro w r ⟨ms, g1, g2, -, g4⟩
          obtain ⟨g4, g5⟩ := g4 (.inr rfl)
          have hstop : isOp (hd r).k = false := by
            cases h : isOp (hd r).k with
            | false => rfl
            | true => exact absurd (g4 h) (by omega)
          have hne : ms ≠ [] := by
            rintro rfl
            cases g1; rw [hop] at hstop; cases hstop
          exact ⟨fun top => .parUniOdd rfl htp hg (asTyp_iff.1 hu) hne g1 hstop g5, by omega⟩
        · intro hop
          exact tr_pure ⟨fun top => .parOdd rfl htp hg (asTyp_iff.1 hu) harr (by simpa using hop), by omega⟩
    · cases hg with
      | plistNil => exact tr_pure ⟨fun top => .parNone rfl htp harr, by omega⟩
    · exact tr_fail

theorem arr_spec (H : Specs C n) (t : Nd X) (s : List Tok) : Tr (arrLoop (run C n) t) s
    (fun t' r => G C true (.suf t t') s r ∧ r.length ≤ s.length ∧ (hd r).k ≠ .brackL) (n + 1 < 6 * s.length + 1) := by
  unfold arrLoop
  refine tr_bind (tr_peek (tr_ite ?_ ?_))
  · intro h
    refine tr_bind (tr_next h (by decide) ?_)
    rintro nl s1 rfl
    refine tr_bind (tr_peek (tr_ite ?_ ?_))
    · intro _
      refine tr_bind (tr_mono (H.typ _ s1) ?_ (by simp; omega))
      rintro i m ⟨hi, hm⟩
      refine tr_bind (tr_must (by decide) ?_)
      rintro b m' rfl
      simp only [List.length_cons] at hm
      refine tr_mono (H.arr _ m') ?_ (by simp; omega)
      rintro t' r ⟨g, hr, hb⟩
      exact ⟨.sufIdx (by simp) (hi _) g, by simp; omega, hb⟩
    · intro h2
      refine tr_bind (tr_next (by simpa using h2) (by decide) ?_)
      rintro b m' rfl
      refine tr_mono (H.arr _ m') ?_ (by simp; omega)
      rintro t' r ⟨g, hr, hb⟩
      exact ⟨.sufArr (by simp) g, by simp; omega, hb⟩
  · intro h
    exact tr_pure ⟨.sufNil, Nat.le_refl _, h⟩

theorem args_spec (H : Specs C n) (c : Bool) (acc : List (Nd X)) (s : List Tok) : Tr (argLoop C (run C n) c acc) s
    (fun l r => ∃ l', l = acc ++ l' ∧ r.length < s.length ∧
    (G C true (.args c l') s r ∨ (l' = [] ∧ acc ≠ [] ∧ ∃ a, s = ⟨.gt, a⟩ :: r))) (n + 1 < 6 * s.length + 4) := by
  unfold argLoop
  refine tr_bind (tr_peek (tr_ite ?_ ?_))
  · intro h
    refine tr_bind (tr_next h (by decide) ?_)
    rintro nl s' rfl
    refine tr_ite (fun _ => tr_fail) fun ha => ?_
    exact tr_pure ⟨[], by simp, by simp, .inr ⟨rfl, by simpa using ha, _, rfl⟩⟩
  · intro _
    refine tr_ite ?_ (fun _ => tr_fail)
    intro hst
    refine tr_bind ?_
    unfold argM
    refine tr_bind (tr_mono (H.typ _ s) ?_ (by omega))
    rintro t m ⟨ht, hm⟩
    have hext : Tr (argExt C (run C n) t) m (fun t' m' => G C true (.arg c t') s m' ∧ m'.length < s.length) (n + 1 < 6 * s.length + 4) := by
      unfold argExt
      refine tr_bind (tr_peek (tr_ite ?_ ?_))
      · intro he
        cases hn : toName C t with
        | none => exact tr_fail
        | some v =>
          refine tr_bind (tr_next he (by decide) ?_)
          rintro nl m1 rfl
          simp only [List.length_cons] at hm
          refine tr_bind (tr_mono (H.typ _ m1) ?_ (by omega))
          rintro u m2 ⟨hu, hm2⟩
          exact tr_pure ⟨.argExt rfl (startsArg_iff.1 hst) (ht _) (toName_iff.1 hn) (hu _), by omega⟩
      · intro he
        exact tr_pure ⟨.arg (startsArg_iff.1 hst) (ht _) he, hm⟩
    refine tr_mono hext ?_ id
    rintro t' m' ⟨ht', hm'⟩
    refine tr_bind (tr_peek (tr_ite ?_ ?_))
    · intro hc
      refine tr_bind (tr_next hc (by decide) ?_)
      rintro nl m1 rfl
      simp only [List.length_cons] at hm'
      refine tr_mono (H.args c _ m1) ?_ (by omega)
      rintro l r ⟨l', rfl, hr, hg | ⟨rfl, -, b, rfl⟩⟩
      · exact ⟨t' :: l', by simp, by omega, .inl (.argsCons ht' hg)⟩
      · exact ⟨[t'], by simp, by omega, .inl (.argsComma rfl ht')⟩
    · intro _
      refine tr_ite ?_ (fun _ => tr_fail)
      intro hg
      refine tr_bind (tr_next hg (by decide) ?_)
      rintro nl m1 rfl
      simp only [List.length_cons] at hm'
      exact tr_pure ⟨[t'], rfl, by omega, .inl (.argsLast ht')⟩

theorem mem_spec (H : Specs C n) (b : Bool) (s : List Tok) : Tr (member (run C n) b) s
    (fun t r => G C true (.mem b t) s r ∧ r.length < s.length) (n + 1 < 6 * s.length + 4) := by
  unfold member
  refine tr_bind (tr_peek (tr_ite ?_ ?_))
  · intro h
    refine tr_bind (tr_next h (by decide) ?_)
    rintro nl s' rfl
    refine tr_bind (tr_mono (H.mem b s') ?_ (by simp; omega))
    rintro t r ⟨ht, hr⟩
    refine tr_ite ?_ (fun _ => tr_fail)
    intro hok
    exact tr_pure ⟨.memRest ht hok, by simp; omega⟩
  · intro hd0
    refine tr_bind (tr_mono (H.typ _ s) ?_ (by omega))
    rintro t m ⟨ht, hm⟩
    refine tr_bind (tr_peek (tr_ite ?_ ?_))
    · intro hc
      cases hl : label t with
      | none => exact tr_fail
      | some v =>
        refine tr_bind (tr_next hc (by decide) ?_)
        rintro nl m1 rfl
        simp only [List.length_cons] at hm
        refine tr_bind (tr_mono (H.typ _ m1) ?_ (by omega))
        rintro u r ⟨hu, hr⟩
        exact tr_pure ⟨.memNamed hd0 (ht _) (word_iff.1 hl) (hu _), by omega⟩
    · intro hnc
      refine tr_ite ?_ ?_
      · intro hh
        cases hl : label t with
        | some v =>
          refine tr_bind (tr_next hh (by decide) ?_)
          rintro nl m1 rfl
          simp only [List.length_cons] at hm
          refine tr_bind (tr_peek (tr_ite ?_ ?_))
          · intro hc
            refine tr_bind (tr_next hc (by decide) ?_)
            rintro nl m2 rfl
            simp only [List.length_cons] at hm
            refine tr_bind (tr_mono (H.typ _ m2) ?_ (by omega))
            rintro u r ⟨hu, hr⟩
            exact tr_pure ⟨.memNamedOpt hd0 (ht _) (word_iff.1 hl) (hu _), by omega⟩
          · intro hc
            refine tr_pure ⟨.memOpt hd0 (ht _) (.inl hc) ?_, by omega⟩
            cases t <;> simp [label] at hl <;> rfl
        | none =>
          refine tr_ite ?_ (fun _ => tr_fail)
          intro hip
          refine tr_bind (tr_next hh (by decide) ?_)
          rintro nl m1 rfl
          simp only [List.length_cons] at hm
          exact tr_pure ⟨.memOpt hd0 (ht _) (.inr (no_word.1 hl)) hip, by omega⟩
      · intro hh
        exact tr_pure ⟨.mem hd0 (ht _) hnc hh, hm⟩

/-! ## Tuples -/

theorem snoc_cases {α : Type} (l : List α) : l = [] ∨ ∃ l' a, l = l' ++ [a] := by
  cases h : l.reverse with
  | nil => exact .inl (by simpa using h)
  | cons a t => exact .inr ⟨t.reverse, a, by rw [← List.reverse_reverse l, h]; simp⟩

theorem optLast_init {l : List (Nd X)} {m : Nd X} (h : OptLast (l ++ [m])) : OptLast l := by
  intro a x b y c e hx
  exact h a x b y (c ++ [m]) (by rw [e]; simp) hx

theorem optAfter_of (k : Nat) : ∀ l : List (Nd X), l.length = k → OptLast l → (∃ m ∈ l, isOpt m = true) → optAfter l = true := by
  induction k with
  | zero =>
    rintro l hl - ⟨m, hm, -⟩
    rw [List.length_eq_zero_iff.mp hl] at hm; cases hm
  | succ k ih =>
    rintro l hl ho ⟨x, hx, hxo⟩
    rcases snoc_cases l with rfl | ⟨l', m, rfl⟩
    · cases hx
    · have hk : l'.length = k := by simpa using hl
      by_cases hm : isOpt m = true
      · cases m <;> simp [isOpt] at hm <;> simp [optAfter, hm]
      · have hx' : x ∈ l' := by
          rcases List.mem_append.mp hx with h | h
          · exact h
          · rw [List.mem_singleton.mp h] at hxo; exact absurd hxo hm
        have h1 : optAfter l' = true := ih l' hk (optLast_init ho) ⟨x, hx', hxo⟩
        obtain ⟨a, b, rfl⟩ := List.append_of_mem hx'
        have h2 := ho a x b m [] (by simp) hxo
        rcases h2 with h2 | h2
        · exact absurd h2 hm
        · cases m <;> simp [isRest] at h2
          unfold optAfter at h1 ⊢
          rw [List.foldl_append, h1]; rfl

theorem optLast_snoc {l : List (Nd X)} {m : Nd X} (h : OptLast l) (hm : mayFollow l m = true) : OptLast (l ++ [m]) := by
  intro a x b y c e hx
  rcases snoc_cases c with rfl | ⟨c', z, rfl⟩
  · have e' : l ++ [m] = (a ++ x :: b) ++ [y] := by rw [e]; simp
    obtain ⟨rfl, hy⟩ := List.append_inj' e' rfl
    have hy : m = y := by simpa using hy
    subst hy
    have hopt := optAfter_of _ _ rfl h ⟨x, by simp, hx⟩
    unfold mayFollow at hm
    cases m <;> simp [hopt] at hm <;> simp [isOpt, isRest]
    exact hm
  · have e' : l ++ [m] = (a ++ x :: (b ++ y :: c')) ++ [z] := by rw [e]; simp
    obtain ⟨rfl, -⟩ := List.append_inj' e' rfl
    exact h a x b y c' rfl hx

theorem namesAgree_of {l : List (Nd X)} (h : allNamed l = true) : NamesAgree l := by
  rw [namesAgree_iff]
  rintro ⟨m, hm, hn⟩ x hx
  unfold allNamed at h
  rw [Bool.or_eq_true] at h
  rcases h with h | h
  · have : l.any isNamed = true := List.any_eq_true.mpr ⟨m, hm, hn⟩
    rw [this] at h; cases h
  · exact List.all_eq_true.mp h x hx

theorem mems_spec (H : Specs C n) (b : Bool) (acc : List (Nd X)) (s : List Tok) (hacc : OptLast acc ∧ NamesAgree acc) :
    Tr (memLoop (run C n) b acc) s (fun l r => ∃ l', l = acc ++ l' ∧ G C true (.mems b l') s r ∧
    r.length < s.length ∧ OptLast l ∧ NamesAgree l) (n + 1 < 6 * s.length + 5) := by
  unfold memLoop
  refine tr_bind (tr_peek (tr_ite ?_ ?_))
  · intro h
    refine tr_bind (tr_next h (by decide) ?_)
    rintro nl s' rfl
    exact tr_pure ⟨[], by simp, .memsNil, by simp, hacc⟩
  · intro hb
    refine tr_bind (tr_mono (H.mem b s) ?_ (by omega))
    rintro t m ⟨ht, hm⟩
    refine tr_ite ?_ (fun _ => tr_fail)
    intro hmf
    have hol := optLast_snoc hacc.1 hmf
    refine tr_bind (tr_peek (tr_ite ?_ ?_))
    · intro hc
      refine tr_bind (tr_next hc (by decide) ?_)
      rintro nl m1 rfl
      simp only [List.length_cons] at hm
      refine tr_ite ?_ (fun _ => tr_fail)
      intro hall
      refine tr_mono (H.mems b _ m1 ⟨hol, namesAgree_of hall⟩) ?_ (by omega)
      rintro l r ⟨l', rfl, g, hr, h1, h2⟩
      exact ⟨t :: l', by simp, .memsCons hb ht g, by omega, h1, h2⟩
    · intro hc
      refine tr_ite ?_ (fun _ => tr_fail)
      intro hall
      refine tr_mono (H.mems b _ m ⟨hol, namesAgree_of hall⟩) ?_ (by omega)
      rintro l r ⟨l', rfl, g, hr, h1, h2⟩
      exact ⟨t :: l', by simp, .memsNext hb ht hc (by simp) g, by omega, h1, h2⟩

/-! ## Names and what comes after -/

theorem identKw_spec (s : List Tok) {D : Prop} : Tr identKw s (fun v r => ∃ k nl, s = ⟨k, nl⟩ :: r ∧ word k = some v) D := by
  cases s with
  | nil => trivial
  | cons x s' =>
    obtain ⟨k, nl⟩ := x
    cases k <;> simp [Tr, identKw, kwText, ident, hd, word]

theorem nameLoop_spec (k : Nat) : ∀ (m : Name) (s : List Tok), s.length ≤ k → ∀ {D : Prop},
    Tr (nameLoop k m) s (fun m' r => Dots m m' s r ∧ r.length ≤ s.length) D := by
  induction k with
  | zero =>
    intro m s hs D
    rw [List.length_eq_zero_iff.mp (Nat.le_zero.mp hs)]
    exact ⟨.nil (by simp [hd]), Nat.le_refl _⟩
  | succ k ih =>
    intro m s hs D
    have e : nameLoop (k + 1) m s = (if (hd s).k = .dot then (do next; let v ← identKw; nameLoop k (.dot m v)) else pure m : M Name) s := by
      by_cases h : (hd s).k = .dot
      · rw [nameLoop, if_pos h]; exact if_pos h
      · rw [nameLoop, if_neg h]; exact if_neg h
    unfold Tr
    rw [e]
    refine tr_ite (m := do next; let v ← identKw; nameLoop k (.dot m v)) (n := pure m) (s := s)
      (Q := fun m' r => Dots m m' s r ∧ r.length ≤ s.length) (D := D) ?_ ?_
    · intro h
      refine tr_bind (tr_next h (by decide) ?_)
      rintro nl s' rfl
      refine tr_bind (tr_mono (identKw_spec s') ?_ id)
      rintro v r ⟨k', nl', rfl, hw⟩
      simp only [List.length_cons] at hs
      refine tr_mono (ih _ r (by omega)) ?_ id
      rintro m' r' ⟨hd', hr'⟩
      exact ⟨.cons hw hd', by simp; omega⟩
    · intro h
      exact tr_pure ⟨.nil h, Nat.le_refl _⟩

theorem typName_some (m : Name) (s : List Tok) {D : Prop} :
    Tr (typName (some m)) s (fun m' r => Dots m m' s r ∧ r.length ≤ s.length) D := by
  unfold typName firstName
  refine tr_bind (tr_pure ?_)
  exact nameLoop_spec _ m s (Nat.le_refl _)

theorem typName_none (s : List Tok) {D : Prop} :
    Tr (typName none) s (fun m' r => ∃ k nl s' v, s = ⟨k, nl⟩ :: s' ∧ word k = some v ∧ Dots (.id v) m' s' r ∧ r.length < s.length) D := by
  unfold typName firstName
  refine tr_bind (tr_bind (tr_mono (identKw_spec s) ?_ id))
  rintro v r ⟨k, nl, rfl, hw⟩
  refine tr_pure (tr_mono (nameLoop_spec _ (.id v) r (Nat.le_refl _)) ?_ id)
  rintro m' r' ⟨h1, h2⟩
  exact ⟨k, nl, r, v, rfl, hw, h1, by simp; omega⟩

theorem suffix_spec (H : Specs C n) (F : Fl) (t : Nd X) (s m : List Tok) (hb : G C true (.base F t) s m) (hm : m.length < s.length) :
    Tr (suffix (run C n) F t) m (fun t r => (∀ top, G C true (.prim F top t) s r) ∧ r.length < s.length) (n + 1 < 6 * s.length + 1) := by
  unfold suffix
  refine tr_bind (tr_peek (tr_ite ?_ ?_))
  · rintro ⟨h1, h2⟩
    refine tr_mono (H.arr t m) ?_ (by omega)
    rintro t' r ⟨g, hr, hk⟩
    exact ⟨fun top => .array hb h1 h2 g hk, by omega⟩
  · intro h1
    refine tr_ite ?_ ?_
    · rintro ⟨h2, h3⟩
      unfold conditional
      refine tr_bind (tr_must (by decide) ?_)
      rintro a m1 rfl
      simp only [List.length_cons] at hm
      refine tr_bind (tr_mono (H.typ _ m1) ?_ (by omega))
      rintro e m2 ⟨he, hm2⟩
      refine tr_bind (tr_must (by decide) ?_)
      rintro b m3 rfl
      simp only [List.length_cons] at hm2
      refine tr_bind (tr_mono (H.typ _ m3) ?_ (by omega))
      rintro x m4 ⟨hx, hm4⟩
      refine tr_bind (tr_must (by decide) ?_)
      rintro c m5 rfl
      simp only [List.length_cons] at hm4
      refine tr_bind (tr_mono (H.typ _ m5) ?_ (by omega))
      rintro y m6 ⟨hy, hm6⟩
      exact tr_pure ⟨fun top => .cond (.inl rfl) h3 hb (he _) (hx _) (hy _), by omega⟩
    · intro h2
      exact tr_pure ⟨fun top => .plain hb h1 h2, hm⟩

theorem construct_spec (T : C.Takes) (H : Specs C n) (abs : Bool) (s : List Tok) (hs : (hd s).k = .new_) : Tr (construct C (run C n) abs) s
    (fun t r => G C true (.ctor abs t) s r ∧ r.length < s.length) (n + 1 < 6 * s.length + 1) := by
  unfold construct
  refine tr_bind (tr_next hs (by decide) ?_)
  rintro nl s0 rfl
  refine tr_bind (tr_mono (tpars_spec T s0) ?_ id)
  rintro tp s1 ⟨htp, hl1⟩
  refine tr_bind (tr_must (by decide) ?_)
  rintro a s2 rfl
  simp only [List.length_cons] at hl1
  refine tr_bind (tr_mono (H.params _ s2) ?_ (by simp; omega))
  rintro l m ⟨l', rfl, hg, hm⟩
  refine tr_bind (tr_must (by decide) ?_)
  rintro b m1 rfl
  simp only [List.length_cons] at hm
  refine tr_bind (tr_mono (H.typ _ m1) ?_ (by simp; omega))
  rintro t r ⟨ht, hr⟩
  refine tr_pure ⟨?_, by simp; omega⟩
  exact .ctor htp hg (ht _)

theorem typArgs_spec (H : Specs C n) (c : Bool) (s : List Tok) (hs : (hd s).k = .lt) : Tr (typArgs (run C n) c) s
    (fun l r => ∃ a m, s = ⟨.lt, a⟩ :: m ∧ G C true (.args c l) m r ∧ r.length < s.length) (n + 1 < 6 * s.length + 1) := by
  unfold typArgs
  refine tr_bind (tr_next hs (by decide) ?_)
  rintro a m rfl
  refine tr_mono (H.args c [] m) ?_ (by simp; omega)
  rintro l r ⟨l', rfl, hr, hg | ⟨-, h, -⟩⟩
  · exact ⟨a, m, rfl, hg, by simp; omega⟩
  · exact absurd rfl h

/-- A predicate after a name that is not `asserts`. -/
theorem predicate_spec (H : Specs C n) (w : Who) (m : List Tok) :
    Tr (predicate (run C n) w false false) m (fun t r => r.length ≤ m.length ∧
      ((t = .pred false w ∧ r = m ∧ (hd m).k ≠ .name "is") ∨
        ∃ b m1 u, m = ⟨.name "is", b⟩ :: m1 ∧ t = .predTy false w u ∧ ∀ top, G C true (.typ no top u) m1 r)) (n + 1 < 6 * m.length + 1) := by
  unfold predicate about
  refine tr_bind ?_
  rw [if_neg (by simp)]
  refine tr_pure (tr_bind (tr_peek (tr_ite ?_ ?_)))
  · intro h
    refine tr_bind (tr_next h (by decide) ?_)
    rintro b m1 rfl
    refine tr_bind (tr_mono (H.typ _ m1) ?_ (by simp; omega))
    rintro u r ⟨hu, hr⟩
    exact tr_pure ⟨by simp; omega, .inr ⟨b, m1, u, rfl, rfl, hu⟩⟩
  · intro h
    exact tr_pure ⟨Nat.le_refl _, .inl ⟨rfl, rfl, h⟩⟩

/-- A predicate after `asserts`. -/
theorem asserts_spec (H : Specs C n) (F : Fl) (w : Who) (this a : Bool) (m : List Tok) (hm : (hd m).k = .this_ ↔ this = true) :
    Tr (predicate (run C n) w true this) m (fun t r => G C true (.base F t) (⟨.name "asserts", a⟩ :: m) r ∧ r.length < m.length)
      (n + 1 < 6 * m.length + 1) := by
  unfold predicate about
  refine tr_bind ?_
  rw [if_pos rfl]
  refine tr_ite ?_ ?_
  · intro hthis
    refine tr_bind (tr_next (hm.mpr hthis) (by decide) ?_)
    rintro b m1 rfl
    refine tr_pure (tr_bind (tr_peek (tr_ite ?_ ?_)))
    · intro h
      refine tr_bind (tr_next h (by decide) ?_)
      rintro c m2 rfl
      refine tr_bind (tr_mono (H.typ _ m2) ?_ (by simp; omega))
      rintro u r ⟨hu, hr⟩
      exact tr_pure ⟨.assertsThisIs (by simp) (hu _), by simp; omega⟩
    · intro h
      exact tr_pure ⟨.assertsThis (by simp) h, by simp⟩
  · intro hthis
    refine tr_bind ?_
    have hid : Tr ident m (fun v r => ∃ b, m = ⟨.name v, b⟩ :: r) (n + 1 < 6 * m.length + 1) := by
      unfold Tr ident
      cases h : (hd m).k with
      | name v =>
        obtain ⟨nl, s', rfl⟩ := of_hd h (by simp)
        exact ⟨nl, rfl⟩
      | _ => trivial
    refine tr_mono hid ?_ id
    rintro v m1 ⟨b, rfl⟩
    refine tr_pure (tr_bind (tr_peek (tr_ite ?_ ?_)))
    · intro h
      refine tr_bind (tr_next h (by decide) ?_)
      rintro c m2 rfl
      refine tr_bind (tr_mono (H.typ _ m2) ?_ (by simp; omega))
      rintro u r ⟨hu, hr⟩
      exact tr_pure ⟨.assertsIs (by simp) (hu _), by simp; omega⟩
    · intro h
      exact tr_pure ⟨.asserts (by simp) h, by simp⟩

theorem dots_refl {m m' : Name} {s r : List Tok} (h : Dots m m' s r) (v : String) (e : m' = .id v) : m = .id v ∧ s = r := by
  have key : ∀ {m m' : Name} {s r : List Tok}, Dots m m' s r → (m = m' ∧ s = r) ∨ ∃ a b, m' = .dot a b := by
    intro m m' s r h
    induction h with
    | nil _ => exact .inl ⟨rfl, rfl⟩
    | cons _ _ ih =>
      rcases ih with ⟨rfl, -⟩ | h
      · exact .inr ⟨_, _, rfl⟩
      · exact .inr h
  rcases key h with ⟨rfl, rfl⟩ | ⟨a, b, rfl⟩
  · exact ⟨e, rfl⟩
  · cases e

/-- A name of a type, after the first word. -/
theorem refName_spec (H : Specs C n) (F : Fl) (v : String) (a : Bool) (s : List Tok) (hf : Free v (hd s))
    (hb : builtin v = true → (hd s).k = .dot) : Tr (ref (run C n) (some (.id v))) s
    (fun t r => G C true (.base F t) (⟨.name v, a⟩ :: s) r ∧ r.length ≤ s.length) (n + 1 < 6 * s.length + 1) := by
  unfold ref
  refine tr_bind (tr_mono (typName_some _ s) ?_ id)
  rintro m r ⟨hd1, hl⟩
  refine tr_bind (tr_peek (tr_ite ?_ ?_))
  · intro h
    by_cases hm : m = .id "asserts"
    · obtain ⟨e, rfl⟩ := dots_refl hd1 _ hm
      cases e
      rw [decide_eq_true hm]
      refine tr_mono (asserts_spec H F _ _ a s ?_) ?_ (by omega)
      · simp
      · rintro t r' ⟨g, hr⟩
        exact ⟨g, by omega⟩
    · have htext : textIs (hd r).k = true := by
        rcases h with ⟨h, -⟩ | h
        · exact absurd (of_decide_eq_true h) hm
        · exact h
      rw [decide_eq_false hm]
      have hthis : (hd r).k ≠ .this_ := by intro h'; rw [h'] at htext; cases htext
      rw [decide_eq_false hthis]
      refine tr_mono (predicate_spec H _ r) ?_ (by omega)
      rintro t r' ⟨hr, ⟨rfl, rfl, h1⟩ | ⟨b, m1, u, rfl, rfl, hu⟩⟩
      · exact ⟨.isText rfl hm hd1 htext h1, by omega⟩
      · exact ⟨.is_ hf (by simp) hb hm hd1 (hu _), by omega⟩
  · intro h
    have h1 : ¬(m = .id "asserts" ∧ (isName (hd r).k = true ∨ (hd r).k = .this_)) := fun ⟨x, y⟩ => h (.inl ⟨decide_eq_true x, y⟩)
    have h2 : textIs (hd r).k = false := by
      cases hh : textIs (hd r).k with
      | false => rfl
      | true => exact absurd (.inr hh) h
    refine tr_ite ?_ ?_
    · intro hlt
      exact tr_pure ⟨.ref hf hb hd1 h1 h2 hlt, hl⟩
    · intro hlt
      refine tr_bind (tr_mono (typArgs_spec H false r (by simpa using hlt)) ?_ (by omega))
      rintro l r' ⟨b, m1, rfl, hg, hr⟩
      exact tr_pure ⟨.app hf hb hd1 hg, by omega⟩

/-- `const` as a type. -/
theorem refConst_spec (H : Specs C n) (F : Fl) (a : Bool) (s : List Tok) (hc : F.const_ = true) : Tr (ref (run C n) none) (⟨.const_, a⟩ :: s)
    (fun t r => G C true (.base F t) (⟨.const_, a⟩ :: s) r ∧ r.length ≤ s.length) (n + 1 < 6 * (s.length + 1) + 1) := by
  unfold ref
  refine tr_bind (tr_mono (typName_none _) ?_ id)
  rintro m r ⟨k, nl, s', v, e, hw, hd1, hl⟩
  cases e
  cases hw
  have hl' : r.length ≤ s.length := by simp at hl; omega
  have hm : m ≠ .id "asserts" := by
    intro h
    obtain ⟨e, -⟩ := dots_refl hd1 _ h
    exact absurd e (by decide)
  rw [decide_eq_false hm]
  refine tr_bind (tr_peek (tr_ite ?_ ?_))
  · rintro (⟨h, -⟩ | htext)
    · cases h
    have hthis : (hd r).k ≠ .this_ := by intro h'; rw [h'] at htext; cases htext
    rw [decide_eq_false hthis]
    refine tr_mono (predicate_spec H _ r) ?_ (by omega)
    rintro t r' ⟨hr, ⟨rfl, rfl, h1⟩ | ⟨b, m1, u, rfl, rfl, hu⟩⟩
    · exact ⟨.constText rfl hc hd1 htext h1, by omega⟩
    · exact ⟨.constIs rfl hc hd1 (hu _), by omega⟩
  · intro h
    have h2 : textIs (hd r).k = false := by
      cases hh : textIs (hd r).k with
      | false => rfl
      | true => exact absurd (.inr hh) h
    refine tr_ite ?_ ?_
    · intro hlt
      exact tr_pure ⟨.const_ hc hd1 h2 hlt (by simp), hl'⟩
    · intro hlt
      refine tr_bind (tr_mono (typArgs_spec H false r (by simpa using hlt)) ?_ (by omega))
      rintro l r' -
      exact tr_crash

theorem free_of {v : String} {b : Bool} {s : List Tok} (h1 : ¬((K.name v) = .name "abstract" ∧ (hd s).nl = false ∧ (hd s).k = .new_))
    (h2 : ¬(K.name v) = .name "infer") (h3 : ¬((K.name v) = .name "keyof" ∨ (K.name v) = .name "unique"))
    (h4 : aheadIsRo (.name v) (hd s).k = some b) (hb : b = false) : Free v (hd s) := by
  subst hb
  simp only [K.name.injEq] at h1 h2 h3
  refine ⟨h2, fun h => h3 (.inl h), fun h => h3 (.inr h), fun ⟨x, y, z⟩ => h1 ⟨x, z, y⟩, ?_⟩
  rintro rfl
  unfold aheadIsRo at h4
  rw [if_pos rfl] at h4
  split at h4
  · cases h4
  · split at h4
    · cases h4
    · rename_i h; simpa using h

theorem primName_spec (T : C.Takes) (H : Specs C n) (F : Fl) (s : List Tok)
    (hs : (∃ v, (hd s).k = .name v) ∨ (hd s).k = .void ∨ ((hd s).k = .const_ ∧ F.const_ = true)) :
    Tr (primName C (run C n) F (hd s)) s (fun t r => (∀ top, G C true (.prim F top t) s r) ∧ r.length < s.length) (n + 1 < 6 * s.length + 1) := by
  have hne : s ≠ [] := by
    rintro rfl
    rcases hs with ⟨v, h⟩ | h | ⟨h, -⟩ <;> cases h
  obtain ⟨⟨k, a⟩, s1, rfl⟩ := List.exists_cons_of_ne_nil hne
  have hk : (hd (⟨k, a⟩ :: s1)).k = k := rfl
  rw [hk] at hs
  unfold primName
  refine tr_bind (tr_peek2 ?_)
  rw [hk, List.tail_cons]
  refine tr_ite ?_ ?_
  · rintro ⟨rfl, h2, h3⟩
    refine tr_bind (tr_next hk (by decide) ?_)
    intro nl s' e
    cases e
    refine tr_mono (construct_spec T H true s1 h3) ?_ (by simp; omega)
    rintro t r ⟨g, hr⟩
    exact ⟨fun top => .absNew h2 g, by simp; omega⟩
  intro h1
  refine tr_ite ?_ ?_
  · rintro rfl
    refine tr_bind (tr_next hk (by decide) ?_)
    intro nl s' e
    cases e
    refine tr_bind (tr_mono (typName_none s1) ?_ id)
    rintro m r ⟨k', nl', s2, v, rfl, hw, hd1, hr⟩
    exact suffix_spec H F _ _ _ (.infer hw hd1) (by simp at hr ⊢; omega)
  intro h2
  refine tr_ite ?_ ?_
  · intro h3
    refine tr_bind (tr_next hk (by rcases h3 with rfl | rfl <;> decide) ?_)
    intro nl s' e
    cases e
    refine tr_bind (tr_mono (H.typ _ s1) ?_ (by simp; omega))
    rintro t m ⟨ht, hm⟩
    refine suffix_spec H F _ _ _ ?_ (by simp; omega)
    rcases h3 with rfl | rfl
    · exact .op (.inl rfl) (ht _)
    · exact .op (.inr rfl) (ht _)
  intro h3
  cases hro : aheadIsRo k (hd s1).k with
  | none => exact tr_fail
  | some b =>
    cases b with
    | true =>
      have hkr : k = .name "readonly" ∧ ((hd s1).k = .brackL ∨ (isName (hd s1).k = true ∧ (hd s1).k ≠ .name "readonly")) := by
        unfold aheadIsRo at hro
        split at hro
        · rename_i hk'
          split at hro
          · exact ⟨hk', ‹_›⟩
          · split at hro <;> cases hro
        · cases hro
      obtain ⟨rfl, hb⟩ := hkr
      refine tr_bind (tr_next hk (by decide) ?_)
      intro nl s' e
      cases e
      refine tr_bind (tr_mono (H.prim _ s1) ?_ (by simp; omega))
      rintro t m ⟨ht, hm⟩
      split
      · exact tr_pure ⟨fun top => .readonly hb (ht _) (.inl ⟨_, rfl⟩), by simp; omega⟩
      · exact tr_pure ⟨fun top => .readonly hb (ht _) (.inr ⟨_, rfl⟩), by simp; omega⟩
      · exact tr_fail
    | false =>
      refine tr_bind ?_
      unfold predefOrRef
      refine tr_bind (tr_peek ?_)
      rw [hk]
      rcases hs with ⟨v, rfl⟩ | rfl | ⟨rfl, hc⟩
      · have hfree := free_of h1 h2 h3 hro rfl
        refine tr_bind (tr_next hk (by simp) ?_)
        intro nl s' e
        cases e
        refine tr_bind (tr_peek (tr_ite ?_ ?_))
        · rintro ⟨hb, hdot⟩
          exact tr_pure (suffix_spec H F _ _ _ (.predef hb hdot) (by simp))
        · intro hb
          refine tr_mono (refName_spec H F v a s1 hfree (fun h => Classical.byContradiction fun h' => hb ⟨h, h'⟩)) ?_ (by simp; omega)
          rintro t r ⟨g, hr⟩
          exact suffix_spec H F _ _ _ g (by simp; omega)
      · refine tr_bind (tr_next hk (by simp) ?_)
        intro nl s' e
        cases e
        refine tr_bind (tr_peek (tr_ite ?_ ?_))
        · intro hdot
          exact tr_pure (suffix_spec H F _ _ _ (.void hdot) (by simp))
        · intro hdot
          unfold ref
          refine tr_bind (tr_mono (typName_none s1) ?_ id)
          rintro m r ⟨k', nl', s2, v, rfl, hw, -, -⟩
          have : k' = .dot := by simpa [hd] using hdot
          subst this
          cases hw
      · refine tr_mono (refConst_spec H F a s1 hc) ?_ (by simp)
        rintro t r ⟨g, hr⟩
        exact suffix_spec H F _ _ _ g (by simp; omega)

theorem import_spec (H : Specs C n) (F : Fl) (s : List Tok) (hs : (hd s).k = .import_) : Tr (importTyp (run C n)) s
    (fun t r => (∀ top, G C true (.prim F top t) s r) ∧ r.length < s.length) (n + 1 < 6 * s.length + 1) := by
  unfold importTyp
  refine tr_bind (tr_next hs (by decide) ?_)
  rintro a s1 rfl
  refine tr_bind (tr_must (by decide) ?_)
  rintro b s2 rfl
  refine tr_bind (tr_peek ?_)
  split
  · rename_i v hv
    refine tr_bind (tr_next hv (by simp) ?_)
    rintro c s3 rfl
    refine tr_bind (tr_must (by decide) ?_)
    rintro d s4 rfl
    refine tr_bind ?_
    unfold qualifier
    refine tr_bind (tr_peek (tr_ite ?_ ?_))
    · intro hdot
      refine tr_bind (tr_next hdot (by decide) ?_)
      rintro e s5 rfl
      refine tr_bind (tr_mono (typName_none s5) ?_ id)
      rintro m r ⟨k, f, s6, w, rfl, hw, hd1, hr⟩
      simp only [List.length_cons] at hr
      refine tr_pure (tr_bind (tr_peek (tr_ite ?_ ?_)))
      · intro hlt
        refine tr_bind (tr_mono (typArgs_spec H true r hlt) ?_ (by simp; omega))
        rintro l r' ⟨g, m1, rfl, hg, hr'⟩
        exact tr_pure ⟨fun top => .impNameArgs hw hd1 hg, by simp; omega⟩
      · intro hlt
        exact tr_pure ⟨fun top => .impName hw hd1 hlt, by simp; omega⟩
    · intro hdot
      refine tr_pure (tr_bind (tr_peek (tr_ite ?_ ?_)))
      · intro hlt
        refine tr_bind (tr_mono (typArgs_spec H true s4 hlt) ?_ (by simp; omega))
        rintro l r' ⟨g, m1, rfl, hg, hr'⟩
        exact tr_pure ⟨fun top => .impArgs hg, by simp at hr' ⊢; omega⟩
      · intro hlt
        exact tr_pure ⟨fun top => .imp hdot hlt, by simp; omega⟩
  · exact tr_fail

theorem prim_spec (T : C.Takes) (H : Specs C n) (F : Fl) (s : List Tok) : Tr (prim C (run C n) F) s
    (fun t r => (∀ top, G C true (.prim F top t) s r) ∧ r.length < s.length) (n + 1 < 6 * s.length + 1) := by
  unfold prim
  refine tr_bind (tr_peek ?_)
  have hpar : Tr (do let t ← paren C (run C n); let t ← (run C n).arr t; return unwrap t) s
      (fun t r => (∀ top, G C true (.prim F top t) s r) ∧ r.length < s.length) (n + 1 < 6 * s.length + 1) := by
    refine tr_bind (tr_mono (paren_spec T H s) ?_ id)
    rintro t m ⟨ht, hm⟩
    refine tr_bind (tr_mono (H.arr t m) ?_ (by omega))
    rintro t' r ⟨hg, hr, hb⟩
    exact tr_pure ⟨fun top => .paren (ht _) hg hb, by omega⟩
  cases hk : (hd s).k with
  | parenL => exact hpar
  | lt => exact hpar
  | name v => exact primName_spec T H F s (.inl ⟨v, hk⟩)
  | void => exact primName_spec T H F s (.inr (.inl hk))
  | const_ =>
    refine tr_ite ?_ (fun _ => tr_fail)
    intro hc
    exact primName_spec T H F s (.inr (.inr ⟨hk, hc⟩))
  | null =>
    refine tr_bind (tr_next hk (by decide) ?_)
    rintro a s1 rfl
    exact tr_pure ⟨fun top => .null, by simp⟩
  | tru =>
    refine tr_bind (tr_next hk (by decide) ?_)
    rintro a s1 rfl
    exact tr_pure ⟨fun top => .lit (.inl rfl), by simp⟩
  | fls =>
    refine tr_bind (tr_next hk (by decide) ?_)
    rintro a s1 rfl
    exact tr_pure ⟨fun top => .lit (.inr (.inl rfl)), by simp⟩
  | str v =>
    refine tr_bind (tr_next hk (by simp) ?_)
    rintro a s1 rfl
    exact tr_pure ⟨fun top => .lit (.inr (.inr (.inl ⟨v, rfl⟩))), by simp⟩
  | num v =>
    refine tr_bind (tr_next hk (by simp) ?_)
    rintro a s1 rfl
    exact tr_pure ⟨fun top => .lit (.inr (.inr (.inr ⟨v, rfl⟩))), by simp⟩
  | braceL =>
    refine tr_bind (tr_call ?_)
    intro x r hx
    exact suffix_spec H F _ _ _ (.obj hk hx) (T s x r (.inl ⟨_, hx⟩))
  | brackL =>
    refine tr_bind (tr_next hk (by decide) ?_)
    rintro a s1 rfl
    refine tr_bind (tr_mono (H.mems F.rough [] s1 ⟨by intro a m b m' c h; simp at h, by rintro ⟨m, hm, -⟩; cases hm⟩) ?_ (by simp; omega))
    rintro l r ⟨l', rfl, hg, hr, h1, h2⟩
    exact suffix_spec H F _ _ _ (.tuple hg h1 h2) (by simp; omega)
  | typeof_ =>
    refine tr_bind (tr_next hk (by decide) ?_)
    rintro a s1 rfl
    refine tr_bind (tr_mono (H.typ _ s1) ?_ (by simp; omega))
    rintro t m ⟨ht, hm⟩
    exact suffix_spec H F _ _ _ (.query (ht _)) (by simp; omega)
  | this_ =>
    refine tr_bind (tr_next hk (by decide) ?_)
    rintro a s1 rfl
    refine tr_bind (tr_peek (tr_ite ?_ ?_))
    · intro h
      refine tr_bind (tr_mono (predicate_spec H .this s1) ?_ (by simp; omega))
      rintro t r ⟨hr, ⟨-, -, h1⟩ | ⟨b, m1, u, rfl, rfl, hu⟩⟩
      · exact absurd h h1
      · exact suffix_spec H F _ _ _ (.thisIs (by simp) (hu _)) (by simp at hr ⊢; omega)
    · intro h
      exact suffix_spec H F _ _ _ (.this h) (by simp)
  | import_ => exact import_spec H F s hk
  | sub =>
    refine tr_bind (tr_next hk (by decide) ?_)
    rintro a s1 rfl
    refine tr_bind (tr_peek ?_)
    split
    · rename_i v hv
      refine tr_bind (tr_next hv (by simp) ?_)
      rintro b s2 rfl
      exact tr_pure ⟨fun top => .neg, by simp; omega⟩
    · exact tr_fail
  | tpl =>
    refine tr_bind (tr_call ?_)
    intro x r hx
    exact tr_pure ⟨fun top => .tpl hk hx, T s x r (.inr (.inl hx))⟩
  | _ => exact tr_fail

theorem typ_spec (T : C.Takes) (H : Specs C n) (F : Fl) (s : List Tok) : Tr (typ C (run C n) F) s
    (fun t r => (∀ top, G C true (.typ F top t) s r) ∧ r.length < s.length) (n + 1 < 6 * s.length + 3) := by
  unfold typ
  refine tr_bind (tr_peek (tr_ite ?_ ?_))
  · intro h
    refine tr_mono (construct_spec T H false s h) ?_ (by omega)
    rintro t r ⟨g, hr⟩
    exact ⟨fun top => .new g, hr⟩
  · intro h
    exact tr_mono (H.uniN F s) (fun _ _ h => h) (by omega)

/-- What is read is written by the rules, with the departures; the depth of the calls is bounded. -/
theorem specs (T : C.Takes) (n : Nat) : Specs C n := by
  induction n with
  | zero => constructor <;> intros <;> (simp only [Tr, run, outOfFuel]; omega)
  | succ n H =>
    exact
      { typ := typ_spec T H
        uniN := uniN_spec H
        uniS := uniS_spec H
        loop := loop_spec H
        prim := prim_spec T H
        arr := arr_spec H
        args := args_spec H
        mem := mem_spec H
        mems := mems_spec H
        params := params_spec T H }

end Mole.Parser.TsType
