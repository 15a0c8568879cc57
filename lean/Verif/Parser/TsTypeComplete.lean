import Verif.Parser.TsTypeSound

/-! # What is written by the rules is read (for C80) -/

namespace Mole.Parser.TsType
variable {X : Type} {α β : Type} {C : Cfg X} {n : Nat}

/-! ## Steps of the functions -/

theorem x_bind {m : M α} {f : α → M β} {s r : List Tok} {a : α} {o : Out β} (h : m s = .ok a r) (h' : f a r = o) : (m >>= f) s = o := by
  change (match m s with | .ok a r => f a r | .err => .err | .panic => .panic | .fuel => .fuel) = o
  rw [h]; exact h'

theorem x_err {m : M α} {f : α → M β} {s : List Tok} (h : m s = .err) : (m >>= f) s = .err := by
  change (match m s with | .ok a r => f a r | .err => .err | .panic => .panic | .fuel => .fuel) = .err
  rw [h]

theorem x_peek {f : Tok → M β} {s : List Tok} {o : Out β} (h : f (hd s) s = o) : (peek >>= f) s = o := h

theorem x_peek2 {f : Tok → M β} {s : List Tok} {o : Out β} (h : f (hd s.tail) s = o) : (peek2 >>= f) s = o := h

theorem x_next {f : Unit → M β} {x : Tok} {s : List Tok} {o : Out β} (h : f () s = o) : (next >>= f) (x :: s) = o := h

theorem x_must {f : Unit → M β} {k : K} {nl : Bool} {s : List Tok} {o : Out β} (h : f () s = o) : (must k >>= f) (⟨k, nl⟩ :: s) = o :=
  x_bind (by simp [must, hd]) h

theorem x_pure {f : α → M β} {a : α} {s : List Tok} {o : Out β} (h : f a s = o) : (pure a >>= f) s = o := h

theorem x_call {f : X → M β} {g : List Tok → Option (X × List Tok)} {s r : List Tok} {x : X} {o : Out β} (hg : g s = some (x, r))
    (h : f x r = o) : (call g >>= f) s = o :=
  x_bind (by simp [call, hg]) h

theorem x_pos {c : Prop} [Decidable c] {m k : M α} {s : List Tok} {o : Out α} (hc : c) (h : m s = o) : (if c then m else k) s = o := by
  rw [if_pos hc]; exact h

theorem x_neg {c : Prop} [Decidable c] {m k : M α} {s : List Tok} {o : Out α} (hc : ¬c) (h : k s = o) : (if c then m else k) s = o := by
  rw [if_neg hc]; exact h

/-! ## Operators -/

/-- The members are read after their operators. -/
def OpsExec (C : Cfg X) (F : Fl) : List (Bool × Nd X) → List Tok → List Tok → Prop
  | [], s, r => s = r
  | (o, t) :: ms, s, r => ∃ nl s1 m, s = ⟨if o then .bar else .amp, nl⟩ :: s1 ∧ m.length < s1.length ∧
    (∀ n, 6 * s1.length + 1 ≤ n → (run C n).prim F s1 = .ok t m) ∧ OpsExec C F ms m r

theorem opsExec_length {F : Fl} {ms : List (Bool × Nd X)} {s r : List Tok} (h : OpsExec C F ms s r) : r.length ≤ s.length := by
  induction ms generalizing s with
  | nil => rw [show s = r from h]; exact Nat.le_refl _
  | cons x l ih =>
    obtain ⟨nl, s1, m, rfl, h1, -, h2⟩ := h
    have := ih h2
    simp; omega

theorem opsExec_split {F : Fl} {ms ms' : List (Bool × Nd X)} {s r : List Tok} (h : OpsExec C F (ms ++ ms') s r) :
    ∃ m, OpsExec C F ms s m ∧ OpsExec C F ms' m r := by
  induction ms generalizing s with
  | nil => exact ⟨s, rfl, h⟩
  | cons x l ih =>
    obtain ⟨nl, s1, m, rfl, h1, h2, h3⟩ := h
    obtain ⟨m', h4, h5⟩ := ih h3
    exact ⟨m', ⟨nl, s1, m, rfl, h1, h2, h4⟩, h5⟩

theorem opsExec_head {F : Fl} {ms : List (Bool × Nd X)} {s r : List Tok} (h : OpsExec C F ms s r) :
    (ms = [] ∧ s = r) ∨ ∃ o m l, ms = (o, m) :: l ∧ (hd s).k = if o then .bar else .amp := by
  cases ms with
  | nil => exact .inl ⟨rfl, h⟩
  | cons x l =>
    obtain ⟨nl, s1, m, rfl, -⟩ := h
    exact .inr ⟨x.1, x.2, l, rfl, rfl⟩

theorem lead_split (ms : List (Bool × Nd X)) : ∃ a b, ms = a ++ b ∧ (∀ x ∈ a, x.1 = false) ∧ ∀ m l, b ≠ (false, m) :: l := by
  induction ms with
  | nil => exact ⟨[], [], rfl, by simp, by simp⟩
  | cons x l ih =>
    obtain ⟨o, t⟩ := x
    cases o with
    | true => exact ⟨[], _, rfl, by simp, by simp⟩
    | false =>
      obtain ⟨a, b, rfl, h1, h2⟩ := ih
      exact ⟨(false, t) :: a, b, rfl, by simpa using h1, h2⟩

theorem tree_nil (p : Nat) (a : Nd X) : tree p a [] = a := by
  rw [tree_bar p a [] (by simp)]; simp [rest, build]

section
variable {o : Bool} {k : K} {lhs : Option (Nd X)} {nt : Option Bool} {elems : List (Nd X)} {st : St X} {p q x2 : Nat} {r1 : Nd X}
  {ms1 ms2 : List (Bool × Nd X)}

/-- A union or an intersection ends. -/
theorem step_end (hk : k = if o then .bar else .amp) (hst : st.Match lhs nt elems k) (h1 : ∀ x ∈ ms1, x.1 = false)
    (ho : o = false → ms1 = []) (hx : x2 = if o then (if ms1 = [] then 8 else 10) else 10) (hm2 : ∀ m l, ms2 ≠ (false, m) :: l)
    (hq : (ms2 = [] ∧ q = p) ∨ (ms2 ≠ [] ∧ q = 8)) (hlt : q < x2) :
    tree p (mk (nt.getD (k == .bar)) ((if nt.isNone then lhs.toList else elems) ++ [tree q r1 ms1])) ms2 =
      st.mean p ((o, r1) :: (ms1 ++ ms2)) := by
  cases o with
  | true =>
    simp only [if_true] at hk hx
    rw [hx] at hlt
    cases st with
    | b0 l' =>
      obtain ⟨rfl, rfl⟩ := hst
      simp only [St.mean]
      rw [tree_bar _ l' ((true, r1) :: (ms1 ++ ms2)) (by simp), bar_step h1 hm2 hq, if_pos hlt]
      simp [hk, mk]
    | b1 l' es =>
      obtain ⟨-, -, -, -, h10⟩ := hst
      rw [hk] at h10; exact absurd h10 (by decide)
    | b2 last l' es =>
      obtain ⟨rfl, rfl, rfl, -, -, -⟩ := hst
      simp only [St.mean]
      rw [bar_step h1 hm2 hq, if_pos hlt]
      simp [mk]
  | false =>
    obtain rfl := ho rfl
    simp only [Bool.false_eq_true, if_false] at hk hx
    rw [hx] at hlt
    have hq' : ms2 = [] → q = p := by
      intro h
      rcases hq with ⟨-, h'⟩ | ⟨h', -⟩
      · exact h'
      · exact absurd h h'
    rw [tree_nil]
    cases st with
    | b0 l' =>
      obtain ⟨rfl, rfl⟩ := hst
      have := amp_step (p := p) (l := l') (es := []) (r1 := r1) hm2 hq' hlt
      simp only [List.map_nil, List.nil_append] at this
      simp only [St.mean, List.nil_append]
      rw [this]
      simp [hk, mk]
    | b1 l' es =>
      obtain ⟨rfl, rfl, rfl, -, -⟩ := hst
      simp only [St.mean, List.nil_append]
      rw [amp_step hm2 hq' hlt]
      simp [mk]
    | b2 last l' es =>
      obtain ⟨-, -, -, -, -, h⟩ := hst
      exact absurd hk h

/-- It goes on. -/
theorem step_on {k3 : K} (hk : k = if o then .bar else .amp) (hst : st.Match lhs nt elems k) (h1 : ∀ x ∈ ms1, x.1 = false)
    (ho : o = false → ms1 = []) (hx : x2 = if o then (if ms1 = [] then 8 else 10) else 10)
    (ha : o = true → k3 ≠ .amp ∧ (∀ m l, ms2 ≠ (false, m) :: l) ∧ ((ms2 = [] ∧ pcd k3 = p) ∨ (ms2 ≠ [] ∧ pcd k3 = 8)))
    (hge : x2 ≤ pcd k3) :
    ∃ st' : St X, st'.Match lhs (some (nt.getD (k == .bar))) ((if nt.isNone then lhs.toList else elems) ++ [tree (pcd k3) r1 ms1]) k3 ∧
      st'.mean p ms2 = st.mean p ((o, r1) :: (ms1 ++ ms2)) := by
  cases o with
  | true =>
    obtain ⟨hna, hm2, hq⟩ := ha rfl
    simp only [if_true] at hk hx
    have hnl : ¬ pcd k3 < (if ms1 = [] then 8 else 10) := by rw [← hx]; omega
    cases st with
    | b0 l' =>
      obtain ⟨rfl, rfl⟩ := hst
      refine ⟨.b2 x2 l' [tree (pcd k3) r1 ms1], ⟨rfl, by simp [hk], by simp, by simp, hge, hna⟩, ?_⟩
      simp only [St.mean]
      rw [tree_bar _ l' ((true, r1) :: (ms1 ++ ms2)) (by simp), bar_step h1 hm2 hq, if_neg hnl, hx]
      rfl
    | b1 l' es =>
      obtain ⟨-, -, -, -, h10⟩ := hst
      rw [hk] at h10; exact absurd h10 (by decide)
    | b2 last l' es =>
      obtain ⟨rfl, rfl, rfl, -, -, -⟩ := hst
      refine ⟨.b2 x2 l' (es ++ [tree (pcd k3) r1 ms1]), ⟨rfl, by simp, by simp, by simp, hge, hna⟩, ?_⟩
      simp only [St.mean]
      rw [bar_step h1 hm2 hq, if_neg hnl, hx]
  | false =>
    obtain rfl := ho rfl
    simp only [Bool.false_eq_true, if_false] at hk hx
    rw [tree_nil]
    cases st with
    | b0 l' =>
      obtain ⟨rfl, rfl⟩ := hst
      exact ⟨.b1 l' [r1], ⟨rfl, by simp [hk], by simp, by simp, by omega⟩, by simp [St.mean]⟩
    | b1 l' es =>
      obtain ⟨rfl, rfl, rfl, -, -⟩ := hst
      exact ⟨.b1 l' (es ++ [r1]), ⟨rfl, by simp, by simp, by simp, by omega⟩, by simp [St.mean]⟩
    | b2 last l' es =>
      obtain ⟨-, -, -, -, -, h⟩ := hst
      exact absurd hk h

end

theorem mean_nil {st : St X} {lhs : Option (Nd X)} {nt : Option Bool} {elems : List (Nd X)} {k : K} (hst : st.Match lhs nt elems k) :
    lhs = some (st.mean (pcd k) []) := by
  cases st with
  | b0 l' =>
    obtain ⟨rfl, -⟩ := hst
    simp only [St.mean, tree_nil]
  | b1 l' es =>
    obtain ⟨rfl, -, -, he, h10⟩ := hst
    simp only [St.mean]
    rw [tree_and _ _ _ [] (by simp)]
    have : ¬ pcd k < 10 := by omega
    simp [rest, build, this]
  | b2 last l' es =>
    obtain ⟨rfl, -, -, he, h10, -⟩ := hst
    cases es with
    | nil => exact absurd rfl he
    | cons x y => simp only [St.mean, rest, build]; rw [if_neg (by omega)]

theorem match_some {st : St X} {lhs : Option (Nd X)} {nt : Option Bool} {elems : List (Nd X)} {k : K} (hst : st.Match lhs nt elems k) :
    lhs.isSome = true := by rw [mean_nil hst]; rfl

theorem loop_exec (j : Nat) : ∀ {F : Fl} {ms : List (Bool × Nd X)}, ms.length ≤ j → ∀ {s r : List Tok} {min : Nat} {st : St X}
    {lhs : Option (Nd X)} {nt : Option Bool} {elems : List (Nd X)} {rhs : Option (Nd X)} {n : Nat}, OpsExec C F ms s r → NoFn ms →
    (min = 0 ∨ (min = 10 ∧ ∀ x ∈ ms, x.1 = false)) → (isOp (hd r).k = true → pcd (hd r).k < min) → st.Match lhs nt elems (hd s).k →
    6 * s.length + 1 ≤ n → (run C n).loop min F lhs nt elems rhs s = .ok (st.mean (pcd (hd r).k) ms) r := by
  induction j with
  | zero =>
    intro F ms hj s r min st lhs nt elems rhs n he hn hmin hstop hst hle
    obtain rfl := List.length_eq_zero_iff.mp (Nat.le_zero.mp hj)
    obtain rfl : s = r := he
    obtain ⟨k, rfl⟩ : ∃ k, n = k + 1 := ⟨n - 1, by omega⟩
    change uniLoop (run C k) min F lhs nt elems rhs s = _
    unfold uniLoop
    refine x_peek (x_neg (fun ⟨h1, h2⟩ => absurd (hstop h1) (by omega)) ?_)
    have := mean_nil hst
    generalize st.mean (pcd (hd s).k) [] = t at this
    subst this
    rfl
  | succ j ih =>
    intro F ms hj s r min st lhs nt elems rhs n he hn hmin hstop hst hle
    cases ms with
    | nil => exact ih (ms := []) (by simp) he hn hmin hstop hst hle
    | cons x l =>
      obtain ⟨o, r1⟩ := x
      obtain ⟨nl, s1, m, rfl, hm, hp, hl⟩ := he
      obtain ⟨k, rfl⟩ : ∃ k, n = k + 1 := ⟨n - 1, by omega⟩
      have hk : (hd (⟨if o then K.bar else .amp, nl⟩ :: s1)).k = if o then .bar else .amp := rfl
      simp only [List.length_cons] at hle hj
      rw [hk] at hst
      change uniLoop (run C k) min F lhs nt elems rhs _ = _
      unfold uniLoop
      refine x_peek (x_pos ?_ (x_next (x_bind (hp k (by omega)) ?_)))
      · rw [hk]
        rcases hmin with rfl | ⟨rfl, h⟩
        · cases o <;> simp [isOp]
        · have := h (o, r1) (by simp)
          simp only at this
          subst this
          exact ⟨rfl, by decide⟩
      rw [hk]
      have hr1 : isFn r1 = false := hn (o, r1) (by simp)
      have hnl : NoFn l := fun x hx => hn x (by simp [hx])
      obtain ⟨ms1, ms2, rfl, h1, hm2, ho⟩ : ∃ ms1 ms2, l = ms1 ++ ms2 ∧ (∀ x ∈ ms1, x.1 = false) ∧ (o = true → ∀ m l, ms2 ≠ (false, m) :: l) ∧
          (o = false → ms1 = []) := by
        cases o with
        | true =>
          obtain ⟨a, b, e, h1, h2⟩ := lead_split l
          exact ⟨a, b, e, h1, fun _ => h2, by simp⟩
        | false => exact ⟨[], l, rfl, by simp, by simp, fun _ => rfl⟩
      obtain ⟨s3, he1, he2⟩ := opsExec_split hl
      have hl3 := opsExec_length he1
      have hj1 : ms1.length + ms2.length ≤ j := by simp at hj; omega
      have hminT : o = true → min = 0 := by
        rintro rfl
        rcases hmin with h | ⟨-, h⟩
        · exact h
        · exact absurd (h (true, r1) (by simp)) (by simp)
      have hopr : o = true → isOp (hd r).k = false := by
        intro h
        have := hminT h
        subst this
        cases h' : isOp (hd r).k with
        | false => rfl
        | true => exact absurd (hstop h') (by omega)
      have hafter : o = true → (hd s3).k ≠ .amp ∧ ((ms2 = [] ∧ pcd (hd s3).k = pcd (hd r).k) ∨ (ms2 ≠ [] ∧ pcd (hd s3).k = 8)) := by
        intro h
        rcases opsExec_head he2 with ⟨rfl, rfl⟩ | ⟨o', m', l', rfl, hk'⟩
        · refine ⟨fun h' => ?_, .inl ⟨rfl, rfl⟩⟩
          have := hopr h
          rw [h'] at this; cases this
        · cases o' with
          | false => exact absurd rfl (hm2 h m' l')
          | true => exact ⟨by rw [hk']; simp, .inr ⟨by simp, by rw [hk']; rfl⟩⟩
      have hclimb : climb (run C k) (if o then .bar else .amp) r1 F m =
          .ok (tree (pcd (hd s3).k) r1 ms1, if o then (if ms1 = [] then 8 else 10) else 10) s3 := by
        unfold climb
        refine x_peek ?_
        cases ms1 with
        | nil =>
          obtain rfl : m = s3 := he1
          refine x_neg ?_ ?_
          · rintro ⟨h2, h3⟩
            cases o with
            | true =>
              rcases op_pcd h2 with ⟨h4, h5⟩ | ⟨h4, -⟩
              · rw [h5] at h3; exact absurd h3 (by decide)
              · exact (hafter rfl).1 h4
            | false =>
              rcases op_pcd h2 with ⟨h4, h5⟩ | ⟨h4, h5⟩ <;> rw [h5] at h3 <;> exact absurd h3 (by decide)
          · rw [tree_nil]
            cases o <;> rfl
        | cons y ys =>
          obtain ⟨oy, ty⟩ := y
          have hoy : oy = false := h1 (oy, ty) (by simp)
          subst hoy
          have hot : o = true := by
            cases o with
            | true => rfl
            | false => exact absurd (ho rfl) (by simp)
          subst hot
          obtain ⟨nl', s1', m', rfl, hm', hp', hl'⟩ := he1
          refine x_pos ⟨rfl, show 8 < 10 by decide⟩ (x_bind (a := tree (pcd (hd s3).k) r1 ((false, ty) :: ys)) (r := s3) ?_ ?_)
          · simp only [List.length_cons] at hm
            obtain ⟨k', rfl⟩ : ∃ k', k = k' + 1 := ⟨k - 1, by omega⟩
            change uni (run C k') (some r1) 10 F false _ = _
            unfold uni operand
            refine x_pure (x_neg (fun h => absurd h.1 (by simp [hr1])) ?_)
            refine ih (ms := (false, ty) :: ys) (st := .b0 r1) (by simp at hj1 ⊢; omega) ⟨nl', s1', m', rfl, hm', hp', hl'⟩
              (fun x hx => hnl x (by simp at hx ⊢; rcases hx with h | h <;> simp [h])) (.inr ⟨rfl, h1⟩) ?_ ⟨rfl, rfl⟩ (by simp; omega)
            intro hop
            rcases op_pcd hop with ⟨-, h⟩ | ⟨h, -⟩
            · omega
            · exact absurd h (hafter rfl).1
          · rfl
      refine x_bind hclimb (x_peek ?_)
      have h3len : s3.length < s1.length := by omega
      by_cases hc : pcd (hd s3).k < (if o then (if ms1 = [] then 8 else 10) else 10)
      · refine x_pos ⟨match_some hst, hc⟩ ?_
        have hm2' : ∀ m l, ms2 ≠ (false, m) :: l := by
          cases o with
          | true => exact hm2 rfl
          | false =>
            rintro m' l' rfl
            rcases opsExec_head he2 with ⟨h, -⟩ | ⟨o', m'', l'', e, hk'⟩
            · cases h
            · cases e
              simp only [Bool.false_eq_true, if_false] at hk' hc
              rw [hk'] at hc
              exact absurd hc (by decide)
        have hq : (ms2 = [] ∧ pcd (hd s3).k = pcd (hd r).k) ∨ (ms2 ≠ [] ∧ pcd (hd s3).k = 8) := by
          rcases opsExec_head he2 with ⟨rfl, rfl⟩ | ⟨o', m', l', rfl, hk'⟩
          · exact .inl ⟨rfl, rfl⟩
          · cases o' with
            | false => exact absurd rfl (hm2' m' l')
            | true => exact .inr ⟨by simp, by rw [hk']; rfl⟩
        rw [← step_end (p := pcd (hd r).k) (r1 := r1) rfl hst h1 ho rfl hm2' hq hc]
        refine ih (ms := ms2) (st := .b0 _) (by omega) he2 (fun x hx => hnl x (by simp [hx])) ?_ hstop ⟨rfl, rfl⟩ (by omega)
        rcases hmin with h | ⟨h, h'⟩
        · exact .inl h
        · exact .inr ⟨h, fun x hx => h' x (by simp [hx])⟩
      · refine x_neg (fun h => hc h.2) ?_
        obtain ⟨st', hst', hmean⟩ := step_on (p := pcd (hd r).k) (r1 := r1) (ms1 := ms1) (ms2 := ms2) (k3 := (hd s3).k) rfl hst h1 ho rfl
          (fun h => ⟨(hafter h).1, hm2 h, (hafter h).2⟩) (by omega)
        rw [← hmean]
        refine ih (ms := ms2) (st := st') (by omega) he2 (fun x hx => hnl x (by simp [hx])) ?_ hstop hst' (by omega)
        rcases hmin with h | ⟨h, h'⟩
        · exact .inl h
        · exact .inr ⟨h, fun x hx => h' x (by simp [hx])⟩

/-! ## Tokens that do not begin a type -/

/-- No type begins with this token. -/
def noTyp : K → Bool
  | .parenR | .eof | .brackR | .dots | .gt => true
  | _ => false

theorem prim_bad {r : Rec X} {F : Fl} {s : List Tok} (h : isOp (hd s).k = true ∨ (hd s).k = .new_ ∨ noTyp (hd s).k = true) :
    prim C r F s = .err := by
  unfold prim
  refine x_peek ?_
  cases hk : (hd s).k <;> simp [hk, isOp, noTyp] at h <;> rfl

theorem prim_ok {r : Rec X} {F : Fl} {s m : List Tok} {t : Nd X} (h : prim C r F s = .ok t m) :
    isOp (hd s).k = false ∧ (hd s).k ≠ .new_ ∧ noTyp (hd s).k = false := by
  refine ⟨?_, ?_, ?_⟩
  · cases hh : isOp (hd s).k with
    | false => rfl
    | true => rw [prim_bad (.inl hh)] at h; cases h
  · intro hh; rw [prim_bad (.inr (.inl hh))] at h; cases h
  · cases hh : noTyp (hd s).k with
    | false => rfl
    | true => rw [prim_bad (.inr (.inr hh))] at h; cases h

theorem typ_ok {F : Fl} {s m : List Tok} {t : Nd X} {n : Nat} (hn : 3 ≤ n) (h : (run C n).typ F s = .ok t m) : noTyp (hd s).k = false := by
  cases hh : noTyp (hd s).k with
  | false => rfl
  | true =>
    obtain ⟨k, rfl⟩ : ∃ k, n = k + 3 := ⟨n - 3, by omega⟩
    exfalso
    have : (run C (k + 3)).typ F s = .err := by
      change typ C (run C (k + 2)) F s = _
      unfold typ
      refine x_peek (x_neg (by intro h'; rw [h'] at hh; cases hh) ?_)
      change uni (run C (k + 1)) none 0 F false s = _
      unfold uni operand
      have e : (run C (k + 1)).prim F s = .err := prim_bad (.inr (.inr hh))
      have e2 : ¬ isOp (hd s).k = true := by
        intro h'
        rcases isOp_iff.mp h' with h' | h' <;> rw [h'] at hh <;> cases hh
      exact x_err (x_peek (x_neg e2 (x_err e)))
    rw [this] at h; cases h

/-! ## Names -/

theorem identKw_exec {k : K} {v : String} {a : Bool} {s : List Tok} (h : word k = some v) : identKw (⟨k, a⟩ :: s) = .ok v s := by
  cases k <;> simp_all [identKw, kwText, ident, hd, word]

theorem dots_length {m m' : Name} {s r : List Tok} (h : Dots m m' s r) : r.length ≤ s.length := by
  induction h with
  | nil => exact Nat.le_refl _
  | cons _ _ ih => simp; omega

theorem nameLoop_exec {m m' : Name} {s r : List Tok} (h : Dots m m' s r) : ∀ k, s.length ≤ k → nameLoop k m s = .ok m' r := by
  induction h with
  | nil hn =>
    intro k hk
    cases k with
    | zero => rfl
    | succ k => exact if_neg hn
  | cons hw _ ih =>
    intro k hk
    obtain ⟨k, rfl⟩ : ∃ j, k = j + 1 := ⟨k - 1, by simp at hk; omega⟩
    simp only [List.length_cons] at hk
    rw [nameLoop]
    refine Eq.trans (if_pos (by simp [hd])) ?_
    exact x_next (x_bind (identKw_exec hw) (ih k (by omega)))

theorem typName_exec {m m' : Name} {s r : List Tok} (h : Dots m m' s r) : typName (some m) s = .ok m' r :=
  x_pure (nameLoop_exec h _ (Nat.le_refl _))

theorem typName_none_exec {k : K} {v : String} {a : Bool} {m' : Name} {s r : List Tok} (hw : word k = some v) (h : Dots (.id v) m' s r) :
    typName none (⟨k, a⟩ :: s) = .ok m' r :=
  x_bind (m := firstName none) (x_bind (identKw_exec hw) rfl) (nameLoop_exec h _ (Nat.le_refl _))

theorem tpars_exec {tp : Option X} {s r : List Tok} (h : TPar C tp s r) : tpars C s = .ok tp r := by
  cases h with
  | nil h => exact x_peek (x_neg h rfl)
  | cons h hx => exact x_peek (x_pos h (x_call hx rfl))

theorem tpar_length (T : C.Takes) {tp : Option X} {s r : List Tok} (h : TPar C tp s r) : r.length ≤ s.length := by
  cases h with
  | nil _ => exact Nat.le_refl _
  | cons _ hx => exact Nat.le_of_lt (T _ _ _ (.inr (.inr (.inr hx))))

/-! ## Members of tuples -/

theorem opt_of_optAfter (l : List (Nd X)) (h : optAfter l = true) : ∃ m ∈ l, isOpt m = true := by
  unfold optAfter at h
  have key : ∀ (l : List (Nd X)) (o : Bool),
      l.foldl (fun o m => match m with | .named _ b _ => b | .opt _ => true | _ => o) o = true → o = true ∨ ∃ m ∈ l, isOpt m = true := by
    intro l
    induction l with
    | nil => intro o h; exact .inl h
    | cons x l ih =>
      intro o h
      rw [List.foldl_cons] at h
      rcases ih _ h with h | ⟨m, hm, ho⟩
      · cases x <;> simp only at h <;> first
          | exact .inl h
          | (right; exact ⟨_, List.mem_cons_self, h⟩)
          | (right; exact ⟨_, List.mem_cons_self, rfl⟩)
      · exact .inr ⟨m, by simp [hm], ho⟩
  rcases key l false h with h | h
  · cases h
  · exact h

theorem mayFollow_of {acc l : List (Nd X)} {m : Nd X} (h : OptLast (acc ++ m :: l)) : mayFollow acc m = true := by
  cases ho : optAfter acc with
  | false => cases m <;> simp [mayFollow, ho]
  | true =>
    obtain ⟨x, hx, hxo⟩ := opt_of_optAfter acc ho
    obtain ⟨a, b, rfl⟩ := List.append_of_mem hx
    have := h a x b m l (by simp) hxo
    cases m <;> simp [isOpt, isRest] at this <;> simp [mayFollow, this]

theorem allNamed_of {acc l : List (Nd X)} (h : NamesAgree (acc ++ l)) : allNamed acc = true := by
  rw [namesAgree_iff] at h
  unfold allNamed
  cases ha : acc.any isNamed with
  | false => rfl
  | true =>
    obtain ⟨m, hm, hn⟩ := List.any_eq_true.mp ha
    have := h ⟨m, by simp [hm], hn⟩
    simp only [Bool.not_true, Bool.false_or]
    exact List.all_eq_true.mpr fun x hx => this x (by simp [hx])

/-! ## All of it -/

/-- What is written so is read so. -/
def P (C : Cfg X) : Jd X → List Tok → List Tok → Prop
  | .typ F _ t, s, r => r.length < s.length ∧ ∀ n, 6 * s.length + 3 ≤ n → (run C n).typ F s = .ok t r
  | .prim F _ t, s, r => r.length < s.length ∧ ∀ n, 6 * s.length + 1 ≤ n → (run C n).prim F s = .ok t r
  | .ops F ms, s, r => OpsExec C F ms s r
  | .suf t t', s, r => r.length ≤ s.length ∧ ((hd r).k ≠ .brackL → ∀ n, 6 * s.length + 1 ≤ n → (run C n).arr t s = .ok t' r)
  | .base F t, s, r => r.length < s.length ∧ ∀ n, 6 * s.length ≤ n → prim C (run C n) F s = suffix (run C n) F t r
  | .par _ t, s, r => r.length < s.length ∧ ((hd s).k = .parenL ∨ (hd s).k = .lt) ∧ ∀ n, 6 * s.length ≤ n → paren C (run C n) s = .ok t r
  | .more l, s, r => r.length < s.length ∧ ∀ n, 6 * s.length + 1 ≤ n → ∀ acc, (run C n).params acc s = .ok (acc ++ l) r
  | .plist l, s, r => r.length < s.length ∧ ∀ n a, 6 * (s.length + 1) ≤ n → roughList (run C n) (⟨.parenL, a⟩ :: s) = .ok l r
  | .ctor abs t, s, r => r.length < s.length ∧ (hd s).k = .new_ ∧ ∀ n, 6 * s.length ≤ n → construct C (run C n) abs s = .ok t r
  | .first t, s, r => r.length < s.length ∧ modifier (hd s).k = false ∧ noTyp (hd s).k = false ∧
    ∀ n, 6 * (s.length + 1) ≤ n → roughParam (run C n) s = .ok t r
  | .arg c t, s, r => r.length < s.length ∧ argStart (hd s).k = true ∧ ∀ n, 6 * s.length + 3 ≤ n → argM C (run C n) c s = .ok t r
  | .args c l, s, r => r.length < s.length ∧ ∀ n, 6 * s.length + 4 ≤ n → ∀ acc, (run C n).args c acc s = .ok (acc ++ l) r
  | .mem b t, s, r => r.length < s.length ∧ ∀ n, 6 * s.length + 4 ≤ n → (run C n).mem b s = .ok t r
  | .mems b l, s, r => r.length < s.length ∧ ∀ n, 6 * s.length + 5 ≤ n → ∀ acc, OptLast (acc ++ l) → NamesAgree (acc ++ l) →
    (run C n).mems b acc s = .ok (acc ++ l) r

theorem typ_start {F : Fl} {top : Bool} {t : Nd X} {s r : List Tok} (h : P C (.typ F top t) s r) : noTyp (hd s).k = false :=
  typ_ok (n := 6 * s.length + 3) (by omega) (h.2 _ (Nat.le_refl _))

theorem prim_start {F : Fl} {top : Bool} {t : Nd X} {s r : List Tok} (h : P C (.prim F top t) s r) :
    isOp (hd s).k = false ∧ (hd s).k ≠ .new_ ∧ noTyp (hd s).k = false :=
  prim_ok (r := run C (6 * s.length)) (h.2 (6 * s.length + 1) (Nat.le_refl _))

/-- The first operand has been read. -/
theorem typ_exec {F : Fl} {top : Bool} {a : Nd X} {s m : List Tok} {o : Out (Nd X)} (h : P C (.prim F top a) s m) {n : Nat} (hn : 6 * s.length + 3 ≤ n)
    (h' : ∀ k, 6 * s.length + 1 ≤ k → (if isFn a = true ∧ false = false then pure a else (run C k).loop 0 F (some a) none [] none : M (Nd X)) m = o) :
    (run C n).typ F s = o := by
  obtain ⟨h1, h2, -⟩ := prim_start h
  obtain ⟨k, rfl⟩ : ∃ k, n = k + 2 := ⟨n - 2, by omega⟩
  change typ C (run C (k + 1)) F s = _
  unfold typ
  refine x_peek (x_neg h2 ?_)
  change uni (run C k) none 0 F false s = _
  unfold uni operand
  refine x_bind (x_peek (x_neg (by simp [h1]) (x_bind (h.2 k (by omega)) rfl))) (h' k (by omega))

/-- A type that begins with a name. -/
theorem name_exec {F : Fl} {v : String} {a : Bool} {s : List Tok} {n : Nat} {o : Out (Nd X)} (hf : Free v (hd s))
    (h : (predefOrRef (run C n) >>= fun t => suffix (run C n) F t) (⟨.name v, a⟩ :: s) = o) :
    prim C (run C n) F (⟨.name v, a⟩ :: s) = o := by
  obtain ⟨h1, h2, h3, h4, h5⟩ := hf
  unfold prim
  refine x_peek ?_
  show primName C (run C n) F ⟨.name v, a⟩ (⟨.name v, a⟩ :: s) = _
  unfold primName
  refine x_peek2 (x_neg ?_ (x_neg ?_ (x_neg ?_ ?_)))
  · rintro ⟨e, e2, e3⟩
    exact h4 ⟨by simpa using e, e3, e2⟩
  · intro e; exact h1 (by simpa using e)
  · rintro (e | e)
    · exact h2 (by simpa using e)
    · exact h3 (by simpa using e)
  · have : aheadIsRo (.name v) (hd s).k = some false := by
      unfold aheadIsRo
      split
      · rename_i e
        have e : v = "readonly" := by simpa using e
        have h6 := h5 e
        rw [if_neg, if_neg (by simp [h6])]
        rintro (h | ⟨h, -⟩)
        · rw [h] at h6; cases h6
        · cases hk : (hd s).k <;> rw [hk] at h h6 <;> simp [isName, startExpr] at h h6
      · rfl
    show (match aheadIsRo (.name v) (hd s).k with | none => _ | some true => _ | some false => _ : M (Nd X)) _ = o
    rw [this]
    exact h

/-- A name that is no builtin type. -/
theorem ref_exec {v : String} {a : Bool} {s : List Tok} {n : Nat} {o : Out (Nd X)} (hb : builtin v = true → (hd s).k = .dot)
    (h : ref (run C n) (some (.id v)) s = o) : predefOrRef (run C n) (⟨.name v, a⟩ :: s) = o := by
  unfold predefOrRef
  refine x_peek ?_
  exact x_next (x_peek (x_neg (fun ⟨h1, h2⟩ => h2 (hb h1)) h))

theorem free_builtin {v : String} {x : Tok} (h : builtin v = true) : Free v x := by
  unfold builtin at h
  have h : v ∈ ["any", "number", "boolean", "string", "symbol", "object", "void", "never", "unknown", "undefined", "null", "bigint"] := by
    simpa using h
  refine ⟨?_, ?_, ?_, ?_, ?_⟩
  · rintro rfl; exact absurd h (by decide)
  · rintro rfl; exact absurd h (by decide)
  · rintro rfl; exact absurd h (by decide)
  · rintro ⟨rfl, -⟩; exact absurd h (by decide)
  · rintro rfl; exact absurd h (by decide)

theorem free_asserts {x : Tok} : Free "asserts" x := by
  refine ⟨by decide, by decide, by decide, ?_, ?_⟩
  · rintro ⟨h, -⟩; exact absurd h (by decide)
  · intro h; exact absurd h (by decide)

theorem noTyp_ne {k x : K} (h : noTyp k = false) (hx : noTyp x = true) : k ≠ x := by
  rintro rfl; rw [hx] at h; cases h

theorem opt_no {m : List Tok} (h : (hd m).k ≠ .hook) : opt m = .ok false m := x_peek (x_neg h rfl)

theorem opt_yes {a : Bool} {m : List Tok} : opt (⟨.hook, a⟩ :: m) = .ok true m := x_peek (x_pos rfl (x_next rfl))

theorem this_ne {t : Nd X} (h : t ≠ .this) : isThis t = false := by
  cases t <;> first | rfl | exact absurd rfl h

theorem dots_eq {v : String} {s r : List Tok} (h : Dots (.id v) (.id v) s r) : s = r := (dots_refl h v rfl).2

theorem first_plain {t : Nd X} {s r : List Tok} (hm : modifier (hd s).k = false) (ih : P C (.typ { rough := true } true t) s r)
    (h1 : (hd r).k ≠ .hook) (h2 : (hd r).k ≠ .colon) : P C (.first (.param t false)) s r := by
  refine ⟨ih.1, hm, typ_start ih, fun n hn => ?_⟩
  unfold roughParam
  exact x_bind (ih.2 n (by omega)) (x_bind (opt_no h1) (x_neg (by simp) (x_peek (x_neg h2 rfl))))

theorem plist_close {n : Nat} {a : Bool} {acc : List (Nd X)} {r : List Tok} (hn : 1 ≤ n) :
    (run C n).params acc (⟨.parenR, a⟩ :: r) = .ok acc r := by
  obtain ⟨k, rfl⟩ : ∃ k, n = k + 1 := ⟨n - 1, by omega⟩
  exact x_peek (x_pos rfl (x_next rfl))

theorem plist_one {p : Nd X} {a : Bool} {s r : List Tok} (ih : P C (.first p) s (⟨.parenR, a⟩ :: r)) : P C (.plist [p]) s r := by
  obtain ⟨h1, h2, h3, h4⟩ := ih
  simp only [List.length_cons] at h1
  refine ⟨by omega, fun n b hn => ?_⟩
  unfold roughList
  exact x_must (x_peek (x_neg (noTyp_ne h3 rfl) (x_neg (noTyp_ne h3 rfl) (x_neg (by simp [h2]) (x_bind (h4 n hn)
    (x_peek (x_neg (by simp [hd]) (x_pos rfl (plist_close (by omega))))))))))

/-- What is written by the rules is read. -/
theorem exec (T : C.Takes) {j : Jd X} {s r : List Tok} (h : G C false j s r) : P C j s r := by
  induction h with
  | new h ih =>
    obtain ⟨h1, h2, h3⟩ := ih
    refine ⟨h1, fun n hn => ?_⟩
    obtain ⟨k, rfl⟩ : ∃ k, n = k + 1 := ⟨n - 1, by omega⟩
    exact x_peek (x_pos h2 (h3 k (by omega)))
  | fnTyp hf h ih =>
    exact ⟨ih.1, fun n hn => typ_exec ih hn fun k _ => x_pos ⟨hf, rfl⟩ rfl⟩
  | uni h1 h2 hf hop ht hq ih1 ih2 =>
    have hlen := opsExec_length ih2
    refine ⟨by have := ih1.1; omega, fun n hn => typ_exec ih1 hn fun k hk => x_neg (by simp [hf]) ?_⟩
    rename_i F top a t ms s m r
    have hn : NoFn ms := by
      intro x hx
      exact ((hq rfl).2 (by rintro rfl; cases hx)).2 x hx
    rw [ht hn]
    have := ih1.1
    exact loop_exec _ (Nat.le_refl _) (st := .b0 _) ih2 hn (.inl rfl) (by simp [hop]) ⟨rfl, rfl⟩ (by omega)
  | lead h => cases h
  | ctor htp hm ht ihm iht =>
    have hl := tpar_length T htp
    have h1 := ihm.1
    have h2 := iht.1
    simp only [List.length_cons] at hl h1
    refine ⟨by simp; omega, rfl, fun n hn => ?_⟩
    simp only [List.length_cons] at hn
    unfold construct
    refine x_next (x_bind (tpars_exec htp) (x_must (x_bind (ihm.2 n (by omega) []) (x_must (x_bind (iht.2 n (by omega)) ?_)))))
    rfl
  | opsNil => exact rfl
  | opsCons h1 h2 ih1 ih2 => exact ⟨_, _, _, rfl, ih1.1, ih1.2, ih2⟩
  | paren h1 h2 hb ih1 ih2 =>
    have l1 := ih1.1
    have l2 := ih2.1
    refine ⟨by omega, fun n hn => ?_⟩
    obtain ⟨k, rfl⟩ : ∃ k, n = k + 1 := ⟨n - 1, by omega⟩
    change prim C (run C k) _ _ = _
    unfold prim
    refine x_peek ?_
    have key : (do let t ← paren C (run C k); let t ← (run C k).arr t; return unwrap t) _ = .ok _ _ :=
      x_bind (ih1.2.2 k (by omega)) (x_bind (ih2.2 hb k (by omega)) rfl)
    rcases ih1.2.1 with e | e <;> rw [e] <;> exact key
  | plain h1 h2 h3 ih =>
    refine ⟨ih.1, fun n hn => ?_⟩
    obtain ⟨k, rfl⟩ : ∃ k, n = k + 1 := ⟨n - 1, by omega⟩
    exact (ih.2 k (by omega)).trans (x_peek (x_neg h2 (x_neg h3 rfl)))
  | array h1 h2 h3 h4 h5 ih1 ih2 =>
    have l1 := ih1.1
    have l2 := ih2.1
    refine ⟨by omega, fun n hn => ?_⟩
    obtain ⟨k, rfl⟩ : ∃ k, n = k + 1 := ⟨n - 1, by omega⟩
    exact (ih1.2 k (by omega)).trans (x_peek (x_pos ⟨h2, h3⟩ (ih2.2 h5 k (by omega))))
  | cond _ hc h1 h2 h3 h4 ih1 ih2 ih3 ih4 =>
    have l1 := ih1.1
    have l2 := ih2.1
    have l3 := ih3.1
    have l4 := ih4.1
    simp only [List.length_cons] at l1 l2 l3
    refine ⟨by omega, fun n hn => ?_⟩
    obtain ⟨k, rfl⟩ : ∃ k, n = k + 1 := ⟨n - 1, by omega⟩
    refine (ih1.2 k (by omega)).trans (x_peek (x_neg (by simp [hd]) (x_pos ⟨rfl, hc⟩ ?_)))
    unfold conditional
    exact x_must (x_bind (ih2.2 k (by omega)) (x_must (x_bind (ih3.2 k (by omega)) (x_must (x_bind (ih4.2 k (by omega)) rfl)))))
  | null =>
    refine ⟨by simp, fun n hn => ?_⟩
    obtain ⟨k, rfl⟩ : ∃ k, n = k + 1 := ⟨n - 1, by omega⟩
    rfl
  | lit h =>
    refine ⟨by simp, fun n hn => ?_⟩
    obtain ⟨k, rfl⟩ : ∃ k, n = k + 1 := ⟨n - 1, by omega⟩
    rcases h with rfl | rfl | ⟨v, rfl⟩ | ⟨v, rfl⟩ <;> rfl
  | neg =>
    refine ⟨by simp; omega, fun n hn => ?_⟩
    obtain ⟨k, rfl⟩ : ∃ k, n = k + 1 := ⟨n - 1, by omega⟩
    rfl
  | tpl hk hx =>
    refine ⟨T _ _ _ (.inr (.inl hx)), fun n hn => ?_⟩
    obtain ⟨k, rfl⟩ : ∃ k, n = k + 1 := ⟨n - 1, by omega⟩
    change prim C (run C k) _ _ = _
    unfold prim
    refine x_peek ?_
    rw [hk]
    exact x_call hx rfl
  | absNew h1 h2 ih =>
    have l1 := ih.1
    refine ⟨by simp; omega, fun n hn => ?_⟩
    obtain ⟨k, rfl⟩ : ∃ k, n = k + 1 := ⟨n - 1, by omega⟩
    simp only [List.length_cons] at hn
    change prim C (run C k) _ _ = _
    unfold prim
    refine x_peek ?_
    exact x_peek2 (x_pos ⟨rfl, h1, ih.2.1⟩ (x_next (ih.2.2 k (by omega))))
  | readonly h1 h2 h3 ih =>
    have l1 := ih.1
    refine ⟨by simp; omega, fun n hn => ?_⟩
    obtain ⟨k, rfl⟩ : ∃ k, n = k + 1 := ⟨n - 1, by omega⟩
    simp only [List.length_cons] at hn
    change prim C (run C k) _ _ = _
    unfold prim
    refine x_peek ?_
    refine x_peek2 (x_neg (by simp [hd]) (x_neg (by simp [hd]) (x_neg (by simp [hd]) ?_)))
    rename_i s' r'
    have : aheadIsRo (.name "readonly") (hd s').k = some true := by
      unfold aheadIsRo; rw [if_pos rfl, if_pos h1]
    show (match aheadIsRo (.name "readonly") (hd s').k with | none => _ | some true => _ | some false => _ : M (Nd X)) _ = _
    rw [this]
    refine x_next (x_bind (ih.2 k (by omega)) ?_)
    rcases h3 with ⟨u, rfl⟩ | ⟨l, rfl⟩ <;> rfl
  | imp h1 h2 =>
    refine ⟨by simp; omega, fun n hn => ?_⟩
    obtain ⟨k, rfl⟩ : ∃ k, n = k + 1 := ⟨n - 1, by omega⟩
    change prim C (run C k) _ _ = _
    unfold prim
    refine x_peek ?_
    show importTyp (run C k) _ = _
    unfold importTyp
    exact x_next (x_must (x_peek (x_next (x_must (x_bind (x_peek (x_neg h1 rfl)) (x_peek (x_neg h2 rfl)))))))
  | impName hw hd1 h2 =>
    have l1 := dots_length hd1
    refine ⟨by simp; omega, fun n hn => ?_⟩
    obtain ⟨k, rfl⟩ : ∃ k, n = k + 1 := ⟨n - 1, by omega⟩
    change prim C (run C k) _ _ = _
    unfold prim
    refine x_peek ?_
    show importTyp (run C k) _ = _
    unfold importTyp
    exact x_next (x_must (x_peek (x_next (x_must (x_bind (x_peek (x_pos rfl (x_next (x_bind (typName_none_exec hw hd1) rfl))))
      (x_peek (x_neg h2 rfl)))))))
  | impArgs h ih =>
    have l1 := ih.1
    refine ⟨by simp; omega, fun n hn => ?_⟩
    obtain ⟨k, rfl⟩ : ∃ k, n = k + 1 := ⟨n - 1, by omega⟩
    simp only [List.length_cons] at hn
    change prim C (run C k) _ _ = _
    unfold prim
    refine x_peek ?_
    show importTyp (run C k) _ = _
    unfold importTyp
    refine x_next (x_must (x_peek (x_next (x_must (x_bind (x_peek (x_neg (by simp [hd]) rfl)) (x_peek (x_pos rfl ?_)))))))
    exact x_bind (m := typArgs (run C k) true) (x_next (ih.2 k (by omega) [])) rfl
  | impNameArgs hw hd1 h ih =>
    have l1 := ih.1
    have l2 := dots_length hd1
    simp only [List.length_cons] at l2
    refine ⟨by simp; omega, fun n hn => ?_⟩
    obtain ⟨k, rfl⟩ : ∃ k, n = k + 1 := ⟨n - 1, by omega⟩
    simp only [List.length_cons] at hn
    change prim C (run C k) _ _ = _
    unfold prim
    refine x_peek ?_
    show importTyp (run C k) _ = _
    unfold importTyp
    refine x_next (x_must (x_peek (x_next (x_must (x_bind (x_peek (x_pos rfl (x_next (x_bind (typName_none_exec hw hd1) rfl))))
      (x_peek (x_pos rfl ?_)))))))
    exact x_bind (m := typArgs (run C k) true) (x_next (ih.2 k (by omega) [])) rfl
  | sufNil =>
    refine ⟨Nat.le_refl _, fun hb n hn => ?_⟩
    obtain ⟨k, rfl⟩ : ∃ k, n = k + 1 := ⟨n - 1, by omega⟩
    exact x_peek (x_neg hb rfl)
  | sufArr _ h ih =>
    have l1 := ih.1
    refine ⟨by simp; omega, fun hb n hn => ?_⟩
    obtain ⟨k, rfl⟩ : ∃ k, n = k + 1 := ⟨n - 1, by omega⟩
    simp only [List.length_cons] at hn
    exact x_peek (x_pos rfl (x_next (x_peek (x_neg (by simp [hd]) (x_next (ih.2 hb k (by omega)))))))
  | sufIdx _ h1 h2 ih1 ih2 =>
    have l1 := ih1.1
    have l2 := ih2.1
    simp only [List.length_cons] at l1
    refine ⟨by simp; omega, fun hb n hn => ?_⟩
    obtain ⟨k, rfl⟩ : ∃ k, n = k + 1 := ⟨n - 1, by omega⟩
    simp only [List.length_cons] at hn
    exact x_peek (x_pos rfl (x_next (x_peek (x_pos (noTyp_ne (typ_start ih1) rfl) (x_bind (ih1.2 k (by omega)) (x_must (ih2.2 hb k (by omega))))))))
  | infer hw hd1 =>
    have l1 := dots_length hd1
    refine ⟨by simp; omega, fun n hn => ?_⟩
    unfold prim
    refine x_peek ?_
    exact x_peek2 (x_neg (by simp [hd]) (x_pos rfl (x_next (x_bind (typName_none_exec hw hd1) rfl))))
  | op hw h ih =>
    have l1 := ih.1
    refine ⟨by simp; omega, fun n hn => ?_⟩
    simp only [List.length_cons] at hn
    unfold prim
    rcases hw with rfl | rfl
    · exact x_peek (x_peek2 (x_neg (by simp [hd]) (x_neg (by simp [hd]) (x_pos (.inl rfl) (x_next (x_bind (ih.2 n (by omega)) rfl))))))
    · exact x_peek (x_peek2 (x_neg (by simp [hd]) (x_neg (by simp [hd]) (x_pos (.inr rfl) (x_next (x_bind (ih.2 n (by omega)) rfl))))))
  | query h ih =>
    have l1 := ih.1
    refine ⟨by simp; omega, fun n hn => ?_⟩
    simp only [List.length_cons] at hn
    unfold prim
    exact x_peek (x_next (x_bind (ih.2 n (by omega)) rfl))
  | predef hb hdot =>
    refine ⟨by simp, fun n hn => name_exec (free_builtin hb) ?_⟩
    unfold predefOrRef
    exact x_bind (x_peek (x_next (x_peek (x_pos ⟨hb, hdot⟩ rfl)))) rfl
  | void hdot =>
    refine ⟨by simp, fun n hn => ?_⟩
    unfold prim
    refine x_peek (x_peek2 (x_neg (by simp [hd]) (x_neg (by simp [hd]) (x_neg (by simp [hd]) ?_))))
    refine x_bind (m := predefOrRef (run C n)) (x_peek (x_next (x_peek (x_pos hdot rfl)))) rfl
  | ref hf hb hd1 h1 h2 h3 =>
    have l1 := dots_length hd1
    refine ⟨by simp; omega, fun n hn => name_exec hf (x_bind (ref_exec hb ?_) rfl)⟩
    unfold ref
    refine x_bind (typName_exec hd1) (x_peek (x_neg ?_ (x_pos h3 rfl)))
    rintro (⟨x, y⟩ | x)
    · exact h1 ⟨of_decide_eq_true x, y⟩
    · rw [h2] at x; cases x
  | app hf hb hd1 h ih =>
    have l1 := dots_length hd1
    have l2 := ih.1
    simp only [List.length_cons] at l1
    refine ⟨by simp; omega, fun n hn => name_exec hf (x_bind (ref_exec hb ?_) rfl)⟩
    simp only [List.length_cons] at hn
    unfold ref
    refine x_bind (typName_exec hd1) (x_peek (x_neg (by simp [hd, isName, textIs]) (x_neg (by simp [hd]) ?_)))
    exact x_bind (m := typArgs (run C n) false) (x_next (ih.2 n (by omega) [])) rfl
  | const_ hc hd1 h1 h2 hq =>
    have l1 := dots_length hd1
    refine ⟨by simp; omega, fun n hn => ?_⟩
    unfold prim
    refine x_peek (x_pos hc (x_peek2 (x_neg (by simp [hd]) (x_neg (by simp [hd]) (x_neg (by simp [hd]) ?_)))))
    refine x_bind (m := predefOrRef (run C n)) (x_peek ?_) rfl
    show ref (run C n) none _ = _
    unfold ref
    refine x_bind (typName_none_exec rfl hd1) (x_peek (x_neg ?_ (x_pos h2 rfl)))
    rintro (⟨x, y⟩ | x)
    · have := of_decide_eq_true x
      rw [hq rfl] at this
      exact absurd this (by decide)
    · rw [h1] at x; cases x
  | is_ hf hq hb hn hd1 h ih =>
    have l1 := ih.1
    obtain ⟨rfl, rfl⟩ := hq rfl
    have e := dots_eq hd1
    subst e
    refine ⟨by simp; omega, fun n hn' => name_exec hf (x_bind (ref_exec hb ?_) rfl)⟩
    simp only [List.length_cons] at hn'
    unfold ref
    refine x_bind (typName_exec hd1) (x_peek (x_pos (.inr rfl) ?_))
    rw [decide_eq_false hn]
    exact x_pure (f := fun w => _) (x_peek (x_pos rfl (x_next (x_bind (ih.2 n (by omega)) rfl))))
  | assertsIs _ h ih =>
    have l1 := ih.1
    refine ⟨by simp; omega, fun n hn => name_exec free_asserts (x_bind (ref_exec (fun h => absurd h (by decide)) ?_) rfl)⟩
    simp only [List.length_cons] at hn
    unfold ref
    refine x_bind (typName_exec (.nil (by simp [hd]))) (x_peek (x_pos (.inl ⟨rfl, .inl rfl⟩) ?_))
    refine x_bind (m := about _ _ _) (x_pos rfl (x_neg (by simp [hd]) (x_bind (m := ident) rfl rfl))) ?_
    exact x_peek (x_pos rfl (x_next (x_bind (ih.2 n (by omega)) rfl)))
  | asserts _ h =>
    refine ⟨by simp; omega, fun n hn => name_exec free_asserts (x_bind (ref_exec (fun h => absurd h (by decide)) ?_) rfl)⟩
    unfold ref
    refine x_bind (typName_exec (.nil (by simp [hd]))) (x_peek (x_pos (.inl ⟨rfl, .inl rfl⟩) ?_))
    refine x_bind (m := about _ _ _) (x_pos rfl (x_neg (by simp [hd]) (x_bind (m := ident) rfl rfl))) ?_
    exact x_peek (x_neg h rfl)
  | assertsThisIs _ h ih =>
    have l1 := ih.1
    refine ⟨by simp; omega, fun n hn => name_exec free_asserts (x_bind (ref_exec (fun h => absurd h (by decide)) ?_) rfl)⟩
    simp only [List.length_cons] at hn
    unfold ref
    refine x_bind (typName_exec (.nil (by simp [hd]))) (x_peek (x_pos (.inl ⟨rfl, .inr rfl⟩) ?_))
    refine x_bind (m := about _ _ _) (x_pos rfl (x_pos (by simp [hd]) (x_next rfl))) ?_
    exact x_peek (x_pos rfl (x_next (x_bind (ih.2 n (by omega)) rfl)))
  | assertsThis _ h =>
    refine ⟨by simp; omega, fun n hn => name_exec free_asserts (x_bind (ref_exec (fun h => absurd h (by decide)) ?_) rfl)⟩
    unfold ref
    refine x_bind (typName_exec (.nil (by simp [hd]))) (x_peek (x_pos (.inl ⟨rfl, .inr rfl⟩) ?_))
    refine x_bind (m := about _ _ _) (x_pos rfl (x_pos (by simp [hd]) (x_next rfl))) ?_
    exact x_peek (x_neg h rfl)
  | isText h => cases h
  | constText h => cases h
  | constIs h => cases h
  | obj hk hx =>
    refine ⟨T _ _ _ (.inl ⟨_, hx⟩), fun n hn => ?_⟩
    unfold prim
    refine x_peek ?_
    rw [hk]
    exact x_call hx rfl
  | tuple h h1 h2 ih =>
    have l1 := ih.1
    refine ⟨by simp; omega, fun n hn => ?_⟩
    simp only [List.length_cons] at hn
    unfold prim
    exact x_peek (x_next (x_bind (ih.2 n (by omega) [] h1 h2) rfl))
  | this h =>
    refine ⟨by simp, fun n hn => ?_⟩
    unfold prim
    exact x_peek (x_next (x_peek (x_neg h rfl)))
  | thisIs _ h ih =>
    have l1 := ih.1
    refine ⟨by simp; omega, fun n hn => ?_⟩
    simp only [List.length_cons] at hn
    unfold prim
    refine x_peek (x_next (x_peek (x_pos rfl ?_)))
    exact x_bind (m := predicate (run C n) .this false false) (x_pure (f := fun w => _) (x_peek (x_pos rfl (x_next (x_bind (ih.2 n (by omega)) rfl))))) rfl
  | par hm h ht ha ho ih =>
    obtain ⟨l1, h4⟩ := plist_one (first_plain hm ih (by simp [hd]) (by simp [hd]))
    refine ⟨by simp; omega, .inl rfl, fun n hn => ?_⟩
    unfold paren
    refine x_bind (tpars_exec (.nil (by simp [hd]))) (x_bind (h4 n _ (by simpa using hn)) (x_peek (x_neg ha ?_)))
    simp only [asTyp_iff.2 ht]
    exact x_neg (by simp [ho]) rfl
  | parUni hm _ h ht hne hops hop hw hq ih1 ih2 =>
    obtain ⟨l1, h4⟩ := plist_one (first_plain hm ih1 (by simp [hd]) (by simp [hd]))
    have l2 := opsExec_length ih2
    refine ⟨by simp; omega, .inl rfl, fun n hn => ?_⟩
    simp only [List.length_cons] at hn
    rw [hw (hq rfl).2.2]
    rename_i s' m' r' _
    have hm1 : isOp (hd m').k = true := by
      rcases opsExec_head ih2 with ⟨h, -⟩ | ⟨o, m, l, -, h⟩
      · exact absurd h hne
      · rw [h]; cases o <;> rfl
    have hm2 : (hd m').k ≠ .arrow := fun h => by rw [h] at hm1; cases hm1
    unfold paren
    refine x_bind (tpars_exec (.nil (by simp [hd]))) (x_bind (h4 n _ hn) (x_peek (x_neg hm2 ?_)))
    simp only [asTyp_iff.2 ht]
    refine x_pos hm1 ?_
    obtain ⟨k, rfl⟩ : ∃ k, n = k + 1 := ⟨n - 1, by omega⟩
    change uni (run C k) _ _ _ _ _ = _
    unfold uni operand
    exact x_pure (x_neg (by simp) (loop_exec _ (Nat.le_refl _) (st := .b0 _) ih2 (hq rfl).2.2 (.inl rfl) (by simp [hop]) ⟨rfl, rfl⟩ (by omega)))
  | fn _ htp hl hf ht ihl iht =>
    have l0 := tpar_length T htp
    have l1 := ihl.1
    have l2 := iht.1
    simp only [List.length_cons] at l0 l1
    refine ⟨by omega, ?_, fun n hn => ?_⟩
    · cases htp with
      | nil _ => exact .inl rfl
      | cons h _ => exact .inr h
    · unfold paren
      refine x_bind (tpars_exec htp) (x_bind (ihl.2 n _ (by omega)) (x_peek (x_pos rfl ?_)))
      simp only [asFirst_iff.2 hf]
      exact x_must (x_bind (iht.2 n (by omega)) rfl)
  | parOdd h => cases h
  | parUniOdd h => cases h
  | parNone h => cases h
  | moreNil => exact ⟨by simp, fun n hn acc => by rw [plist_close (by omega)]; simp⟩
  | moreLast h1 h2 hx hp h ih =>
    have l0 := T _ _ _ (.inr (.inr (.inl hx)))
    have l1 := ih.1
    refine ⟨by omega, fun n hn acc => ?_⟩
    obtain ⟨k, rfl⟩ : ∃ k, n = k + 1 := ⟨n - 1, by omega⟩
    refine x_peek (x_neg h1 (x_neg h2 (x_call hx (x_peek (x_neg (by simp [hp]) (x_pos hp ?_))))))
    rw [ih.2 k (by omega)]; simp
  | moreCons h1 h2 hx h ih =>
    have l0 := T _ _ _ (.inr (.inr (.inl hx)))
    have l1 := ih.1
    simp only [List.length_cons] at l0
    refine ⟨by omega, fun n hn acc => ?_⟩
    obtain ⟨k, rfl⟩ : ∃ k, n = k + 1 := ⟨n - 1, by omega⟩
    refine x_peek (x_neg h1 (x_neg h2 (x_call hx (x_peek (x_pos rfl (x_next ?_))))))
    rw [ih.2 k (by omega)]; simp
  | first hm h h1 h2 ih => exact first_plain hm ih h1 h2
  | firstOpt hm h h1 h2 ih =>
    have l0 := ih.1
    simp only [List.length_cons] at l0
    refine ⟨by omega, hm, typ_start ih, fun n hn => ?_⟩
    unfold roughParam
    exact x_bind (ih.2 n (by omega)) (x_bind opt_yes (x_neg (by simp [this_ne h1]) (x_peek (x_neg h2 rfl))))
  | firstTy hm h h1 ih ih1 =>
    have l0 := ih.1
    have l1 := ih1.1
    simp only [List.length_cons] at l0
    refine ⟨by omega, hm, typ_start ih, fun n hn => ?_⟩
    unfold roughParam
    exact x_bind (ih.2 n (by omega)) (x_bind (opt_no (by simp [hd])) (x_neg (by simp) (x_peek (x_pos rfl (x_next
      (x_bind (ih1.2 n (by omega)) rfl))))))
  | firstOptTy hm h h1 h2 ih ih1 =>
    have l0 := ih.1
    have l1 := ih1.1
    simp only [List.length_cons] at l0
    refine ⟨by omega, hm, typ_start ih, fun n hn => ?_⟩
    unfold roughParam
    exact x_bind (ih.2 n (by omega)) (x_bind opt_yes (x_neg (by simp [this_ne h1]) (x_peek (x_pos rfl (x_next
      (x_bind (ih1.2 n (by omega)) rfl))))))
  | plistNil =>
    refine ⟨by simp, fun n a hn => ?_⟩
    exact x_must (x_peek (x_pos rfl (x_next rfl)))
  | plistOne h ih => exact plist_one ih
  | plistCons h h1 ih ih1 =>
    obtain ⟨l0, h2, h3, h4⟩ := ih
    have l1 := ih1.1
    simp only [List.length_cons] at l0
    refine ⟨by omega, fun n b hn => ?_⟩
    unfold roughList
    refine x_must (x_peek (x_neg (noTyp_ne h3 rfl) (x_neg (noTyp_ne h3 rfl) (x_neg (by simp [h2]) (x_bind (h4 n hn)
      (x_peek (x_pos rfl (x_next ?_))))))))
    rw [ih1.2 n (by omega)]; rfl
  | arg hs h h1 ih =>
    refine ⟨ih.1, startsArg_iff.2 hs, fun n hn => ?_⟩
    exact x_bind (ih.2 n (by omega)) (x_peek (x_neg h1 rfl))
  | argExt h => cases h
  | argsLast h ih =>
    obtain ⟨l0, h2, h3⟩ := ih
    simp only [List.length_cons] at l0
    refine ⟨by omega, fun n hn acc => ?_⟩
    obtain ⟨k, rfl⟩ : ∃ k, n = k + 1 := ⟨n - 1, by omega⟩
    exact x_peek (x_neg (fun h => by rw [h] at h2; cases h2) (x_pos h2 (x_bind (h3 k (by omega)) (x_peek (x_neg (by simp [hd]) (x_pos rfl (x_next rfl)))))))
  | argsCons h h1 ih ih1 =>
    obtain ⟨l0, h2, h3⟩ := ih
    have l1 := ih1.1
    simp only [List.length_cons] at l0
    refine ⟨by omega, fun n hn acc => ?_⟩
    obtain ⟨k, rfl⟩ : ∃ k, n = k + 1 := ⟨n - 1, by omega⟩
    refine x_peek (x_neg (fun h => by rw [h] at h2; cases h2) (x_pos h2 (x_bind (h3 k (by omega)) (x_peek (x_pos rfl (x_next ?_))))))
    rw [ih1.2 k (by omega)]; simp
  | argsComma h => cases h
  | mem hs h h1 h2 ih =>
    refine ⟨ih.1, fun n hn => ?_⟩
    obtain ⟨k, rfl⟩ : ∃ k, n = k + 1 := ⟨n - 1, by omega⟩
    exact x_peek (x_neg hs (x_bind (ih.2 k (by omega)) (x_peek (x_neg h1 (x_neg h2 rfl)))))
  | memNamed hs h hl h1 ih ih1 =>
    have l0 := ih.1
    have l1 := ih1.1
    simp only [List.length_cons] at l0
    refine ⟨by omega, fun n hn => ?_⟩
    obtain ⟨k, rfl⟩ : ∃ k, n = k + 1 := ⟨n - 1, by omega⟩
    refine x_peek (x_neg hs (x_bind (ih.2 k (by omega)) (x_peek (x_pos rfl ?_))))
    simp only [word_iff.2 hl]
    exact x_next (x_bind (ih1.2 k (by omega)) rfl)
  | memNamedOpt hs h hl h1 ih ih1 =>
    have l0 := ih.1
    have l1 := ih1.1
    simp only [List.length_cons] at l0
    refine ⟨by omega, fun n hn => ?_⟩
    obtain ⟨k, rfl⟩ : ∃ k, n = k + 1 := ⟨n - 1, by omega⟩
    refine x_peek (x_neg hs (x_bind (ih.2 k (by omega)) (x_peek (x_neg (by simp [hd]) (x_pos rfl ?_)))))
    simp only [word_iff.2 hl]
    exact x_next (x_peek (x_pos rfl (x_next (x_bind (ih1.2 k (by omega)) rfl))))
  | memOpt hs h h1 h2 ih =>
    have l0 := ih.1
    simp only [List.length_cons] at l0
    refine ⟨by omega, fun n hn => ?_⟩
    obtain ⟨k, rfl⟩ : ∃ k, n = k + 1 := ⟨n - 1, by omega⟩
    refine x_peek (x_neg hs (x_bind (ih.2 k (by omega)) (x_peek (x_neg (by simp [hd]) (x_pos rfl ?_)))))
    cases hl : label _ with
    | some v =>
      rename_i s' r'
      have hc : (hd r').k ≠ .colon := by
        rcases h1 with h | h
        · exact h
        · rw [no_word.2 h] at hl; cases hl
      exact x_next (x_peek (x_neg hc rfl))
    | none => exact x_pos h2 (x_next rfl)
  | memRest h h1 ih =>
    have l0 := ih.1
    refine ⟨by simp; omega, fun n hn => ?_⟩
    simp only [List.length_cons] at hn
    obtain ⟨k, rfl⟩ : ∃ k, n = k + 1 := ⟨n - 1, by omega⟩
    exact x_peek (x_pos rfl (x_next (x_bind (ih.2 k (by omega)) (x_pos h1 rfl))))
  | memsNil =>
    refine ⟨by simp, fun n hn acc _ _ => ?_⟩
    obtain ⟨k, rfl⟩ : ∃ k, n = k + 1 := ⟨n - 1, by omega⟩
    rw [List.append_nil]
    exact x_peek (x_pos rfl (x_next rfl))
  | memsCons hs h h1 ih ih1 =>
    have l0 := ih.1
    have l1 := ih1.1
    simp only [List.length_cons] at l0
    refine ⟨by omega, fun n hn acc ho ha => ?_⟩
    obtain ⟨k, rfl⟩ : ∃ k, n = k + 1 := ⟨n - 1, by omega⟩
    have e : ∀ (x : Nd X) l, acc ++ x :: l = (acc ++ [x]) ++ l := by simp
    refine x_peek (x_neg hs (x_bind (ih.2 k (by omega)) (x_pos (mayFollow_of ho) (x_peek (x_pos rfl (x_next (x_pos ?_ ?_)))))))
    · rw [e] at ha; exact allNamed_of ha
    · rw [e] at ha ho; refine (ih1.2 k (by omega) _ ho ha).trans ?_; rw [← e]
  | memsNext hs h hc hq h1 ih ih1 =>
    have l0 := ih.1
    have l1 := ih1.1
    refine ⟨by omega, fun n hn acc ho ha => ?_⟩
    obtain ⟨k, rfl⟩ : ∃ k, n = k + 1 := ⟨n - 1, by omega⟩
    have e : ∀ (x : Nd X) l, acc ++ x :: l = (acc ++ [x]) ++ l := by simp
    refine x_peek (x_neg hs (x_bind (ih.2 k (by omega)) (x_pos (mayFollow_of ho) (x_peek (x_neg hc (x_pos ?_ ?_))))))
    · rw [e] at ha; exact allNamed_of ha
    · rw [e] at ha ho; refine (ih1.2 k (by omega) _ ho ha).trans ?_; rw [← e]

end Mole.Parser.TsType
