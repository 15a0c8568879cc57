import Verif.Parser.LessSpec
/-!
# `<` in TypeScript: lemmas
-/
namespace Mole.Parser.Less

/-- No `>`, no `[`, and no `(` right behind a comma or a `<`. -/
def good : List Tok → Bool
  | [] => true
  | t :: r => t != .gt && t != .lb && (!(t == .comma || t == .lt) || r.head? != some .lp) && good r

/-- Where an expression ends. -/
def stops : List Tok → Bool
  | [] => true
  | t :: _ => t == .rp || t == .comma || t == .rb

theorem good_tail {t r} (h : good (t :: r) = true) : good r = true := by
  simp only [good, Bool.and_eq_true] at h; exact h.2

theorem members_eq : ∀ r : List Tok, r = (members r).1.map (.mem false) ++ (members r).2
  | [] => rfl
  | .mem false n :: r => by simp [members, ← members_eq r]
  | .mem true n :: r => rfl
  | .atom _ :: _ | .lt :: _ | .gt :: _ | .plus :: _ | .comma :: _ | .lp :: _ | .rp :: _ | .lb :: _ | .rb :: _ => rfl

theorem members_len (r : List Tok) : (members r).2.length ≤ r.length := by
  have := congrArg List.length (members_eq r)
  simp at this; omega

theorem good_members : ∀ r : List Tok, good r = true → good (members r).2 = true
  | [], h => h
  | .mem false n :: r, h => by simpa [members] using good_members r (good_tail h)
  | .mem true n :: r, h => h
  | .atom _ :: _, h | .lt :: _, h | .gt :: _, h | .plus :: _, h | .comma :: _, h | .lp :: _, h | .rp :: _, h | .lb :: _, h
  | .rb :: _, h => h

mutual
theorem typ_lt_fuel : ∀ (f n q : Nat) (r : List Tok), r.length + 2 ≤ f → good r = true →
    (∃ p, typ f q (.atom n :: r) = .err (.missing p)) ∨
    ((∀ r1, (members r).2 ≠ .lt :: r1) ∧ typ f q (.atom n :: r) = .ok (.name n (members r).1 .nil) (members r).2 q)
  | 0, _, _, _, h, _ => by omega
  | f + 1, n, q, r, h, g => by
    have hm := members_len r
    replace g := good_members r g
    match e : (members r).2, g with
    | [], g =>
      right
      obtain ⟨f', rfl⟩ : ∃ f', f = f' + 1 := ⟨f - 1, by omega⟩
      exact ⟨by simp, by simp [typ, suffix, e]⟩
    | t :: r', g =>
      rw [e] at hm
      simp at hm
      obtain ⟨f', rfl⟩ : ∃ f', f = f' + 1 := ⟨f - 1, by omega⟩
      by_cases ht : t = .lt
      · subst ht
        left
        obtain ⟨p, hp⟩ := argLoop_missing (f' + 1) (r'.length + 1) true r' (by omega) (good_tail g)
          (by simp [good] at g; exact g.1)
        exact ⟨p, by simp [typ, e, hp]⟩
      · right
        refine ⟨by intro r1 h; cases h; exact ht rfl, ?_⟩
        have hl : t ≠ .lb := by intro h; subst h; simp [good] at g
        cases t <;> first | (exact absurd rfl ht) | (exact absurd rfl hl) | simp [typ, suffix, e]
theorem argLoop_missing : ∀ (f pos : Nat) (first : Bool) (r : List Tok), r.length + 2 ≤ f → good r = true →
    r.head? ≠ some .lp → ∃ p, argLoop f pos first r = .err (.missing p)
  | 0, _, _, _, h, _, _ => by omega
  | f + 1, pos, first, r, h, g, hh => by
    match r, h, g, hh with
    | [], h, g, hh => exact ⟨pos, by simp [argLoop]⟩
    | t :: r, h, g, hh =>
      match t, h, g, hh with
      | .atom n, h, g, hh =>
        rcases typ_lt_fuel f n pos r (by simp at h; omega) (good_tail g) with ⟨p, hp⟩ | ⟨h1, hp⟩
        · exact ⟨p, by simp [argLoop, hp]⟩
        · have hm := members_len r
          replace g := good_members r (good_tail g)
          replace h : (members r).2.length + 3 ≤ f + 1 := by simp at h; omega
          generalize (members r).2 = r', (members r).1 = ms at hp h1 g h
          match r', h, g, h1, hp with
          | [], h, g, h1, hp => exact ⟨pos, by simp [argLoop, hp]⟩
          | .comma :: r, h, g, h1, hp =>
            have g1 := g
            obtain ⟨p, hq⟩ := argLoop_missing f pos false r (by simp at h; omega) (good_tail g1)
              (by simp [good] at g1; exact g1.1)
            exact ⟨p, by simp [argLoop, hp, hq, TRes.map]⟩
          | .gt :: r, h, g, h1, hp => simp [good] at g
          | .atom _ :: r, h, g, h1, hp | .mem _ _ :: r, h, g, h1, hp | .lt :: r, h, g, h1, hp | .plus :: r, h, g, h1, hp
          | .lp :: r, h, g, h1, hp | .rp :: r, h, g, h1, hp | .lb :: r, h, g, h1, hp | .rb :: r, h, g, h1, hp =>
            exact ⟨pos, by simp [argLoop, hp]⟩
      | .gt, h, g, hh => simp [good] at g
      | .lp, h, g, hh => simp at hh
      | .mem _ _, h, g, hh | .lt, h, g, hh | .plus, h, g, hh | .comma, h, g, hh
      | .rp, h, g, hh | .lb, h, g, hh | .rb, h, g, hh => exact ⟨pos, by simp [argLoop]⟩
end

theorem ops_stop {k s} (h : stops s.toks = true) : ops k s = .ok .done s := by
  obtain ⟨ts, st, l⟩ := s
  match ts, h with
  | [], _ => rfl
  | t :: r, h =>
    cases t <;> simp [stops] at h <;> simp [ops, isOp]

theorem tail_stop {T f o s} (h : stops s.toks = true) : tail T (f + 1) o s = .ok .done s := by
  obtain ⟨ts, st, l⟩ := s
  match ts, h with
  | [], _ => simp [tail, ops]
  | t :: r, h =>
    cases t <;> simp [stops] at h <;> simp [tail, ops, isOp]

end Mole.Parser.Less
