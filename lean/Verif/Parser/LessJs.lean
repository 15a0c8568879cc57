import Verif.Parser.LessSound
/-!
# `<` without TypeScript: lemmas
-/
namespace Mole.Parser.Less

mutual
theorem tail_js : ∀ {x : X} {us : List Tok}, Written x us → ∀ (f : Nat) (o : Bool) (rest : List Tok) (stk : List (List Tok)) (lts : List Nat),
    x.noTys = true → stops rest = true → (us ++ rest).length + 3 ≤ f →
    tail false f o ⟨us ++ rest, stk, lts⟩ = .ok x ⟨rest, stk, lts⟩
  | _, _, .done, f, o, rest, stk, lts, _, hs, hf => by
    obtain ⟨f', rfl⟩ : ∃ f', f = f' + 1 := ⟨f - 1, by omega⟩
    simp [tail_stop (s := ⟨rest, stk, lts⟩) hs]
  | _, _, .mem p n w, f, o, rest, stk, lts, h, hs, hf => by
    obtain ⟨f', rfl⟩ : ∃ f', f = f' + 1 := ⟨f - 1, by omega⟩
    have e := tail_js w f' (o || p) rest stk lts (by simpa [X.noTys] using h) hs (by simp at hf ⊢; omega)
    simp [tail, e, Res.map]
  | _, _, .sub (us := us) n wi wx, f, o, rest, stk, lts, h, hs, hf => by
    obtain ⟨f', rfl⟩ : ∃ f', f = f' + 1 := ⟨f - 1, by omega⟩
    simp only [X.noTys, Bool.and_eq_true] at h
    have e1 := tail_js wi f' false (.rb :: (us ++ rest)) stk lts h.1 (by simp [stops]) (by simp at hf ⊢; omega)
    have e2 := tail_js wx f' o rest stk lts h.2 hs (by simp at hf ⊢; omega)
    simp [tail, e1, e2, Res.map]
  | _, _, .call (us := us) wa wx, f, o, rest, stk, lts, h, hs, hf => by
    obtain ⟨f', rfl⟩ : ∃ f', f = f' + 1 := ⟨f - 1, by omega⟩
    simp only [X.noTys, Bool.and_eq_true] at h
    have e1 := args_js wa f' (us ++ rest) stk lts h.1 (by simp at hf ⊢; omega)
    have e2 := tail_js wx f' o rest stk lts h.2 hs (by simp at hf ⊢; omega)
    simp [tail, e1, e2, Res.map]
  | _, _, .generic (l := .nil) _ hn _ _, _, _, _, _, _, _, _, _ => absurd rfl hn
  | _, _, .generic (l := .cons _ _) _ _ _ _, _, _, _, _, _, h, _, _ => by simp [X.noTys] at h
  | _, _, .op p n ho w, f, o, rest, stk, lts, h, hs, hf => by
    obtain ⟨f', rfl⟩ : ∃ f', f = f' + 1 := ⟨f - 1, by omega⟩
    have e := tail_js w f' false rest stk lts (by simpa [X.noTys] using h) hs (by simp at hf ⊢; omega)
    rcases ho with rfl | rfl | rfl <;> simp [tail, ops, isOp, e, Res.map]
  | _, _, .par (us := us) p n ho wi wx, f, o, rest, stk, lts, h, hs, hf => by
    obtain ⟨f', rfl⟩ : ∃ f', f = f' + 1 := ⟨f - 1, by omega⟩
    simp only [X.noTys, Bool.and_eq_true] at h
    have e1 := tail_js wi f' false (.rp :: (us ++ rest)) stk lts h.1 (by simp [stops]) (by simp at hf ⊢; omega)
    have e2 := tail_js wx f' false rest stk lts h.2 hs (by simp at hf ⊢; omega)
    rcases ho with rfl | rfl <;> simp [tail, ops, isOp, e1, e2, Res.map]
theorem args_js : ∀ {a : A} {us : List Tok}, ArgsWritten a us → ∀ (f : Nat) (rest : List Tok) (stk : List (List Tok)) (lts : List Nat),
    a.noTys = true → (us ++ rest).length + 3 ≤ f → args false f ⟨us ++ rest, stk, lts⟩ = .ok a ⟨rest, stk, lts⟩
  | _, _, .nil, f, rest, stk, lts, _, hf => by
    obtain ⟨f', rfl⟩ : ∃ f', f = f' + 1 := ⟨f - 1, by omega⟩
    simp [args]
  | _, _, .last n w, f, rest, stk, lts, h, hf => by
    obtain ⟨f', rfl⟩ : ∃ f', f = f' + 1 := ⟨f - 1, by omega⟩
    simp only [A.noTys, Bool.and_eq_true] at h
    have e := tail_js w f' false (.rp :: rest) stk lts h.1 (by simp [stops]) (by simp at hf ⊢; omega)
    simp [args, e]
  | _, _, .cons (us := us) n w wa, f, rest, stk, lts, h, hf => by
    obtain ⟨f', rfl⟩ : ∃ f', f = f' + 1 := ⟨f - 1, by omega⟩
    simp only [A.noTys, Bool.and_eq_true] at h
    have e1 := tail_js w f' false (.comma :: (us ++ rest)) stk lts h.1 (by simp [stops]) (by simp at hf ⊢; omega)
    have e2 := args_js wa f' rest stk lts h.2 (by simp at hf ⊢; omega)
    simp [args, e1, e2, Res.map]
end

end Mole.Parser.Less
