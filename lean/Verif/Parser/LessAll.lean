import Verif.Parser.LessJs
/-!
# `<` in TypeScript: lemmas on all ways to write an expression
-/
namespace Mole.Parser.Less

theorem tyWritten_head : ∀ {t : Ty} {us : List Tok}, TyWritten t us → ∃ n r, us = .atom n :: r
  | _, _, .name n ms => ⟨n, _, rfl⟩
  | _, _, .app n ms _ _ => ⟨n, _, rfl⟩
  | _, _, .idx w _ => by obtain ⟨n, r, rfl⟩ := tyWritten_head w; exact ⟨n, _, rfl⟩
  | _, _, .arr w => by obtain ⟨n, r, rfl⟩ := tyWritten_head w; exact ⟨n, _, rfl⟩

mutual
theorem typ_written : ∀ {t : Ty} {us : List Tok}, TyWritten t us → ∀ (f q : Nat) (u : Tok) (rest : List Tok), u ≠ .lt →
    (∀ n, u ≠ .mem false n) → (us ++ u :: rest).length ≤ f →
    ∃ f' p, rest.length + 1 ≤ f' ∧ typ f q (us ++ u :: rest) = suffix f' p t (u :: rest)
  | _, _, .name n ms, f, q, u, rest, hu, hm, hf => by
    obtain ⟨f', rfl⟩ : ∃ f', f = f' + 1 := ⟨f - 1, by simp at hf; omega⟩
    refine ⟨f', q, by simp at hf; omega, ?_⟩
    have := members_show hm rest ms
    cases u <;> first | (exact absurd rfl hu) | simp [typ, this]
  | _, _, .app (l := l) (ts := ts) n ms w hn, f, q, u, rest, hu, hm, hf => by
    obtain ⟨f', rfl⟩ : ∃ f', f = f' + 1 := ⟨f - 1, by simp at hf; omega⟩
    have hl := hf
    simp at hl
    have := members_show (u := .lt) (by simp) (ts ++ u :: rest) ms
    obtain ⟨p, e⟩ := argLoop_written w f' ((ts ++ u :: rest).length + 1) true (u :: rest) (fun _ => hn) (by simp; omega)
    refine ⟨f', p, by omega, ?_⟩
    simp at e
    simp [typ, this, e]
  | _, _, .idx (us := us) w wi, f, q, u, rest, hu, hm, hf => by
    obtain ⟨f1, p1, h1, e1⟩ := typ_written w f q .lb (us ++ .rb :: u :: rest) (by simp) (by simp) (by simp at hf ⊢; omega)
    obtain ⟨f2, rfl⟩ : ∃ f', f1 = f' + 1 := ⟨f1 - 1, by omega⟩
    obtain ⟨f3, p3, h3, e3⟩ := typ_written wi f2 p1 .rb (u :: rest) (by simp) (by simp) (by simp at h1 ⊢; omega)
    obtain ⟨f4, rfl⟩ : ∃ f', f3 = f' + 1 := ⟨f3 - 1, by omega⟩
    rw [suffix_end (by simp)] at e3
    refine ⟨f2, p3, by simp at h1; omega, ?_⟩
    simp only [List.append_assoc, List.cons_append, List.nil_append, e1]
    obtain ⟨v, r, rfl⟩ := tyWritten_head wi
    simp only [List.cons_append] at e3 ⊢
    simp [suffix, e3]
  | _, _, .arr w, f, q, u, rest, hu, hm, hf => by
    obtain ⟨f1, p1, h1, e1⟩ := typ_written w f q .lb (.rb :: u :: rest) (by simp) (by simp) (by simp at hf ⊢; omega)
    obtain ⟨f2, rfl⟩ : ∃ f', f1 = f' + 1 := ⟨f1 - 1, by omega⟩
    exact ⟨f2, p1, by simp at h1; omega, by simp [e1, suffix]⟩
theorem argLoop_written : ∀ {l : Tys} {us : List Tok}, TysWritten l us → ∀ (f pos : Nat) (first : Bool) (rest : List Tok),
    (first = true → l ≠ .nil) → (us ++ rest).length + 1 ≤ f → ∃ p, argLoop f pos first (us ++ rest) = .ok l rest p
  | _, _, .nil, f, pos, first, rest, hn, hf => by
    obtain ⟨f', rfl⟩ : ∃ f', f = f' + 1 := ⟨f - 1, by omega⟩
    have : first = false := by
      cases first
      · rfl
      · exact absurd rfl (hn rfl)
    exact ⟨pos, by simp [argLoop, this]⟩
  | _, _, .last w, f, pos, first, rest, hn, hf => by
    obtain ⟨f', rfl⟩ : ∃ f', f = f' + 1 := ⟨f - 1, by omega⟩
    simp only [List.append_assoc, List.cons_append, List.nil_append] at hf ⊢
    obtain ⟨f1, p1, h1, e1⟩ := typ_written w f' pos .gt rest (by simp) (by simp) (by omega)
    obtain ⟨f2, rfl⟩ : ∃ f', f1 = f' + 1 := ⟨f1 - 1, by omega⟩
    rw [suffix_end (by simp)] at e1
    obtain ⟨v, r, rfl⟩ := tyWritten_head w
    simp only [List.cons_append] at e1 ⊢
    exact ⟨p1, by simp [argLoop, e1]⟩
  | _, _, .cons (us := us) w wl, f, pos, first, rest, hn, hf => by
    obtain ⟨f', rfl⟩ : ∃ f', f = f' + 1 := ⟨f - 1, by omega⟩
    simp only [List.append_assoc, List.cons_append] at hf ⊢
    obtain ⟨f1, p1, h1, e1⟩ := typ_written w f' pos .comma (us ++ rest) (by simp) (by simp) (by omega)
    obtain ⟨f2, rfl⟩ : ∃ f', f1 = f' + 1 := ⟨f1 - 1, by omega⟩
    rw [suffix_end (by simp)] at e1
    obtain ⟨p, e⟩ := argLoop_written wl f' p1 false rest (by simp) (by simp at hf ⊢; omega)
    obtain ⟨v, r, rfl⟩ := tyWritten_head w
    simp only [List.cons_append] at e1 ⊢
    exact ⟨p, by simp [argLoop, e1, e, TRes.map]⟩
end

mutual
theorem tail_generic : ∀ {x : X} {us : List Tok}, Written x us → ∀ (f : Nat) (o : Bool) (rest : List Tok) (stk : List (List Tok)),
    x.noLess = true → stops rest = true → (us ++ rest).length + 3 ≤ f →
    tail true f o ⟨us ++ rest, stk, []⟩ = .ok x ⟨rest, stk, []⟩
  | _, _, .done, f, o, rest, stk, _, hs, hf => by
    obtain ⟨f', rfl⟩ : ∃ f', f = f' + 1 := ⟨f - 1, by omega⟩
    simp [tail_stop (s := ⟨rest, stk, []⟩) hs]
  | _, _, .mem p n w, f, o, rest, stk, h, hs, hf => by
    obtain ⟨f', rfl⟩ : ∃ f', f = f' + 1 := ⟨f - 1, by omega⟩
    have e := tail_generic w f' (o || p) rest stk (by simpa [X.noLess] using h) hs (by simp at hf ⊢; omega)
    simp [tail, e, Res.map]
  | _, _, .sub (us := us) n wi wx, f, o, rest, stk, h, hs, hf => by
    obtain ⟨f', rfl⟩ : ∃ f', f = f' + 1 := ⟨f - 1, by omega⟩
    simp only [X.noLess, Bool.and_eq_true] at h
    have e1 := tail_generic wi f' false (.rb :: (us ++ rest)) stk h.1 (by simp [stops]) (by simp at hf ⊢; omega)
    have e2 := tail_generic wx f' o rest stk h.2 hs (by simp at hf ⊢; omega)
    simp [tail, e1, e2, Res.map]
  | _, _, .call (us := us) wa wx, f, o, rest, stk, h, hs, hf => by
    obtain ⟨f', rfl⟩ : ∃ f', f = f' + 1 := ⟨f - 1, by omega⟩
    simp only [X.noLess, Bool.and_eq_true] at h
    have e1 := args_generic wa f' (us ++ rest) stk h.1 (by simp at hf ⊢; omega)
    have e2 := tail_generic wx f' o rest stk h.2 hs (by simp at hf ⊢; omega)
    simp [tail, e1, e2, Res.map]
  | _, _, .generic (ls := ls) (ts := ts) (us := us) wl hn wa wx, f, o, rest, stk, h, hs, hf => by
    obtain ⟨f', rfl⟩ : ∃ f', f = f' + 1 := ⟨f - 1, by omega⟩
    simp only [X.noLess, Bool.and_eq_true] at h
    have e2 := tail_generic wx f' o rest stk h.2 hs (by simp at hf ⊢; omega)
    obtain ⟨p, e0⟩ := argLoop_written wl f' ((.lt :: (ls ++ .lp :: (ts ++ us))) ++ rest).length true (.lp :: (ts ++ (us ++ rest)))
      (fun _ => hn) (by simp at hf ⊢; omega)
    have e1 := args_generic wa f' (us ++ rest) (((.lt :: (ls ++ .lp :: (ts ++ us))) ++ rest) :: stk) h.1 (by simp at hf ⊢; omega)
    simp only [List.cons_append, List.append_assoc] at e0 e1 ⊢
    simp only [List.length_cons, List.length_append] at e0
    simp [tail, e0, push, discard, e1, e2, Res.map]
  | _, _, .op p n ho w, f, o, rest, stk, h, hs, hf => by
    obtain ⟨f', rfl⟩ : ∃ f', f = f' + 1 := ⟨f - 1, by omega⟩
    simp only [X.noLess, Bool.and_eq_true, Bool.or_eq_true, beq_iff_eq] at h
    have e := tail_generic w f' false rest stk h.2 hs (by simp at hf ⊢; omega)
    rcases h.1 with rfl | rfl <;> simp [tail, ops, isOp, e, Res.map]
  | _, _, .par (us := us) p n ho wi wx, f, o, rest, stk, h, hs, hf => by
    obtain ⟨f', rfl⟩ : ∃ f', f = f' + 1 := ⟨f - 1, by omega⟩
    simp only [X.noLess, Bool.and_eq_true] at h
    have e1 := tail_generic wi f' false (.rp :: (us ++ rest)) stk h.1.2 (by simp [stops]) (by simp at hf ⊢; omega)
    have e2 := tail_generic wx f' false rest stk h.2 hs (by simp at hf ⊢; omega)
    rcases ho with rfl | rfl <;> simp [tail, ops, isOp, e1, e2, Res.map]
theorem args_generic : ∀ {a : A} {us : List Tok}, ArgsWritten a us → ∀ (f : Nat) (rest : List Tok) (stk : List (List Tok)),
    a.noLess = true → (us ++ rest).length + 3 ≤ f → args true f ⟨us ++ rest, stk, []⟩ = .ok a ⟨rest, stk, []⟩
  | _, _, .nil, f, rest, stk, _, hf => by
    obtain ⟨f', rfl⟩ : ∃ f', f = f' + 1 := ⟨f - 1, by omega⟩
    simp [args]
  | _, _, .last n w, f, rest, stk, h, hf => by
    obtain ⟨f', rfl⟩ : ∃ f', f = f' + 1 := ⟨f - 1, by omega⟩
    simp only [A.noLess, Bool.and_eq_true] at h
    have e := tail_generic w f' false (.rp :: rest) stk h.1 (by simp [stops]) (by simp at hf ⊢; omega)
    simp [args, e]
  | _, _, .cons (us := us) n w wa, f, rest, stk, h, hf => by
    obtain ⟨f', rfl⟩ : ∃ f', f = f' + 1 := ⟨f - 1, by omega⟩
    simp only [A.noLess, Bool.and_eq_true] at h
    have e1 := tail_generic w f' false (.comma :: (us ++ rest)) stk h.1 (by simp [stops]) (by simp at hf ⊢; omega)
    have e2 := args_generic wa f' rest stk h.2 (by simp at hf ⊢; omega)
    simp [args, e1, e2, Res.map]
end

mutual
theorem good_written : ∀ {x : X} {us : List Tok}, Written x us → ∀ (rest : List Tok), x.plain = true → good rest = true →
    good (us ++ rest) = true
  | _, _, .done, rest, _, g => by simpa using g
  | _, _, .mem p n w, rest, h, g => by
    simp only [X.plain, Bool.and_eq_true] at h
    simp [good, good_written w rest h.2 g]
  | _, _, .sub .., _, h, _ => by simp [X.plain] at h
  | _, _, .call (us := us) wa wx, rest, h, g => by
    simp only [X.plain, Bool.and_eq_true] at h
    have := goodArgs_written wa (us ++ rest) h.1 (good_written wx rest h.2 g)
    simp [good, this]
  | _, _, .generic (l := .nil) _ hn _ _, _, _, _ => absurd rfl hn
  | _, _, .generic (l := .cons _ _) _ _ _ _, _, h, _ => by simp [X.plain] at h
  | _, _, .op p n ho w, rest, h, g => by
    simp only [X.plain, Bool.and_eq_true, Bool.or_eq_true, beq_iff_eq] at h
    have := good_written w rest h.2 g
    rcases h.1 with rfl | rfl <;> simp [good, this]
  | _, _, .par (us := us) p n ho wi wx, rest, h, g => by
    simp only [X.plain, Bool.and_eq_true, beq_iff_eq] at h
    have := good_written wi (.rp :: (us ++ rest)) h.1.2 (by simp [good, good_written wx rest h.2 g])
    simp [h.1.1, good, this]
theorem goodArgs_written : ∀ {a : A} {us : List Tok}, ArgsWritten a us → ∀ (rest : List Tok), a.plain = true → good rest = true →
    good (us ++ rest) = true ∧ (us ++ rest).head? ≠ some .lp
  | _, _, .nil, rest, _, g => by simp [good, g]
  | _, _, .last n w, rest, h, g => by
    simp only [A.plain, Bool.and_eq_true] at h
    have := good_written w (.rp :: rest) h.1 (by simp [good, g])
    simp [good, this]
  | _, _, .cons (us := us) n w wa, rest, h, g => by
    simp only [A.plain, Bool.and_eq_true] at h
    have h2 := goodArgs_written wa rest h.2 g
    have := good_written w (.comma :: (us ++ rest)) h.1 (by simp [good, h2.1]; simpa using h2.2)
    simp [good, this]
end

mutual
theorem tail_less : ∀ {x : X} {us : List Tok}, Written x us → ∀ (f : Nat) (rest : List Tok) (stk : List (List Tok)) (lts : List Nat),
    x.plain = true → stops rest = true → good rest = true → (us ++ rest).length + 3 ≤ f →
    ∃ stk' lts', tail true f false ⟨us ++ rest, stk, lts⟩ = .ok x ⟨rest, stk', lts'⟩
  | _, _, .done, f, rest, stk, lts, _, hs, _, hf => by
    obtain ⟨f', rfl⟩ : ∃ f', f = f' + 1 := ⟨f - 1, by omega⟩
    exact ⟨stk, lts, by simp [tail_stop (s := ⟨rest, stk, lts⟩) hs]⟩
  | _, _, .mem p n w, f, rest, stk, lts, h, hs, g, hf => by
    obtain ⟨f', rfl⟩ : ∃ f', f = f' + 1 := ⟨f - 1, by omega⟩
    simp only [X.plain, Bool.and_eq_true, Bool.not_eq_true'] at h
    obtain ⟨rfl, hx⟩ := h
    obtain ⟨s1, l1, e⟩ := tail_less w f' rest stk lts hx hs g (by simp at hf ⊢; omega)
    exact ⟨s1, l1, by simp [tail, e, Res.map]⟩
  | _, _, .sub .., _, _, _, _, h, _, _, _ => by simp [X.plain] at h
  | _, _, .call (us := us) wa wx, f, rest, stk, lts, h, hs, g, hf => by
    obtain ⟨f', rfl⟩ : ∃ f', f = f' + 1 := ⟨f - 1, by omega⟩
    simp only [X.plain, Bool.and_eq_true] at h
    obtain ⟨s1, l1, e1⟩ := args_less wa f' (us ++ rest) stk lts h.1 (good_written wx rest h.2 g) (by simp at hf ⊢; omega)
    obtain ⟨s2, l2, e2⟩ := tail_less wx f' rest s1 l1 h.2 hs g (by simp at hf ⊢; omega)
    exact ⟨s2, l2, by simp [tail, e1, e2, Res.map]⟩
  | _, _, .generic (l := .nil) _ hn _ _, _, _, _, _, _, _, _, _ => absurd rfl hn
  | _, _, .generic (l := .cons _ _) _ _ _ _, _, _, _, _, h, _, _, _ => by simp [X.plain] at h
  | _, _, .op (ts := ts) p n ho w, f, rest, stk, lts, h, hs, g, hf => by
    obtain ⟨f', rfl⟩ : ∃ f', f = f' + 1 := ⟨f - 1, by omega⟩
    simp only [X.plain, Bool.and_eq_true, Bool.or_eq_true, beq_iff_eq] at h
    have hf' : (ts ++ rest).length + 3 ≤ f' := by simp at hf ⊢; omega
    rcases h.1 with rfl | rfl
    · by_cases hl : lts.contains ((ts ++ rest).length + 1 + 1) = true
      · obtain ⟨s1, l1, e⟩ := tail_less w f' rest stk lts h.2 hs g hf'
        refine ⟨s1, l1, ?_⟩
        simp at hl
        simp [tail, hl, ops, isOp, e, Res.map]
      · obtain ⟨q, hq⟩ := argLoop_missing f' ((ts ++ rest).length + 2) true (.atom n :: (ts ++ rest))
          (by simp at hf' ⊢; omega) (by simp [good, good_written w rest h.2 g]) (by simp)
        obtain ⟨s1, l1, e⟩ := tail_less w f' rest ((.lt :: .atom n :: (ts ++ rest)) :: stk) (q :: lts) h.2 hs g hf'
        refine ⟨s1, l1, ?_⟩
        simp at hl hq
        simp [tail, hl, hq, giveUp, push, ops, isOp, e, Res.map]
    · obtain ⟨s1, l1, e⟩ := tail_less w f' rest stk lts h.2 hs g hf'
      exact ⟨s1, l1, by simp [tail, ops, isOp, e, Res.map]⟩
  | _, _, .par (us := us) p n ho wi wx, f, rest, stk, lts, h, hs, g, hf => by
    obtain ⟨f', rfl⟩ : ∃ f', f = f' + 1 := ⟨f - 1, by omega⟩
    simp only [X.plain, Bool.and_eq_true, beq_iff_eq] at h
    obtain ⟨⟨rfl, hi⟩, hx⟩ := h
    obtain ⟨s1, l1, e1⟩ := tail_less wi f' (.rp :: (us ++ rest)) stk lts hi (by simp [stops])
      (by simp [good, good_written wx rest hx g]) (by simp at hf ⊢; omega)
    obtain ⟨s2, l2, e2⟩ := tail_less wx f' rest s1 l1 hx hs g (by simp at hf ⊢; omega)
    exact ⟨s2, l2, by simp [tail, ops, isOp, e1, e2, Res.map]⟩
theorem args_less : ∀ {a : A} {us : List Tok}, ArgsWritten a us → ∀ (f : Nat) (rest : List Tok) (stk : List (List Tok)) (lts : List Nat),
    a.plain = true → good rest = true → (us ++ rest).length + 3 ≤ f →
    ∃ stk' lts', args true f ⟨us ++ rest, stk, lts⟩ = .ok a ⟨rest, stk', lts'⟩
  | _, _, .nil, f, rest, stk, lts, _, _, hf => by
    obtain ⟨f', rfl⟩ : ∃ f', f = f' + 1 := ⟨f - 1, by omega⟩
    exact ⟨stk, lts, by simp [args]⟩
  | _, _, .last n w, f, rest, stk, lts, h, g, hf => by
    obtain ⟨f', rfl⟩ : ∃ f', f = f' + 1 := ⟨f - 1, by omega⟩
    simp only [A.plain, Bool.and_eq_true] at h
    obtain ⟨s1, l1, e⟩ := tail_less w f' (.rp :: rest) stk lts h.1 (by simp [stops]) (by simp [good, g]) (by simp at hf ⊢; omega)
    exact ⟨s1, l1, by simp [args, e]⟩
  | _, _, .cons (us := us) n w wa, f, rest, stk, lts, h, g, hf => by
    obtain ⟨f', rfl⟩ : ∃ f', f = f' + 1 := ⟨f - 1, by omega⟩
    simp only [A.plain, Bool.and_eq_true] at h
    have h2 := goodArgs_written wa rest h.2 g
    obtain ⟨s1, l1, e1⟩ := tail_less w f' (.comma :: (us ++ rest)) stk lts h.1 (by simp [stops])
      (by simp [good, h2.1]; simpa using h2.2) (by simp at hf ⊢; omega)
    obtain ⟨s2, l2, e2⟩ := args_less wa f' rest s1 l1 h.2 g (by simp at hf ⊢; omega)
    exact ⟨s2, l2, by simp [args, e1, e2, Res.map]⟩
end

mutual
theorem showTy_written : ∀ t : Ty, TyWritten t (showTy t)
  | .name n ms .nil => by simpa [showTy, angle] using TyWritten.name n ms
  | .name n ms (.cons t l) => by simpa [showTy, angle] using TyWritten.app n ms (showTys_aux (.cons t l) t l rfl) (by simp)
  | .idx t i => .idx (showTy_written t) (showTy_written i)
  | .arr t => .arr (showTy_written t)
theorem showTys_aux : ∀ (tl : Tys) (t : Ty) (l : Tys), tl = .cons t l → TysWritten (.cons t l) (showTy t ++ moreTys l)
  | .nil, _, _, h => by cases h
  | .cons t .nil, _, _, h => by cases h; exact .last (showTy_written t)
  | .cons t (.cons v l), _, _, h => by cases h; exact .cons (showTy_written t) (showTys_aux (.cons v l) v l rfl)
end

theorem showTys_written (t : Ty) (l : Tys) : TysWritten (.cons t l) (showTy t ++ moreTys l) := showTys_aux _ t l rfl

mutual
theorem show_written_aux : ∀ x : X, x.proper = true → Written x x.show
  | .done, _ => .done
  | .mem o n x, h => .mem o n (show_written_aux x (by simpa [X.proper] using h))
  | .sub n i x, h => by
    simp only [X.proper, Bool.and_eq_true] at h
    exact .sub n (show_written_aux i h.1) (show_written_aux x h.2)
  | .call .nil a x, h => by
    simp only [X.proper, Bool.and_eq_true] at h
    simpa [X.show, angle] using Written.call (showArgs_written a h.1) (show_written_aux x h.2)
  | .call (.cons t l) a x, h => by
    simp only [X.proper, Bool.and_eq_true] at h
    simpa [X.show, angle] using Written.generic (showTys_written t l) (by simp) (showArgs_written a h.1) (show_written_aux x h.2)
  | .op o n x, h => by
    simp only [X.proper, Bool.and_eq_true, Bool.or_eq_true, beq_iff_eq] at h
    exact .op o n (or_assoc.mp h.1) (show_written_aux x h.2)
  | .par o n i x, h => by
    simp only [X.proper, Bool.and_eq_true, Bool.or_eq_true, beq_iff_eq] at h
    exact .par o n h.1.1 (show_written_aux i h.1.2) (show_written_aux x h.2)
theorem showArgs_written : ∀ a : A, a.proper = true → ArgsWritten a a.show
  | .nil, _ => .nil
  | .cons n x .nil, h => by
    simp only [A.proper, Bool.and_eq_true] at h
    exact .last n (show_written_aux x h.1)
  | .cons n x (.cons m y b), h => by
    simp only [A.proper] at h
    have h1 : x.proper = true := by simp at h; exact h.1
    have h2 : (A.cons m y b).proper = true := by simp at h; simp [A.proper, h]
    simpa [A.show, A.more] using ArgsWritten.cons n (show_written_aux x h1) (showArgs_written (.cons m y b) h2)
end

end Mole.Parser.Less
