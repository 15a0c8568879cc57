import Verif.Parser.LessGen
/-!
# `<` in TypeScript: lemmas for soundness
-/
namespace Mole.Parser.Less

mutual
theorem typ_sound : ∀ (f q : Nat) (ts : List Tok) (t : Ty) (r : List Tok) (p : Nat), typ f q ts = .ok t r p →
    ∃ us, ts = us ++ r ∧ TyWritten t us
  | 0, _, _, _, _, _, e => by simp [typ] at e
  | f + 1, q, ts, t, r, p, e => by
    unfold typ at e
    split at e
    · rename_i n r0
      have hm := members_eq r0
      split at e
      · rename_i r1 e1
        split at e
        · rename_i l r2 p2 e2
          rcases argLoop_sound f _ _ _ _ _ _ e2 with ⟨us, eu, w, hn⟩
          refine suffix_sound f _ _ _ _ _ _ (.atom n :: ((members r0).1.map (.mem false) ++ .lt :: us)) e (.app n _ w (hn rfl)) |>.imp ?_
          rintro vs ⟨ev, wv⟩
          refine ⟨?_, wv⟩
          rw [← ev]
          rw [e1, eu] at hm
          simpa using hm
        · simp at e
      · refine suffix_sound f _ _ _ _ _ _ (.atom n :: ((members r0).1.map (.mem false))) e (.name n _) |>.imp ?_
        rintro vs ⟨ev, wv⟩
        refine ⟨?_, wv⟩
        rw [← ev]
        simp [← hm]
    · simp at e
theorem suffix_sound : ∀ (f q : Nat) (u : Ty) (ts : List Tok) (t : Ty) (r : List Tok) (p : Nat) (us : List Tok),
    suffix f q u ts = .ok t r p → TyWritten u us → ∃ vs, us ++ ts = vs ++ r ∧ TyWritten t vs
  | 0, _, _, _, _, _, _, _, e, _ => by simp [suffix] at e
  | f + 1, q, u, ts, t, r, p, us, e, w => by
    unfold suffix at e
    split at e
    · split at e
      · obtain ⟨vs, ev, wv⟩ := suffix_sound f _ _ _ _ _ _ _ e (.arr w)
        exact ⟨vs, by rw [← ev]; simp, wv⟩
      · split at e
        · rename_i h
          obtain ⟨is, ei, wi⟩ := typ_sound f _ _ _ _ _ h
          obtain ⟨vs, ev, wv⟩ := suffix_sound f _ _ _ _ _ _ _ e (.idx w wi)
          exact ⟨vs, by rw [← ev, ei]; simp, wv⟩
        · simp at e
        · simp at e
    · simp at e; exact ⟨us, by rw [e.2.1], e.1 ▸ w⟩
theorem argLoop_sound : ∀ (f pos : Nat) (first : Bool) (ts : List Tok) (l : Tys) (r : List Tok) (p : Nat),
    argLoop f pos first ts = .ok l r p → ∃ us, ts = us ++ r ∧ TysWritten l us ∧ (first = true → l ≠ .nil)
  | 0, _, _, _, _, _, _, e => by simp [argLoop] at e
  | f + 1, pos, first, ts, l, r, p, e => by
    unfold argLoop at e
    split at e
    · split at e
      · simp at e
      · rename_i h
        simp at e
        obtain ⟨rfl, rfl, rfl⟩ := e
        exact ⟨[.gt], rfl, .nil, fun h' => absurd h' h⟩
    · split at e
      · rename_i t r0 p0 et
        obtain ⟨us, eu, w⟩ := typ_sound f _ _ _ _ _ et
        split at e
        · rename_i r1
          cases hr : argLoop f p0 false r1 with
          | err e' => rw [hr] at e; simp [TRes.map] at e
          | ok m r2 p2 =>
            rw [hr] at e
            simp [TRes.map] at e
            obtain ⟨rfl, rfl, rfl⟩ := e
            obtain ⟨vs, ev, wv, _⟩ := argLoop_sound f _ _ _ _ _ _ hr
            exact ⟨us ++ .comma :: vs, by rw [eu, ev]; simp, .cons w wv, by simp⟩
        · simp at e
          obtain ⟨rfl, rfl, rfl⟩ := e
          exact ⟨us ++ [.gt], by rw [eu]; simp, .last w, by simp⟩
        · simp at e
      · simp at e
    · simp at e
    · simp at e
end

/-- A result that is either right or an error other than `missing`. -/
def Fine (s : St) : Res X → Prop
  | .ok x s1 => ∃ us, s.toks = us ++ s1.toks ∧ Written x us
  | .err e _ => ∀ p, e ≠ .missing p

def FineA (s : St) : Res A → Prop
  | .ok a s1 => ∃ us, s.toks = us ++ s1.toks ∧ ArgsWritten a us
  | .err e _ => ∀ p, e ≠ .missing p

def NoOpt (ts : List Tok) : Prop := ∀ n, .mem true n ∉ ts

theorem NoOpt.app {a b} (h : NoOpt (a ++ b)) : NoOpt b := fun n m => h n (by simp [m])
theorem NoOpt.tl {a b} (h : NoOpt (a :: b)) : NoOpt b := fun n m => h n (by simp [m])

theorem fine_map {s s1 : St} {r : Res X} {g : X → X} {pre : List Tok} (h : Fine s1 r) (e : s.toks = pre ++ s1.toks)
    (hg : ∀ x us, Written x us → Written (g x) (pre ++ us)) : Fine s (r.map g) := by
  cases r with
  | err e s2 => exact h
  | ok x s2 =>
    obtain ⟨us, h1, w⟩ := h
    exact ⟨pre ++ us, by rw [e, h1]; simp, hg x us w⟩

theorem fine_ops {k : St → Res X} {s : St} (hk : ∀ s1, NoOpt s1.toks → Fine s1 (k s1)) (h : NoOpt s.toks) : Fine s (ops k s) := by
  unfold ops
  split
  · rename_i o r e
    split
    · rename_i ho
      split
      · rename_i n r1
        rw [e] at h
        refine fine_map (pre := [o, .atom n]) (hk { s with toks := r1 } h.tl.tl) (by simp [e]) ?_
        intro x us w
        exact .op o n (by cases o <;> simp [isOp] at ho <;> simp) w
      · rename_i n r1
        rw [e] at h
        split
        · intro p; simp
        · rename_i hlt
          have h1 := hk { s with toks := r1 } h.tl.tl.tl
          split
          · rename_i i s1 e1
            rw [e1] at h1
            obtain ⟨us, eu, w⟩ := h1
            simp only at eu
            split
            · rename_i r2 e2
              rw [e2] at eu
              refine fine_map (pre := o :: .lp :: .atom n :: (us ++ [.rp])) (hk { s1 with toks := r2 } ?_) (by simp [e, eu]) ?_
              · rw [eu] at h; exact h.tl.tl.tl.app.tl
              · intro x vs wv
                have := Written.par o n (by cases o <;> simp [isOp] at ho hlt <;> simp) w wv
                simpa using this
            · intro p; simp
          · rename_i e1; rw [e1] at h1; exact h1
      · intro p; simp
    · exact ⟨[], by simp, .done⟩
  · exact ⟨[], by simp, .done⟩

mutual
theorem tail_sound (T : Bool) : ∀ (f : Nat) (s : St), NoOpt s.toks → Fine s (tail T f false s)
  | 0, s, _ => by simp [tail, Fine]
  | f + 1, s, h => by
    have hk : ∀ s1 : St, NoOpt s1.toks → Fine s1 (tail T f false s1) := fun s1 h1 => tail_sound T f s1 h1
    unfold tail
    split
    · rename_i o n r e
      rw [e] at h
      have : o = false := by
        cases o
        · rfl
        · exact absurd (List.mem_cons_self) (h n)
      subst this
      exact fine_map (pre := [.mem false n]) (hk { s with toks := r } h.tl) (by simp [e]) (fun x us w => .mem false n w)
    · rename_i r e
      rw [e] at h
      split
      · rename_i n r1
        have h1 := hk { s with toks := r1 } h.tl.tl
        split
        · rename_i i s1 e1
          rw [e1] at h1
          obtain ⟨us, eu, w⟩ := h1
          split
          · rename_i r2 e2
            simp only at eu
            rw [e2] at eu
            refine fine_map (pre := .lb :: .atom n :: (us ++ [.rb])) (hk { s1 with toks := r2 } ?_) (by simp [e, eu]) ?_
            · rw [eu] at h; exact h.tl.tl.app.tl
            · intro x vs wv
              have := Written.sub n w wv
              simpa using this
          · intro p; simp
        · rename_i e1; rw [e1] at h1; exact h1
      · intro p; simp
    · rename_i r e
      rw [e] at h
      have h1 := args_sound T f { s with toks := r } h.tl
      split
      · rename_i a s1 e1
        rw [e1] at h1
        obtain ⟨us, eu, w⟩ := h1
        simp only at eu
        refine fine_map (pre := .lp :: us) (hk s1 ?_) (by simp [e, eu]) ?_
        · rw [eu] at h; exact h.tl.app
        · intro x vs wv
          exact .call w wv
      · rename_i er s1 e1
        rw [e1] at h1
        cases er with
        | missing p => exact absurd rfl (h1 p)
        | fail => simp [giveUp, Fine]
        | panic => simp [giveUp, Fine]
    · rename_i r e
      split
      · exact fine_ops hk h
      · simp only
        split
        · rename_i er e1
          cases er with
          | missing p =>
            simp only [giveUp, push, Bool.false_eq_true, if_false]
            exact fine_ops (s := ⟨s.toks, _, _⟩) hk h
          | fail => simp [giveUp, Fine]
          | panic => simp [giveUp, Fine]
        · rename_i tys r1 _ e1
          obtain ⟨ls, el, wl, hn⟩ := argLoop_sound f _ _ _ _ _ _ e1
          rw [e, el] at h
          split
          · rename_i r2
            have h1 := args_sound T f { discard (push (push s)) with toks := r2 } h.tl.app.tl
            split
            · rename_i a s3 e3
              rw [e3] at h1
              obtain ⟨us, eu, w⟩ := h1
              simp only at eu
              split
              · intro p; simp
              · rename_i st _
                refine fine_map (pre := .lt :: (ls ++ .lp :: us)) (hk { s3 with stack := st } ?_) (by simp [e, el, eu]) ?_
                · rw [eu] at h; exact h.tl.app.tl.app
                · intro x vs wv
                  have := Written.generic wl (hn rfl) w wv
                  simpa using this
            · rename_i er s3 e3
              rw [e3] at h1
              cases er with
              | missing p => exact absurd rfl (h1 p)
              | fail => simp [giveUp, Fine]
              | panic => simp [giveUp, Fine]
          · intro p; simp
    · exact fine_ops hk h
theorem args_sound (T : Bool) : ∀ (f : Nat) (s : St), NoOpt s.toks → FineA s (args T f s)
  | 0, s, _ => by simp [args, FineA]
  | f + 1, s, h => by
    unfold args
    split
    · rename_i r e
      exact ⟨[.rp], by simp [e], .nil⟩
    · rename_i n r e
      rw [e] at h
      have h1 := tail_sound T f { s with toks := r } h.tl
      split
      · rename_i x s1 e1
        rw [e1] at h1
        obtain ⟨us, eu, w⟩ := h1
        simp only at eu
        split
        · rename_i r1 e2
          rw [e2] at eu
          have h2 := args_sound T f { s1 with toks := r1 } (by rw [eu] at h; exact h.tl.app.tl)
          cases hr : args T f { s1 with toks := r1 } with
          | err er s2 => rw [hr] at h2; exact h2
          | ok a s2 =>
            rw [hr] at h2
            obtain ⟨vs, ev, wv⟩ := h2
            simp only at ev
            exact ⟨.atom n :: (us ++ .comma :: vs), by simp [e, eu, ev], .cons n w wv⟩
        · rename_i r1 e2
          rw [e2] at eu
          exact ⟨.atom n :: (us ++ [.rp]), by simp [e, eu], .last n w⟩
        · intro p; simp
      · rename_i e1; rw [e1] at h1; exact h1
    · intro p; simp
end

/-- How much is on the stack: at least as much as before; more if a trial has failed; and there is no panic. -/
def Kept {α : Type} (n : Nat) : Res α → Prop
  | .ok _ s => n ≤ s.stack.length
  | .err (.missing _) s => n < s.stack.length
  | .err .fail _ => True
  | .err .panic _ => False

theorem kept_map {α β : Type} {n : Nat} {r : Res α} {g : α → β} (h : Kept n r) : Kept n (r.map g) := by
  cases r with
  | ok a s => exact h
  | err e s => cases e <;> exact h

theorem kept_le {α : Type} {n m : Nat} {r : Res α} (h : Kept n r) (hm : m ≤ n) : Kept m r := by
  cases r with
  | ok a s => exact Nat.le_trans hm h
  | err e s => cases e with
    | missing p => exact Nat.lt_of_le_of_lt hm h
    | fail => trivial
    | panic => exact h

theorem kept_ops {k : St → Res X} (hk : ∀ s1, Kept s1.stack.length (k s1)) (s : St) : Kept s.stack.length (ops k s) := by
  unfold ops
  split
  · split
    · split
      · exact kept_map (hk _)
      · split
        · trivial
        · rename_i r1 _ _
          have h1 := hk { s with toks := r1 }
          split
          · rename_i e1
            rw [e1] at h1
            split
            · exact kept_map (kept_le (hk _) h1)
            · trivial
          · rename_i e1; rw [e1] at h1; exact kept_map (g := id) h1
      · trivial
    · exact Nat.le_refl _
  · exact Nat.le_refl _

theorem kept_giveUp {k : St → Res X} (hk : ∀ s1, Kept s1.stack.length (k s1)) {n : Nat} {o : Bool} {e : Err} {s : St} {α : Type}
    (h : Kept (α := α) n (.err e s)) : Kept n (giveUp k o e s) := by
  unfold giveUp
  split
  · rename_i p
    split
    · exact h
    · have hl : n < s.stack.length := h
      split
      · rename_i e1; rw [e1] at hl; simp at hl
      · rename_i t st e1
        rw [e1] at hl
        exact kept_le (kept_ops hk _) (by simp at hl ⊢; omega)
  · cases e <;> exact h

mutual
theorem typ_panic : ∀ (f q : Nat) (ts : List Tok), typ f q ts ≠ .err .panic
  | 0, _, _ => by simp [typ]
  | f + 1, q, ts => by
    unfold typ
    split
    · split
      · split
        · exact suffix_panic f _ _ _
        · rename_i e1; intro h; cases h; exact absurd e1 (argLoop_panic f _ _ _)
      · exact suffix_panic f _ _ _
    · simp
theorem suffix_panic : ∀ (f q : Nat) (t : Ty) (ts : List Tok), suffix f q t ts ≠ .err .panic
  | 0, _, _, _ => by simp [suffix]
  | f + 1, q, t, ts => by
    unfold suffix
    split
    · split
      · exact suffix_panic f _ _ _
      · split
        · exact suffix_panic f _ _ _
        · simp
        · rename_i e1; intro h; cases h; exact absurd e1 (typ_panic f _ _)
    · simp
theorem argLoop_panic : ∀ (f q : Nat) (b : Bool) (ts : List Tok), argLoop f q b ts ≠ .err .panic
  | 0, _, _, _ => by simp [argLoop]
  | f + 1, q, b, ts => by
    unfold argLoop
    split
    · split <;> simp
    · split
      · split
        · rename_i p _ r1 _
          have := argLoop_panic f p false r1
          cases h : argLoop f p false r1 with
          | ok l r p => simp [TRes.map]
          | err e => rw [h] at this; simpa [TRes.map] using this
        · simp
        · simp
      · rename_i e1; intro h; cases h; exact absurd e1 (typ_panic f _ _)
    · simp
    · simp
end

mutual
theorem tail_kept (T : Bool) : ∀ (f : Nat) (o : Bool) (s : St), Kept s.stack.length (tail T f o s)
  | 0, _, _ => by simp [tail, Kept]
  | f + 1, o, s => by
    have hk : ∀ s1 : St, Kept s1.stack.length (tail T f false s1) := tail_kept T f false
    unfold tail
    split
    · exact kept_map (tail_kept T f _ _)
    · split
      · rename_i n r1 _
        have h1 := hk { s with toks := r1 }
        split
        · rename_i e1
          rw [e1] at h1
          split
          · exact kept_map (kept_le (tail_kept T f _ _) h1)
          · trivial
        · rename_i e1; rw [e1] at h1; exact kept_map (g := id) h1
      · trivial
    · rename_i r e
      have h1 := args_kept T f { s with toks := r }
      split
      · rename_i e1
        rw [e1] at h1
        exact kept_map (kept_le (tail_kept T f _ _) h1)
      · rename_i e1
        rw [e1] at h1
        exact kept_giveUp hk h1
    · rename_i r e
      split
      · exact kept_ops hk s
      · simp only
        split
        · rename_i er e1
          refine kept_giveUp (α := X) hk ?_
          cases er with
          | missing p => simp [Kept, push]; omega
          | fail => trivial
          | panic => exact absurd e1 (argLoop_panic f _ _ _)
        · split
          · rename_i r2 _
            have h1 := args_kept T f { discard (push (push s)) with toks := r2 }
            have hl : (discard (push (push s))).stack.length = s.stack.length + 1 := by simp [discard, push]
            simp only [hl] at h1
            split
            · rename_i a s3 e3
              rw [e3] at h1
              have h2 : s.stack.length + 1 ≤ s3.stack.length := h1
              split
              · rename_i e4; rw [e4] at h2; simp at h2
              · rename_i t st e4
                rw [e4] at h2
                exact kept_map (kept_le (tail_kept T f _ _) (by simp at h2 ⊢; omega))
            · rename_i er s3 e3
              rw [e3] at h1
              exact kept_giveUp hk (kept_le h1 (by omega))
          · trivial
    · exact kept_ops hk s
theorem args_kept (T : Bool) : ∀ (f : Nat) (s : St), Kept s.stack.length (args T f s)
  | 0, _ => by simp [args, Kept]
  | f + 1, s => by
    unfold args
    split
    · exact Nat.le_refl _
    · rename_i n r e
      have h1 := tail_kept T f false { s with toks := r }
      split
      · rename_i x s1 e1
        rw [e1] at h1
        split
        · exact kept_map (kept_le (args_kept T f _) h1)
        · exact h1
        · trivial
      · rename_i e1
        rw [e1] at h1
        rename_i er s1
        cases er <;> exact h1
    · trivial
end

end Mole.Parser.Less
