import Verif.Parser.ProgAcc

/-! # An expression that becomes a target is written as before: lemmas (for C76) -/

namespace Mole.Parser.Prog

variable {L : Ex → Prop}

theorem expr_nil {x : List K} (h : Expr L .nil x) : False := by
  cases h

/-- The exceptions of a part are those of the whole. -/
def Sub (L : Ex → Prop) (x : List K) : Prop := ∀ y, Occ x y → L y

theorem Sub.left {a b : List K} (h : Sub L (a ++ b)) : Sub L a := fun y hy => h y (occ_left hy)

theorem Sub.right {a b : List K} (h : Sub L (a ++ b)) : Sub L b := fun y hy => h y (occ_append hy)

theorem Sub.tail {k : K} {b : List K} (h : Sub L (k :: b)) : Sub L b := Sub.right (a := [k]) h

theorem Sub.mid {k k' : K} {b : List K} (h : Sub L (k :: b ++ [k'])) : Sub L b := Sub.left (Sub.tail h)

theorem isName_leaf {e : Node} (h : isName e = true) : ∃ k, e = .leaf k := by
  unfold isName at h
  split at h
  · exact ⟨_, rfl⟩
  · exact ⟨_, rfl⟩
  · cases h

/-- The parentheses around a name. -/
theorem paren_ok {k : K} {a : List K} (hs : Sub L (.pu .parenL :: a ++ [.pu .parenR])) (h : Expr L (.leaf k) a) :
    Expr L (.leaf k) (.pu .parenL :: a ++ [.pu .parenR]) := by
  refine .dropParens ?_ h
  cases h with
  | leaf hk => exact hs _ ⟨[], [.pu .parenL, k, .pu .parenR], [], by simp, k, rfl⟩
  | dropParens hL _ => exact hL

mutual
theorem toTarget_ok (f : Node → Bool) : ∀ (p : Bool) (n n' : Node) (x : List K), toTarget f p n = some n' → Sub L x → Expr L n x →
    Expr L n' x := by
  intro p n n' x h hs hn
  match n, h, hn with
  | .arr l, h, hn =>
    rw [toTarget] at h
    cases hl : toTargets f false l with
    | none => rw [hl] at h; cases h
    | some l' =>
      rw [hl] at h
      cases h
      cases hn with
      | arr hl' => exact .arr (toTargets_elems f false l l' _ hl hs.mid hl')
  | .obj l, h, hn =>
    rw [toTarget] at h
    cases hl : toTargets f true l with
    | none => rw [hl] at h; cases h
    | some l' =>
      rw [hl] at h
      cases h
      cases hn with
      | obj hl' => exact .obj (toTargets_list f true l l' _ hl hs.mid hl')
  | .prop c key value, h, hn =>
    cases hn with
    | short hk =>
      rw [toTarget] at h
      split at h
      · cases h; exact .short hk
      · cases h
    | prop hk hv =>
      rw [toTarget] at h
      · cases hv' : toTarget f p value with
        | none => rw [hv'] at h; cases h
        | some v' =>
          rw [hv'] at h
          cases h
          exact .prop hk (toTarget_ok f p value v' _ hv' (hs.right).tail hv)
      · rintro rfl
        exact expr_nil hv
  | .init c key value, h, hn =>
    cases c with
    | false =>
      rw [toTarget] at h
      split at h
      · cases h; exact hn
      · cases h
    | true =>
      rw [toTarget] at h
      cases hk' : toTarget f p key with
      | none => rw [hk'] at h; cases h
      | some k' =>
        rw [hk'] at h
        dsimp only at h
        split at h
        · cases h
          cases hn with
          | init hk hv =>
            cases hk with
            | computed he => exact .init (.computed (toTarget_ok f p key k' _ hk' hs.left.mid he)) hv
        · cases h
  | .assign op l rhs, h, hn =>
    cases op <;> first | (rw [toTarget] at h) | skip
    all_goals try (cases h; done)
    cases hl' : toTarget f false l with
    | none => rw [hl'] at h; cases h
    | some l' =>
      rw [hl'] at h
      dsimp only at h
      split at h
      · cases h
        cases hn with
        | assign hl hr => exact .assign (toTarget_ok f false l l' _ hl' hs.left hl) hr
      · cases h
  | .leaf k, h, hn =>
    cases k <;> rw [toTarget] at h
    all_goals try (cases h; done)
    all_goals
      split at h
      · cases h; exact hn
      · cases h
  | .spread e, h, hn =>
    cases hn with
    | spread he =>
      match e, h, he with
      | .leaf k, h, he =>
        cases k <;> rw [toTarget] at h
        all_goals try (cases h; done)
        all_goals
          split at h
          · cases h; exact .spread he
          · cases h
      | .paren e, h, he =>
        rw [toTarget] at h
        split at h
        · rename_i hc
          cases h
          rw [Bool.and_eq_true] at hc
          obtain ⟨k, rfl⟩ := isName_leaf hc.1
          cases he with
          | paren he' => exact .spread (paren_ok hs.tail he')
        · cases h
      | .arr l, h, he =>
        rw [toTarget] at h
        split at h
        · cases h
        · cases hl : toTargets f false l with
          | none => rw [hl] at h; cases h
          | some l' =>
            rw [hl] at h
            cases h
            cases he with
            | arr hl' => exact .spread (.arr (toTargets_elems f false l l' _ hl hs.tail.mid hl'))
      | .obj l, h, he =>
        rw [toTarget] at h
        split at h
        · cases h
        · cases hl : toTargets f true l with
          | none => rw [hl] at h; cases h
          | some l' =>
            rw [hl] at h
            cases h
            cases he with
            | obj hl' => exact .spread (.obj (toTargets_list f true l l' _ hl hs.tail.mid hl'))
  | .paren e, h, hn =>
    rw [toTarget] at h
    split at h
    · rename_i hc
      cases h
      rw [Bool.and_eq_true] at hc
      obtain ⟨k, rfl⟩ := isName_leaf hc.1
      cases hn with
      | paren he => exact paren_ok hs he
    · cases h
  | .member a b c, h, hn =>
    rw [toTarget] at h
    cases h
    exact hn
  | .index a b c, h, hn =>
    rw [toTarget] at h
    cases h
    exact hn

theorem toTargets_elems (f : Node → Bool) : ∀ (p : Bool) (l l' : List Node) (x : List K), toTargets f p l = some l' → Sub L x →
    Elems L l x → Elems L l' x := by
  intro p l l' x h hs hl
  match l, h, hl with
  | [], h, hl =>
    rw [toTargets] at h
    cases h
    exact hl
  | e :: t, h, hl =>
    by_cases hn : e = .nil
    · subst hn
      rw [toTargets] at h
      cases ht : toTargets f p t with
      | none => rw [ht] at h; cases h
      | some t' =>
        rw [ht] at h
        cases h
        cases hl with
        | hole hl2 => exact .hole (toTargets_elems f p t t' _ ht hs.tail hl2)
        | one he => exact (expr_nil he).elim
        | cons he _ => exact (expr_nil he).elim
    · rw [toTargets] at h
      · cases he' : toTarget f p e with
        | none => rw [he'] at h; cases h
        | some e' =>
          cases ht : toTargets f p t with
          | none => rw [he', ht] at h; cases h
          | some t' =>
            rw [he', ht] at h
            cases h
            cases hl with
            | hole hl => exact absurd rfl hn
            | one he =>
              rw [toTargets] at ht
              cases ht
              exact .one (toTarget_ok f p e e' _ he' hs he)
            | cons he hl2 => exact .cons (toTarget_ok f p e e' _ he' hs.left he) (toTargets_elems f p t t' _ ht hs.right.tail hl2)
      · exact hn

theorem toTargets_list (f : Node → Bool) : ∀ (p : Bool) (l l' : List Node) (x : List K), toTargets f p l = some l' → Sub L x →
    List_ L l x → List_ L l' x := by
  intro p l l' x h hs hl
  match l, h, hl with
  | [], h, hl =>
    rw [toTargets] at h
    cases h
    exact hl
  | e :: t, h, hl =>
    have hn : e ≠ .nil := by
      rintro rfl
      cases hl with
      | one he => exact expr_nil he
      | cons he _ => exact expr_nil he
    rw [toTargets] at h
    · cases he' : toTarget f p e with
      | none => rw [he'] at h; cases h
      | some e' =>
        cases ht : toTargets f p t with
        | none => rw [he', ht] at h; cases h
        | some t' =>
          rw [he', ht] at h
          cases h
          cases hl with
          | one he =>
            rw [toTargets] at ht
            cases ht
            exact .one (toTarget_ok f p e e' _ he' hs he)
          | cons he hl2 => exact .cons (toTarget_ok f p e e' _ he' hs.left he) (toTargets_list f p t t' _ ht hs.right.tail hl2)
    · exact hn
end

end Mole.Parser.Prog
