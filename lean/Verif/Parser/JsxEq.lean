import Verif.Parser.Jsx

/-! # Equality of trees can be decided, for the examples of C79 -/

namespace Mole.Parser.Jsx
variable {E : Type} [DecidableEq E]
mutual
def J.eqb : J E → J E → Bool
  | .elem n as ks c, .elem n' as' ks' c' => n == n' && J.eqs as as' && J.eqs ks ks' && c == c'
  | .attr n v, .attr n' v' => n == n' && J.eqo v v'
  | .spreadAttr e, .spreadAttr e' => e == e'
  | .str v, .str v' => v == v'
  | .box e, .box e' => e == e'
  | .boxEmpty, .boxEmpty => true
  | .spread e, .spread e' => e == e'
  | .text v, .text v' => v == v'
  | _, _ => false
def J.eqs : List (J E) → List (J E) → Bool
  | [], [] => true
  | a :: l, b :: m => J.eqb a b && J.eqs l m
  | _, _ => false
def J.eqo : Option (J E) → Option (J E) → Bool
  | none, none => true
  | some a, some b => J.eqb a b
  | _, _ => false
end
mutual
theorem J.eqb_eq : ∀ a b : J E, J.eqb a b = true → a = b
  | .elem n as ks c, b, h => by
    cases b <;> simp [J.eqb] at h
    have := J.eqs_eq as _ h.1.1.2
    have := J.eqs_eq ks _ h.1.2
    simp_all
  | .attr n v, b, h => by
    cases b <;> simp [J.eqb] at h
    have := J.eqo_eq v _ h.2
    simp_all
  | .spreadAttr e, b, h => by cases b <;> simp_all [J.eqb]
  | .str e, b, h => by cases b <;> simp_all [J.eqb]
  | .box e, b, h => by cases b <;> simp_all [J.eqb]
  | .boxEmpty, b, h => by cases b <;> simp_all [J.eqb]
  | .spread e, b, h => by cases b <;> simp_all [J.eqb]
  | .text e, b, h => by cases b <;> simp_all [J.eqb]
theorem J.eqs_eq : ∀ a b : List (J E), J.eqs a b = true → a = b
  | [], b, h => by cases b <;> simp_all [J.eqs]
  | a :: l, b, h => by
    cases b <;> simp [J.eqs] at h
    rw [J.eqb_eq a _ h.1, J.eqs_eq l _ h.2]
theorem J.eqo_eq : ∀ a b : Option (J E), J.eqo a b = true → a = b
  | none, b, h => by cases b <;> simp_all [J.eqo]
  | some a, b, h => by
    cases b <;> simp [J.eqo] at h
    rw [J.eqb_eq a _ h]
end
mutual
theorem J.eqb_refl : ∀ a : J E, J.eqb a a = true
  | .elem n as ks c => by simp [J.eqb, J.eqs_refl as, J.eqs_refl ks]
  | .attr n v => by simp [J.eqb, J.eqo_refl v]
  | .spreadAttr e => by simp [J.eqb]
  | .str e => by simp [J.eqb]
  | .box e => by simp [J.eqb]
  | .boxEmpty => by simp [J.eqb]
  | .spread e => by simp [J.eqb]
  | .text e => by simp [J.eqb]
theorem J.eqs_refl : ∀ a : List (J E), J.eqs a a = true
  | [] => by simp [J.eqs]
  | a :: l => by simp [J.eqs, J.eqb_refl a, J.eqs_refl l]
theorem J.eqo_refl : ∀ a : Option (J E), J.eqo a a = true
  | none => by simp [J.eqo]
  | some a => by simp [J.eqo, J.eqb_refl a]
end
instance : DecidableEq (J E) := fun a b =>
  if h : J.eqb a b = true then isTrue (J.eqb_eq a b h) else isFalse (fun e => h (e ▸ J.eqb_refl a))

end Mole.Parser.Jsx
