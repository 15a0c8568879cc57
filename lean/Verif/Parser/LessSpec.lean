import Verif.Parser.Less
/-!
# `<` in TypeScript (specification): how expressions are written
-/
namespace Mole.Parser.Less

mutual
/-- A type, written. -/
def showTy : Ty → List Tok
  | .name n ms l => .atom n :: (ms.map (.mem false) ++ angle l)
  | .idx t i => showTy t ++ .lb :: (showTy i ++ [.rb])
  | .arr t => showTy t ++ [.lb, .rb]
/-- Type arguments with `<` and `>`; nothing if there are none. -/
def angle : Tys → List Tok
  | .nil => []
  | .cons t l => .lt :: (showTy t ++ moreTys l)
/-- The type arguments behind the first, with the `>`. -/
def moreTys : Tys → List Tok
  | .nil => [.gt]
  | .cons t l => .comma :: (showTy t ++ moreTys l)
end

mutual
/-- What is behind the first name of an expression, written. -/
def X.show : X → List Tok
  | .done => []
  | .mem o n x => .mem o n :: x.show
  | .sub n i x => .lb :: .atom n :: (i.show ++ .rb :: x.show)
  | .call tys a x => angle tys ++ .lp :: (a.show ++ x.show)
  | .op o n x => o :: .atom n :: x.show
  | .par o n i x => o :: .lp :: .atom n :: (i.show ++ .rp :: x.show)
/-- Arguments, with the `)`. -/
def A.show : A → List Tok
  | .nil => [.rp]
  | .cons n x a => .atom n :: (x.show ++ A.more a)
/-- The arguments behind the first. -/
def A.more : A → List Tok
  | .nil => [.rp]
  | .cons n x a => .comma :: .atom n :: (x.show ++ A.more a)
end

mutual
/-- The operators are operators, and there are no parentheses behind `<`. -/
def X.proper : X → Bool
  | .done => true
  | .mem _ _ x => x.proper
  | .sub _ i x => i.proper && x.proper
  | .call _ a x => a.proper && x.proper
  | .op o _ x => (o == .lt || o == .gt || o == .plus) && x.proper
  | .par o _ i x => (o == .gt || o == .plus) && i.proper && x.proper
def A.proper : A → Bool
  | .nil => true
  | .cons _ x a => x.proper && a.proper
end

mutual
/-- Only `<` and `+` as operators; no type arguments, no subscripts and no `?.`. -/
def X.plain : X → Bool
  | .done => true
  | .mem o _ x => !o && x.plain
  | .sub .. => false
  | .call .nil a x => a.plain && x.plain
  | .call (.cons _ _) _ _ => false
  | .op o _ x => (o == .lt || o == .plus) && x.plain
  | .par o _ i x => o == .plus && i.plain && x.plain
def A.plain : A → Bool
  | .nil => true
  | .cons _ x a => x.plain && a.plain
end

mutual
/-- No type arguments: what there is without TypeScript. -/
def X.noTys : X → Bool
  | .done => true
  | .mem _ _ x => x.noTys
  | .sub _ i x => i.noTys && x.noTys
  | .call .nil a x => a.noTys && x.noTys
  | .call (.cons _ _) _ _ => false
  | .op _ _ x => x.noTys
  | .par _ _ i x => i.noTys && x.noTys
def A.noTys : A → Bool
  | .nil => true
  | .cons _ x a => x.noTys && a.noTys
end

mutual
/-- Anything but the operator `<`. -/
def X.noLess : X → Bool
  | .done => true
  | .mem _ _ x => x.noLess
  | .sub _ i x => i.noLess && x.noLess
  | .call _ a x => a.noLess && x.noLess
  | .op o _ x => (o == .gt || o == .plus) && x.noLess
  | .par o _ i x => (o == .gt || o == .plus) && i.noLess && x.noLess
def A.noLess : A → Bool
  | .nil => true
  | .cons _ x a => x.noLess && a.noLess
end

mutual
/-- A type as it may be written. -/
inductive TyWritten : Ty → List Tok → Prop
  | name (n : Nat) (ms : List Nat) : TyWritten (.name n ms .nil) (.atom n :: ms.map (.mem false))
  | app (n : Nat) (ms : List Nat) {l ts} : TysWritten l ts → l ≠ .nil →
      TyWritten (.name n ms l) (.atom n :: (ms.map (.mem false) ++ .lt :: ts))
  | idx {t i ts us} : TyWritten t ts → TyWritten i us → TyWritten (.idx t i) (ts ++ .lb :: (us ++ [.rb]))
  | arr {t ts} : TyWritten t ts → TyWritten (.arr t) (ts ++ [.lb, .rb])
/-- Type arguments with the `>`, as they may be written: with a comma at the end or without. -/
inductive TysWritten : Tys → List Tok → Prop
  | nil : TysWritten .nil [.gt]
  | last {t ts} : TyWritten t ts → TysWritten (.cons t .nil) (ts ++ [.gt])
  | cons {t l ts us} : TyWritten t ts → TysWritten l us → TysWritten (.cons t l) (ts ++ .comma :: us)
end

mutual
/-- What is behind the first name of an expression, as it may be written. -/
inductive Written : X → List Tok → Prop
  | done : Written .done []
  | mem (o : Bool) (n : Nat) {x ts} : Written x ts → Written (.mem o n x) (.mem o n :: ts)
  | sub (n : Nat) {i x ts us} : Written i ts → Written x us → Written (.sub n i x) (.lb :: .atom n :: (ts ++ .rb :: us))
  | call {a x ts us} : ArgsWritten a ts → Written x us → Written (.call .nil a x) (.lp :: (ts ++ us))
  | generic {l a x ls ts us} : TysWritten l ls → l ≠ .nil → ArgsWritten a ts → Written x us →
      Written (.call l a x) (.lt :: (ls ++ .lp :: (ts ++ us)))
  | op (o : Tok) (n : Nat) {x ts} : o = .lt ∨ o = .gt ∨ o = .plus → Written x ts → Written (.op o n x) (o :: .atom n :: ts)
  | par (o : Tok) (n : Nat) {i x ts us} : o = .gt ∨ o = .plus → Written i ts → Written x us →
      Written (.par o n i x) (o :: .lp :: .atom n :: (ts ++ .rp :: us))
/-- Arguments with the `)`, as they may be written: with a comma at the end or without. -/
inductive ArgsWritten : A → List Tok → Prop
  | nil : ArgsWritten .nil [.rp]
  | last (n : Nat) {x ts} : Written x ts → ArgsWritten (.cons n x .nil) (.atom n :: (ts ++ [.rp]))
  | cons (n : Nat) {x a ts us} : Written x ts → ArgsWritten a us → ArgsWritten (.cons n x a) (.atom n :: (ts ++ .comma :: us))
end

end Mole.Parser.Less
