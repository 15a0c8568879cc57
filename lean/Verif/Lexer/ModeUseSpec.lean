import Verif.Lexer.ModeUse

/-! Where the tokens of a program are, by ECMA-262: in strict code (11.2.2) and in an async function. -/

namespace Mole.Lexer.ModeUse.Spec

mutual
/-- For each sensitive token of a piece in code which is strict or not, in an async function or not: whether the token is in
strict code and in an async function.  A function is strict with its parameters if its body begins with the directive, and all
of a class is. -/
def where_ (strict async : Bool) : Item → List (Bool × Bool)
  | .tok sens => if sens then [(strict, async)] else []
  | .braces b => whereL strict async b
  | .tpl ps => whereP strict async ps
  | .fn a _ dir ps b => whereL (strict || dir) a ps ++ whereL (strict || dir) a b
  | .method a dir ps b => whereL (strict || dir) a ps ++ whereL (strict || dir) a b
  | .cls h b => whereL true async h ++ whereL true async b
def whereL (strict async : Bool) : Items → List (Bool × Bool)
  | .nil => []
  | .cons i r => where_ strict async i ++ whereL strict async r
def whereP (strict async : Bool) : Parts → List (Bool × Bool)
  | .nil => []
  | .cons a r => whereL strict async a ++ whereP strict async r
end

mutual
/-- `P` holds of all pieces of a piece. -/
def each (P : Item → Prop) : Item → Prop
  | .tok s => P (.tok s)
  | .braces b => P (.braces b) ∧ eachL P b
  | .tpl ps => P (.tpl ps) ∧ eachP P ps
  | .fn a g d ps b => P (.fn a g d ps b) ∧ eachL P ps ∧ eachL P b
  | .method a d ps b => P (.method a d ps b) ∧ eachL P ps ∧ eachL P b
  | .cls h b => P (.cls h b) ∧ eachL P h ∧ eachL P b
def eachL (P : Item → Prop) : Items → Prop
  | .nil => True
  | .cons i r => each P i ∧ eachL P r
def eachP (P : Item → Prop) : Parts → Prop
  | .nil => True
  | .cons a r => eachL P a ∧ eachP P r
end

/-- No generator function (methods may be generators). -/
def noGen : Item → Prop
  | .fn _ gen _ _ _ => gen = false
  | _ => True

/-- No async method. -/
def noAsyncMethod : Item → Prop
  | .method a _ _ _ => a = false
  | _ => True

/-- No async function, method or anything. -/
def noAsync : Item → Prop
  | .fn a _ _ _ _ => a = false
  | .method a _ _ _ => a = false
  | _ => True

/-- The code after a directive is empty or begins with a token whose reading does not depend on anything. -/
def plainStart : Items → Prop
  | .nil => True
  | .cons (.tok false) _ => True
  | .cons (.fn _ _ _ _ _) _ => True
  | .cons (.method _ _ _ _) _ => True
  | .cons (.cls _ _) _ => True
  | _ => False

/-- The parameters of a function with a directive have no sensitive tokens, and the code after the directive starts plainly. -/
def plainDirective : Item → Prop
  | .fn a _ true ps b => whereL false a ps = [] ∧ plainStart b
  | .method a true ps b => whereL false a ps = [] ∧ plainStart b
  | _ => True

end Mole.Lexer.ModeUse.Spec
