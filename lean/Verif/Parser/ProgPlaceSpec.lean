import Verif.Parser.ProgSpec

/-! # Where statements and expressions may stand (specification for C77) -/

namespace Mole.Parser.Prog

/-- What is around a part of a program. -/
structure Place where
  /-- in a generator -/
  gen : Bool := false
  /-- in an async function -/
  async : Bool := false
  /-- in a function -/
  fn : Bool := false
  /-- in a loop of this function -/
  loop : Bool := false
  /-- in a switch of this function -/
  sw : Bool := false
  /-- directly in the block of a try statement -/
  try_ : Bool := false
  /-- in the outermost scope -/
  top : Bool := false
deriving DecidableEq

/-- In a block, a loop, a switch, a catch clause or parentheses.  In the language this is the place around; the parser takes what is
inside the block of a try statement to be in a switch, except directly in that block. -/
def Place.inner (p : Place) : Place := { p with sw := p.sw || p.try_, try_ := false, top := false }

/-- In a loop. -/
def Place.inLoop (p : Place) : Place := { p.inner with loop := true }

/-- In a function. -/
def Place.inFn (gen async : Bool) : Place := { gen := gen, async := async, fn := true }

/-- Where the key of a method is.  In the language it is outside; the parser takes the key of a getter, a setter, an async method or a
generator to be inside. -/
def Place.key (p : Place) (kind : Nat) (gen async : Bool) : Place := if kind = 0 && !gen && !async then p else .inFn gen async

mutual
/-- Every `return` is in a function; every `break` without a label is in a loop or a switch, and every `continue` without a label in a
loop, of the same function; every `yield` is in a generator and every `await` in an async function, directly; every `export` is in the
outermost scope.  The members of a class are as in a function, and so is a static block, where the language has no `return`. -/
def placed (p : Place) : Node → Bool
  | .nil | .leaf _ | .newTarget | .empty | .debug | .importMeta => true
  | .ret e => p.fn && placed p e
  | .brk .nil => p.loop || p.sw
  | .cont .nil => p.loop
  | .brk _ | .cont _ => true
  | .yield_ _ e => p.gen && placed p e
  | .unary k e => (k ≠ .cw .await || p.async) && placed p e
  | .whileS t b => placed p t && placed p.inLoop b
  | .doS b t => placed p.inLoop b && placed p.inLoop t
  | .forS i t u b => placed p.inLoop i && placed p.inLoop t && placed p.inLoop u && placed p.inLoop b
  | .forIn _ _ l e b => placed p.inLoop l && placed p.inLoop e && placed p.inLoop b
  | .switchS t l => placed p t && placedL { p.inner with sw := true } l
  | .tryS (.block l) h f => placedL { p.inner with try_ := true } l && placed p h && placed p f
  | .tryS _ _ _ => false
  | .catchS e b => placed p e && placed p.inner b
  | .block l => placedL p.inner l
  | .fn as g _ ps b => placedL (.inFn g as) ps && placed (.inFn g as) b
  | .arrow false ps b => placedL p.inner ps && placed (.inFn false false) b
  | .arrow true ps b => placedL (.inFn false true) ps && placed (.inFn false true) b
  | .method i as g _ k ps b => placed (p.key i g as) k && placedL (.inFn g as) ps && placed (.inFn g as) b
  | .paren e => placed p.inner e
  | .tpl t l | .call _ t l | .new_ t l | .case t l => placed p t && placedL p l
  | .arr l | .obj l | .seq l | .varDec _ l | .prog l => placedL p l
  | .prop _ k v | .init _ k v => placed p k && placed p v
  | .spread e | .update _ _ e | .chain e | .exprStmt e | .throwS e => placed p e
  | .bin _ l r | .assign _ l r | .member _ l r | .index _ l r | .dec l r | .label l r | .withS l r => placed p l && placed p r
  | .cond t c e | .ifS t c e => placed p t && placed p c && placed p e
  | .class_ i h l => placed p i && placed p h && placedL (.inFn false false) l
  | .elem _ e | .importCall e | .impDef e | .impNS e => placed p e
  | .field _ k v | .spec k v => placed p k && placed p v
  | .staticBlock l => placedL (.inFn false false) l
  | .importS l e => placedL p l && placed p e
  | .exportDec e | .exportDefault e => p.top && placed p e
  | .exportNamed l e => p.top && placedL p l && placed p e
  | .exportAll k v => p.top && placed p k && placed p v

def placedL (p : Place) : List Node → Bool
  | [] => true
  | e :: l => placed p e && placedL p l
end

/-- What is around a part of a program, by the rules of the language. -/
structure Around where
  gen : Bool := false
  async : Bool := false
  fn : Bool := false
  loop : Bool := false
  sw : Bool := false
  /-- in no block, loop, switch or function -/
  top : Bool := false
deriving DecidableEq

/-- In a block. -/
def Around.inner (w : Around) : Around := { w with top := false }

/-- In a loop. -/
def Around.inLoop (w : Around) : Around := { w with loop := true, top := false }

/-- In a function. -/
def Around.inFn (gen async : Bool) : Around := { gen := gen, async := async, fn := true }

mutual
/-- The same by the rules of the language; `b`: what is said about `break` is asked.  (The head of a loop has no statements but those in
functions, so it does not matter that it is said to be in the loop.  In the keys of the members of a class `yield` and `await` are not
allowed here.) -/
def legal (b : Bool) (w : Around) : Node → Bool
  | .nil | .leaf _ | .newTarget | .empty | .debug | .importMeta => true
  | .ret e => w.fn && legal b w e
  | .brk .nil => !b || w.loop || w.sw
  | .cont .nil => w.loop
  | .brk _ | .cont _ => true
  | .yield_ _ e => w.gen && legal b w e
  | .unary k e => (k ≠ .cw .await || w.async) && legal b w e
  | .whileS t s => legal b w t && legal b w.inLoop s
  | .doS s t => legal b w.inLoop s && legal b w.inLoop t
  | .forS i t u s =>
    let w' := w.inLoop
    legal b w' i && legal b w' t && legal b w' u && legal b w' s
  | .forIn _ _ l e s =>
    let w' := w.inLoop
    legal b w' l && legal b w' e && legal b w' s
  | .switchS t l => legal b w t && legalL b { w.inner with sw := true } l
  | .tryS s h f => legal b w s && legal b w h && legal b w f
  | .fn as g _ ps s => legalL b (.inFn g as) ps && legal b (.inFn g as) s
  | .arrow false ps s => legalL b w ps && legal b (.inFn false false) s
  | .arrow true ps s => legalL b (.inFn false true) ps && legal b (.inFn false true) s
  | .method _ as g _ k ps s => legal b w k && legalL b (.inFn g as) ps && legal b (.inFn g as) s
  | .tpl t l | .call _ t l | .new_ t l | .case t l => legal b w t && legalL b w l
  | .arr l | .obj l | .seq l | .varDec _ l | .prog l => legalL b w l
  | .block l => legalL b w.inner l
  | .prop _ k v | .init _ k v | .catchS k v => legal b w k && legal b w v
  | .spread e | .update _ _ e | .chain e | .exprStmt e | .throwS e | .paren e => legal b w e
  | .bin _ l r | .assign _ l r | .member _ l r | .index _ l r | .dec l r | .label l r | .withS l r => legal b w l && legal b w r
  | .cond t c e | .ifS t c e => legal b w t && legal b w c && legal b w e
  | .class_ i h l => legal b w i && legal b w h && legalL b (.inFn false false) l
  | .elem _ e | .importCall e | .impDef e | .impNS e => legal b w e
  | .field _ k v | .spec k v => legal b w k && legal b w v
  | .staticBlock l => legalL b {} l
  | .importS l e => legalL b w l && legal b w e
  | .exportDec e | .exportDefault e => w.top && legal b w e
  | .exportNamed l e => w.top && legalL b w l && legal b w e
  | .exportAll k v => w.top && legal b w k && legal b w v

def legalL (b : Bool) (w : Around) : List Node → Bool
  | [] => true
  | e :: l => legal b w e && legalL b w l
end

mutual
/-- The nodes of a tree. -/
def nodes : Node → List Node
  | .nil => [.nil]
  | .leaf k => [.leaf k]
  | .newTarget => [.newTarget]
  | .empty => [.empty]
  | .debug => [.debug]
  | .ret e => .ret e :: nodes e
  | .brk e => .brk e :: nodes e
  | .cont e => .cont e :: nodes e
  | .yield_ d e => .yield_ d e :: nodes e
  | .unary k e => .unary k e :: nodes e
  | .whileS t s => .whileS t s :: nodes t ++ nodes s
  | .doS s t => .doS s t :: nodes s ++ nodes t
  | .forS i t u s => .forS i t u s :: nodes i ++ nodes t ++ nodes u ++ nodes s
  | .forIn a i l e s => .forIn a i l e s :: nodes l ++ nodes e ++ nodes s
  | .switchS t l => .switchS t l :: nodes t ++ nodesL l
  | .tryS s h f => .tryS s h f :: nodes s ++ nodes h ++ nodes f
  | .fn a g n ps s => .fn a g n ps s :: nodes n ++ nodesL ps ++ nodes s
  | .arrow a ps s => .arrow a ps s :: nodesL ps ++ nodes s
  | .method i a g c k ps s => .method i a g c k ps s :: nodes k ++ nodesL ps ++ nodes s
  | .tpl t l => .tpl t l :: nodes t ++ nodesL l
  | .call o t l => .call o t l :: nodes t ++ nodesL l
  | .new_ t l => .new_ t l :: nodes t ++ nodesL l
  | .case t l => .case t l :: nodes t ++ nodesL l
  | .arr l => .arr l :: nodesL l
  | .obj l => .obj l :: nodesL l
  | .seq l => .seq l :: nodesL l
  | .varDec k l => .varDec k l :: nodesL l
  | .prog l => .prog l :: nodesL l
  | .block l => .block l :: nodesL l
  | .prop c k v => .prop c k v :: nodes k ++ nodes v
  | .init c k v => .init c k v :: nodes k ++ nodes v
  | .catchS k v => .catchS k v :: nodes k ++ nodes v
  | .spread e => .spread e :: nodes e
  | .update p k e => .update p k e :: nodes e
  | .chain e => .chain e :: nodes e
  | .exprStmt e => .exprStmt e :: nodes e
  | .throwS e => .throwS e :: nodes e
  | .paren e => .paren e :: nodes e
  | .bin o l r => .bin o l r :: nodes l ++ nodes r
  | .assign o l r => .assign o l r :: nodes l ++ nodes r
  | .member o l r => .member o l r :: nodes l ++ nodes r
  | .index o l r => .index o l r :: nodes l ++ nodes r
  | .dec l r => .dec l r :: nodes l ++ nodes r
  | .label l r => .label l r :: nodes l ++ nodes r
  | .withS l r => .withS l r :: nodes l ++ nodes r
  | .cond t c e => .cond t c e :: nodes t ++ nodes c ++ nodes e
  | .ifS t c e => .ifS t c e :: nodes t ++ nodes c ++ nodes e
  | .importMeta => [.importMeta]
  | .class_ i h l => .class_ i h l :: nodes i ++ nodes h ++ nodesL l
  | .elem s e => .elem s e :: nodes e
  | .field c k v => .field c k v :: nodes k ++ nodes v
  | .staticBlock l => .staticBlock l :: nodesL l
  | .importCall e => .importCall e :: nodes e
  | .importS l e => .importS l e :: nodesL l ++ nodes e
  | .impDef e => .impDef e :: nodes e
  | .impNS e => .impNS e :: nodes e
  | .spec k v => .spec k v :: nodes k ++ nodes v
  | .exportDec e => .exportDec e :: nodes e
  | .exportDefault e => .exportDefault e :: nodes e
  | .exportNamed l e => .exportNamed l e :: nodesL l ++ nodes e
  | .exportAll k v => .exportAll k v :: nodes k ++ nodes v

def nodesL : List Node → List Node
  | [] => []
  | e :: l => nodes e ++ nodesL l
end

/-- A getter, a setter, an async method or a generator whose key is more than a token. -/
def SpecialKey : Node → Prop
  | .method i a g _ k _ _ => (i ≠ 0 ∨ a = true ∨ g = true) ∧ ∀ t, k ≠ .leaf t
  | _ => False

/-- A return statement. -/
def IsRet : Node → Prop
  | .ret _ => True
  | _ => False

/-- A static block with a return statement. -/
def StaticReturn : Node → Prop
  | .staticBlock l => ∃ n ∈ nodesL l, IsRet n
  | _ => False

/-- A try statement. -/
def IsTry : Node → Prop
  | .tryS .. => True
  | _ => False

/-- `async` is called, or seems to be: `async ( … )`, maybe with a star or a name before the parenthesis, and no arrow or brace after. -/
def AsyncCall (ts : List Tok) : Prop :=
  ∃ a t w q l q' b, ts = a ++ t :: w ++ q :: l ++ q' :: b ∧ t.k = .name "async" ∧ w.length ≤ 2 ∧ q.k = .pu .parenL ∧
    q'.k = .pu .parenR ∧ balanced [] (l.map Tok.k) = true ∧ hd b ≠ .pu .braceL ∧ ¬(hd b = .pu .arrow ∧ nlB b = false)

/-- The start of a static block and, somewhere after it, `return`. -/
def ReturnAfterStatic (ts : List Tok) : Prop :=
  ∃ a st br b r c, ts = a ++ st :: br :: b ++ r :: c ∧ st.k = .cw .static ∧ br.k = .pu .braceL ∧ r.k = .kw .return_

/-- An async arrow function with a star, which the language does not have. -/
def AsyncStarArrow (ts : List Tok) : Prop :=
  ∃ a t m w q b, ts = a ++ t :: m :: w ++ q :: b ∧ t.k = .name "async" ∧ m.k = .bin .mul ∧ q.k = .pu .arrow ∧
    (w.length = 1 ∨ ∃ u p l p', w = u ++ p :: l ++ [p'] ∧ u.length ≤ 1 ∧ p.k = .pu .parenL ∧ p'.k = .pu .parenR ∧
      balanced [] (l.map Tok.k) = true)

end Mole.Parser.Prog
