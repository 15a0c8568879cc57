import Verif.Parser.Prog

/-! # How a tree is written (specification for C76)

`Expr L t ks` and `Stmt L t ks`: the tokens `ks` are a way to write the tree `t`.  The rules are those of the language, one for each kind of
node: what stands between the parts, and in which order the parts come.  They say nothing about how the tree is found.

`L` are the exceptions: the parser takes some sequences of tokens that no tree has, or drops a part.  There is a rule for each of these,
marked by an exception, and `Occ` says which tokens must occur in the source for it.  With `L = fun _ => False` the rules are those of the
language. -/

namespace Mole.Parser.Prog

/-- The exceptions. -/
inductive Ex where
  /-- `async *`: read as a product, an arrow function or a function, also if a name is next, which is dropped -/
  | asyncStar
  /-- `async f(`: read as a call of `async`, an arrow function or a function; the name is dropped -/
  | asyncName
  /-- `async (a) {}`: read as a function -/
  | asyncFn
  /-- `(a) = 1`: the parentheses are dropped -/
  | parens
  /-- `a?.()()`: the second call is said to be optional too -/
  | optCall
  /-- ``new C()`t` ``: read as ``new (C`t`)`` -/
  | newTpl
  /-- `return;;`: read as one statement -/
  | return_
  /-- `let {[a] = 1} = b`: the brackets are dropped -/
  | computedInit
  /-- `{"get" a() {}}`: the string is read as the word -/
  | accessor
  /-- `x = function() 1`: read as a function whose body is an expression -/
  | fnExpr
  /-- `class A { () {} }`: read as a method without a name -/
  | unnamed
  /-- the same after a field with a value: `class A { a = b++ () {} }` -/
  | unnamedValue
  /-- `(import("a");)`: the semicolon is read as part of the expression -/
  | importSemi
  /-- `import a "b"`: `from` is left out -/
  | importFrom
  /-- `import {a b} from "c"`: the comma is left out -/
  | importComma
  /-- `import {a}, {b} from "c"` -/
  | importTwo
  /-- `export async a => b`: the expression is read as a declaration -/
  | exportAsync
deriving DecidableEq

/-- What closes a bracket. -/
def closer : K → Option K
  | .pu .parenL => some (.pu .parenR)
  | .pu .brackL => some (.pu .brackR)
  | .pu .braceL => some (.pu .braceR)
  | _ => none

/-- A closing bracket. -/
def isCloser (k : K) : Bool := k = .pu .parenR || k = .pu .brackR || k = .pu .braceR

/-- Each bracket is closed by its own kind, and nothing else is closed.  The first argument is what is still to be closed. -/
def balanced : List K → List K → Bool
  | st, [] => st.isEmpty
  | st, k :: ks =>
    match closer k with
    | some c => balanced (c :: st) ks
    | none =>
      if isCloser k then
        match st with
        | c :: st' => c = k && balanced st' ks
        | [] => false
      else balanced st ks

/-- The tokens are next to each other somewhere in the source. -/
def Within (p : List K → Prop) (ks : List K) : Prop := ∃ a m b, ks = a ++ m ++ b ∧ p m

/-- What the lists of names in braces are made of. -/
def specTok : K → Bool
  | .name _ | .cw _ | .pu .comma => true
  | k => isKw k

/-- A comma is between any two names, which are `a` or `a as b`. -/
def commas : List K → Bool
  | [] | [_] | [_, .name "as", _] => true
  | _ :: .pu .comma :: l | _ :: .name "as" :: _ :: .pu .comma :: l => commas l
  | _ => false

/-- What is between `import` and the string. -/
def importTok : K → Bool
  | .pu .braceL | .pu .braceR | .bin .mul => true
  | k => specTok k

/-- `from` is missing: if there is one, it is what is imported. -/
def noFrom (l : List K) : Prop :=
  l = [.name "from"] ∨ (∃ t, l = t ++ [.bin .mul, .name "as", .name "from"]) ∨ l.getLast? ≠ some (.name "from")

/-- What must occur in the source for an exception. -/
def Occ (ks : List K) : Ex → Prop
  | .asyncStar => Within (fun m => m = [.name "async", .bin .mul]) ks
  | .asyncName => Within (fun m => ∃ k, m = [.name "async", k, .pu .parenL]) ks
  | .asyncFn => Within (fun m => ∃ l, m = .name "async" :: .pu .parenL :: l ++ [.pu .parenR, .pu .braceL]) ks
  | .parens => Within (fun m => ∃ k, m = [.pu .parenL, k, .pu .parenR]) ks
  | .optCall => Within (fun m => m = [.pu .optChain, .pu .parenL]) ks
  | .newTpl => Within (fun m => ∃ k, m = [.pu .parenL, .pu .parenR, k] ∧ ((∃ s, k = .tplPlain s) ∨ ∃ s, k = .tplHead s)) ks
  | .return_ => Within (fun m => m = [.kw .return_, .pu .semi, .pu .semi]) ks
  | .computedInit => Within (fun m => m = [.pu .brackR, .asg .assign]) ks
  | .accessor => Within (fun m => m = [.str "get"] ∨ m = [.str "set"]) ks
  | .fnExpr => Within (fun m => ∃ w l k, m = .kw .func :: w ++ .pu .parenL :: l ++ [.pu .parenR, k] ∧ w.length ≤ 2 ∧
      balanced [] l = true ∧ k ≠ .pu .braceL) ks
  | .unnamed => Within (fun m => ∃ a b l, m = .kw .class_ :: a ++ .pu .braceL :: b ++ .pu .parenL :: l ++ [.pu .parenR, .pu .braceL] ∧
      balanced [] a = true ∧ balanced [] b = true ∧ balanced [] l = true ∧
      (b = [] ∨ (∃ c, b = c ++ [.pu .semi]) ∨ ∃ c, b = c ++ [.pu .braceR])) ks
  | .unnamedValue => Within (fun m => ∃ a b z l,
      m = .kw .class_ :: a ++ .pu .braceL :: b ++ .asg .assign :: z ++ .pu .parenL :: l ++ [.pu .parenR, .pu .braceL] ∧
      balanced [] a = true ∧ balanced [] (b ++ .asg .assign :: z) = true ∧ balanced [] l = true) ks
  | .importSemi => Within (fun m => ∃ l, m = .kw .import_ :: .pu .parenL :: l ++ [.pu .parenR, .pu .semi] ∧ balanced [] l = true) ks
  | .importFrom => Within (fun m => ∃ l s, m = .kw .import_ :: l ++ [.str s] ∧ l ≠ [] ∧ l.all importTok = true ∧ noFrom l) ks
  | .importComma => Within (fun m => ∃ k l, m = k :: .pu .braceL :: l ++ [.pu .braceR] ∧ (k = .kw .import_ ∨ k = .pu .comma) ∧
      l.all specTok = true ∧ commas l = false) ks
  | .importTwo => Within (fun m => (∃ l, m = .kw .import_ :: .pu .braceL :: l ++ [.pu .braceR, .pu .comma] ∧ l.all specTok = true) ∨
      ∃ k, m = [.kw .import_, .bin .mul, .name "as", k, .pu .comma]) ks
  | .exportAsync => Within (fun m => ∃ k k', m = [k, .name "async", k'] ∧ (k = .kw .export_ ∨ k = .kw .default) ∧ k' ≠ .kw .func) ks

/-- A word or nothing. -/
def opt (b : Bool) (k : K) : List K := if b then [k] else []

/-- A semicolon or nothing. -/
def Semi (ks : List K) : Prop := ks = [] ∨ ks = [.pu .semi]

/-- `in` is a name to the lexer. -/
inductive Op : BinOp → K → Prop
  | op (o : BinOp) : Op o (.bin o)
  | in_ : Op .in_ (.name "in")

/-- The tokens that are expressions by themselves. -/
def isOperand : K → Bool
  | .name _ | .num _ | .str _ | .regexp _ | .null | .true_ | .false_ | .cw _ | .kw .this | .kw .super => true
  | _ => false

/-- Names, and the words that are names in some places. -/
def isWord : K → Bool
  | .name _ | .cw _ => true
  | _ => false

/-- The words of declarations. -/
inductive DecWord : K → K → Prop
  | var : DecWord (.kw .var) (.kw .var)
  | letW : DecWord (.cw .let_) (.cw .let_)
  | constW : DecWord (.cw .const_) (.cw .const_)
  | let_ : DecWord (.cw .let_) (.name "let")
  | const_ : DecWord (.cw .const_) (.name "const")

/-- `get` and `set`. -/
inductive Accessor (L : Ex → Prop) : Nat → List K → Prop
  | method : Accessor L 0 []
  | get : Accessor L 1 [.name "get"]
  | set : Accessor L 2 [.name "set"]
  | getStr : L .accessor → Accessor L 1 [.str "get"]
  | setStr : L .accessor → Accessor L 2 [.str "set"]

/-- What may be before the parentheses and is dropped. -/
inductive AsyncHead (L : Ex → Prop) : List K → Prop
  | star : L .asyncStar → AsyncHead L [.name "async", .bin .mul]
  | starName (k : K) : L .asyncStar → isWord k = true → AsyncHead L [.name "async", .bin .mul, k]
  | name (k : K) : L .asyncName → isWord k = true → AsyncHead L [.name "async", k]

/-- A name that is imported: `a`, `a as b`, where `a` may be a keyword if `as` is there. -/
inductive ImpSpec : Node → List K → Prop
  | name {k} : isWord k = true → isKw k = false → ImpSpec (.spec (.leaf k) .nil) [k]
  | as_ {k k'} : isWord k = true ∨ isKw k = true → isWord k' = true → ImpSpec (.spec (.leaf k) (.leaf k')) [k, .name "as", k']

/-- A name that is exported. -/
inductive ExpSpec : Node → List K → Prop
  | name {k} : isWord k = true ∨ isKw k = true → ExpSpec (.spec (.leaf k) .nil) [k]
  | as_ {k k'} : isWord k = true ∨ isKw k = true → isWord k' = true ∨ isKw k' = true →
      ExpSpec (.spec (.leaf k) (.leaf k')) [k, .name "as", k']

/-- A comma after each, but it may be left out after the last one. -/
inductive Specs (P : Node → List K → Prop) : List Node → List K → Prop
  | nil : Specs P [] []
  | one {e a} : P e a → Specs P [e] a
  | cons {e l a b} : P e a → Specs P l b → Specs P (e :: l) (a ++ .pu .comma :: b)

/-- Any comma may be left out. -/
inductive Loose (P : Node → List K → Prop) : List Node → List K → Prop
  | nil : Loose P [] []
  | cons {e l a c b} : P e a → (c = [] ∨ c = [.pu .comma]) → Loose P l b → Loose P (e :: l) (a ++ c ++ b)

/-- Names in braces, or `* as a`. -/
inductive Group (L : Ex → Prop) : List Node → List K → Prop
  | named {l a} : Specs ImpSpec l a → Group L l (.pu .braceL :: a ++ [.pu .braceR])
  | loose {l a} : L .importComma → Loose ImpSpec l a → Group L l (.pu .braceL :: a ++ [.pu .braceR])
  | ns {k} : isWord k = true → Group L [.impNS (.leaf k)] [.bin .mul, .name "as", k]

/-- What is imported. -/
inductive Clause (L : Ex → Prop) : List Node → List K → Prop
  | default {k} : isWord k = true → Clause L [.impDef (.leaf k)] [k]
  | group {l a} : Group L l a → Clause L l a
  | both {k l a} : isWord k = true → Group L l a → Clause L (.impDef (.leaf k) :: l) (k :: .pu .comma :: a)
  | two {l l' a b} : L .importTwo → Group L l a → Group L l' b → Clause L (l ++ l') (a ++ .pu .comma :: b)

/-- Declarations. -/
def isDecl : Node → Bool
  | .varDec .. | .fn .. | .class_ .. => true
  | _ => false

mutual
/-- Expressions and patterns. -/
inductive Expr (L : Ex → Prop) : Node → List K → Prop
  | leaf {k} : isOperand k = true → Expr L (.leaf k) [k]
  | tpl {l a} : Tpl L l a → Expr L (.tpl .nil l) a
  | tagged {t l a b} : Expr L t a → Tpl L l b → Expr L (.tpl t l) (a ++ b)
  | arr {l a} : Elems L l a → Expr L (.arr l) (.pu .brackL :: a ++ [.pu .brackR])
  | obj {l a} : List_ L l a → Expr L (.obj l) (.pu .braceL :: a ++ [.pu .braceR])
  | prop {c k v a b} : Key L c k a → Expr L v b → Expr L (.prop c k v) (a ++ .pu .colon :: b)
  | short {c k a} : Key L c k a → Expr L (.prop c k .nil) a
  | init {c k v a b} : Key L c k a → Expr L v b → Expr L (.init c k v) (a ++ .asg .assign :: b)
  | computedInit {k v a b} : L .computedInit → Key L true k a → Expr L v b → Expr L (.init false k v) (a ++ .asg .assign :: b)
  | method {i as g c k ps b w x y z} : Accessor L i w → Key L c k x → List_ L ps y → Stmt L b z →
      Expr L (.method i as g c k ps b)
        (w ++ opt as (.name "async") ++ opt g (.bin .mul) ++ x ++ .pu .parenL :: y ++ .pu .parenR :: z)
  | spread {e a} : Expr L e a → Expr L (.spread e) (.pu .dots :: a)
  | fn {as g id ps b x y z} : Opt L id x → List_ L ps y → Stmts L b z →
      Expr L (.fn as g id ps (.block b))
        (opt as (.name "async") ++ .kw .func :: opt g (.bin .mul) ++ x ++ .pu .parenL :: y ++
          .pu .parenR :: .pu .braceL :: z ++ [.pu .braceR])
  | fnExpr {as g id ps b x y z} : L .fnExpr → Opt L id x → List_ L ps y → Expr L b z →
      Expr L (.fn as g id ps b)
        (opt as (.name "async") ++ .kw .func :: opt g (.bin .mul) ++ x ++ .pu .parenL :: y ++ .pu .parenR :: z)
  | fnNoKw {g id ps b x y z} : L .asyncFn ∨ L .asyncStar ∨ L .asyncName → Opt L id x → List_ L ps y → Stmts L b z →
      Expr L (.fn true g id ps (.block b))
        (.name "async" :: opt g (.bin .mul) ++ x ++ .pu .parenL :: y ++ .pu .parenR :: .pu .braceL :: z ++ [.pu .braceR])
  | arrow {ps b y z} : List_ L ps y → Body L b z →
      Expr L (.arrow false ps b) (.pu .parenL :: y ++ .pu .parenR :: .pu .arrow :: z)
  | arrow1 {as id b x z} : Expr L id x → Body L b z →
      Expr L (.arrow as [id] b) (opt as (.name "async") ++ x ++ .pu .arrow :: z)
  | asyncArrow1 {id b x z} : L .asyncStar → Expr L id x → Body L b z →
      Expr L (.arrow true [id] b) (.name "async" :: .bin .mul :: x ++ .pu .arrow :: z)
  | asyncArrow {ps b y z} : List_ L ps y → Body L b z →
      Expr L (.arrow true ps b) (.name "async" :: .pu .parenL :: y ++ .pu .parenR :: .pu .arrow :: z)
  | asyncArrowX {ps b x y z} : AsyncHead L x → List_ L ps y → Body L b z →
      Expr L (.arrow true ps b) (x ++ .pu .parenL :: y ++ .pu .parenR :: .pu .arrow :: z)
  | asyncCall {l x y} : AsyncHead L x → List_ L l y →
      Expr L (.call false (.leaf (.name "async")) l) (x ++ .pu .parenL :: y ++ [.pu .parenR])
  | asyncMul1 {e x y} : AsyncHead L x → List_ L [e] y →
      Expr L (.bin .mul (.leaf (.name "async")) e) (x ++ .pu .parenL :: y ++ [.pu .parenR])
  | asyncMul {l x y} : AsyncHead L x → List_ L l y →
      Expr L (.bin .mul (.leaf (.name "async")) (.seq l)) (x ++ .pu .parenL :: y ++ [.pu .parenR])
  | paren {e a} : Expr L e a → Expr L (.paren e) (.pu .parenL :: a ++ [.pu .parenR])
  | dropParens {k a} : L .parens → Expr L (.leaf k) a → Expr L (.leaf k) (.pu .parenL :: a ++ [.pu .parenR])
  | seq {e l a b} : Expr L e a → Tail L l b → Expr L (.seq (e :: l)) (a ++ b)
  | yield_ {k} : isYield k = true → Expr L (.yield_ false .nil) [k]
  | yieldArg {k d e a} : isYield k = true → Expr L e a → Expr L (.yield_ d e) (k :: opt d (.bin .mul) ++ a)
  | unary {k e a} : isUnary k = true ∨ k = .cw .await → Expr L e a → Expr L (.unary k e) (k :: a)
  | prefix_ {k e a} : isIncDec k = true → Expr L e a → Expr L (.update true k e) (k :: a)
  | postfix_ {k e a} : isIncDec k = true → Expr L e a → Expr L (.update false k e) (a ++ [k])
  | bin {op k l r a b} : Op op k → Expr L l a → Expr L r b → Expr L (.bin op l r) (a ++ k :: b)
  | cond {t c e x y z} : Expr L t x → Expr L c y → Expr L e z → Expr L (.cond t c e) (x ++ .pu .hook :: y ++ .pu .colon :: z)
  | assign {op l r a b} : Expr L l a → Expr L r b → Expr L (.assign op l r) (a ++ .asg op :: b)
  | member {e k a} : canKey k = true ∨ (∃ s, k = .pvt s) → Expr L e a → Expr L (.member false e (.leaf k)) (a ++ [.pu .dot, k])
  | optMember {e k a} : canKey k = true ∨ (∃ s, k = .pvt s) → Expr L e a → Expr L (.member true e (.leaf k)) (a ++ [.pu .optChain, k])
  | index {e i a b} : Expr L e a → Expr L i b → Expr L (.index false e i) (a ++ .pu .brackL :: b ++ [.pu .brackR])
  | optIndex {e i a b} : Expr L e a → Expr L i b →
      Expr L (.index true e i) (a ++ .pu .optChain :: .pu .brackL :: b ++ [.pu .brackR])
  | call {e l a b} : Expr L e a → List_ L l b → Expr L (.call false e l) (a ++ .pu .parenL :: b ++ [.pu .parenR])
  | optCall {e l a b} : Expr L e a → List_ L l b →
      Expr L (.call true e l) (a ++ .pu .optChain :: .pu .parenL :: b ++ [.pu .parenR])
  | optCallX {e l a b} : L .optCall → Expr L e a → List_ L l b → Expr L (.call true e l) (a ++ .pu .parenL :: b ++ [.pu .parenR])
  | new_ {e l a b} : Expr L e a → List_ L l b → Expr L (.new_ e l) (.kw .new_ :: a ++ .pu .parenL :: b ++ [.pu .parenR])
  | newBare {e a} : Expr L e a → Expr L (.new_ e []) (.kw .new_ :: a)
  | newTpl {e l a b} : L .newTpl → Expr L e a → Tpl L l b →
      Expr L (.new_ (.tpl e l) []) (.kw .new_ :: a ++ .pu .parenL :: .pu .parenR :: b)
  | newTarget : Expr L .newTarget [.kw .new_, .pu .dot, .name "target"]
  | chain {e a} : Expr L e a → Expr L (.chain e) a
  | class_ {id e l x y z} : Opt L id x → Heritage L e y → Members L false l z →
      Expr L (.class_ id e l) (.kw .class_ :: x ++ y ++ .pu .braceL :: z ++ [.pu .braceR])
  | importCall {e a} : Expr L e a → Expr L (.importCall e) (.kw .import_ :: .pu .parenL :: a ++ [.pu .parenR])
  | importSemi {e a} : L .importSemi → Expr L e a → Expr L (.importCall e) (.kw .import_ :: .pu .parenL :: a ++ [.pu .parenR, .pu .semi])
  | importMeta : Expr L .importMeta [.kw .import_, .pu .dot, .name "meta"]

/-- Property names. -/
inductive Key (L : Ex → Prop) : Bool → Node → List K → Prop
  | name {k} : canKey k = true ∨ (∃ s, k = .str s) → Key L false (.leaf k) [k]
  | computed {e a} : Expr L e a → Key L true e (.pu .brackL :: a ++ [.pu .brackR])

/-- What may be left out. -/
inductive Opt (L : Ex → Prop) : Node → List K → Prop
  | none : Opt L .nil []
  | some {e a} : Expr L e a → Opt L e a

/-- The parts of a template: texts and expressions take turns. -/
inductive Tpl (L : Ex → Prop) : List Node → List K → Prop
  | last {k} : (∃ s, k = .tplPlain s) ∨ (∃ s, k = .tplTail s) → Tpl L [.leaf k] [k]
  | part {k e l a b} : (∃ s, k = .tplHead s) ∨ (∃ s, k = .tplSpan s) → Expr L e a → Tpl L l b → Tpl L (.leaf k :: e :: l) (k :: a ++ b)

/-- The elements of an array: a comma after each, but it may be left out after the last one, and an element may be left out. -/
inductive Elems (L : Ex → Prop) : List Node → List K → Prop
  | nil : Elems L [] []
  | hole {l b} : Elems L l b → Elems L (.nil :: l) (.pu .comma :: b)
  | one {e a} : Expr L e a → Elems L [e] a
  | cons {e l a b} : Expr L e a → Elems L l b → Elems L (e :: l) (a ++ .pu .comma :: b)

/-- Arguments, parameters, properties: a comma after each, but it may be left out after the last one. -/
inductive List_ (L : Ex → Prop) : List Node → List K → Prop
  | nil : List_ L [] []
  | one {e a} : Expr L e a → List_ L [e] a
  | cons {e l a b} : Expr L e a → List_ L l b → List_ L (e :: l) (a ++ .pu .comma :: b)

/-- More expressions: a comma before each. -/
inductive Tail (L : Ex → Prop) : List Node → List K → Prop
  | nil : Tail L [] []
  | cons {e l a b} : Expr L e a → Tail L l b → Tail L (e :: l) (.pu .comma :: a ++ b)

/-- The body of an arrow function: a block, or an expression. -/
inductive Body (L : Ex → Prop) : Node → List K → Prop
  | block {l a} : Stmts L l a → Body L (.block l) (.pu .braceL :: a ++ [.pu .braceR])
  | expr {e a} : Expr L e a → Body L e a

/-- A declaration without its semicolon. -/
inductive Dec (L : Ex → Prop) : Node → List K → Prop
  | dec {v k l a} : DecWord v k → Decs L l a → Dec L (.varDec v l) (k :: a)

/-- The variables of a declaration. -/
inductive Decs (L : Ex → Prop) : List Node → List K → Prop
  | one {e a} : Var L e a → Decs L [e] a
  | cons {e l a b} : Var L e a → Decs L l b → Decs L (e :: l) (a ++ .pu .comma :: b)

/-- A variable of a declaration. -/
inductive Var (L : Ex → Prop) : Node → List K → Prop
  | bare {e a} : Expr L e a → Var L (.dec e .nil) a
  | init {e i a b} : Expr L e a → Expr L i b → Var L (.dec e i) (a ++ .asg .assign :: b)

/-- What is between `for (` and `in`, `of` or the first semicolon. -/
inductive ForInit (L : Ex → Prop) : Node → List K → Prop
  | none : ForInit L .nil []
  | dec {d a} : Dec L d a → ForInit L d a
  | expr {e a} : Expr L e a → ForInit L e a

/-- Statements. -/
inductive Stmt (L : Ex → Prop) : Node → List K → Prop
  | expr {e a s} : Expr L e a → Semi s → Stmt L (.exprStmt e) (a ++ s)
  | dec {d a s} : Dec L d a → Semi s → Stmt L d (a ++ s)
  | fn {as g id ps b a} : Expr L (.fn as g id ps b) a → Stmt L (.fn as g id ps b) a
  | block {l a} : Stmts L l a → Stmt L (.block l) (.pu .braceL :: a ++ [.pu .braceR])
  | empty : Stmt L .empty [.pu .semi]
  | if_ {t c x y} : Expr L t x → Stmt L c y → Stmt L (.ifS t c .nil) (.kw .if_ :: .pu .parenL :: x ++ .pu .parenR :: y)
  | ifElse {t c e x y z} : Expr L t x → Stmt L c y → Stmt L e z →
      Stmt L (.ifS t c e) (.kw .if_ :: .pu .parenL :: x ++ .pu .parenR :: y ++ .kw .else_ :: z)
  | while_ {t b x y} : Expr L t x → Stmt L b y → Stmt L (.whileS t b) (.kw .while_ :: .pu .parenL :: x ++ .pu .parenR :: y)
  | do_ {t b x y s} : Stmt L b x → Expr L t y → Semi s →
      Stmt L (.doS b t) (.kw .do_ :: x ++ .kw .while_ :: .pu .parenL :: y ++ .pu .parenR :: s)
  | for_ {i t u b w x y z} : ForInit L i w → Opt L t x → Opt L u y → Stmt L b z →
      Stmt L (.forS i t u b) (.kw .for_ :: .pu .parenL :: w ++ .pu .semi :: x ++ .pu .semi :: y ++ .pu .parenR :: z)
  | forIn {aw isIn i e b x y z} : ForInit L i x → Expr L e y → Stmt L b z →
      Stmt L (.forIn aw isIn i e b)
        (.kw .for_ :: opt aw (.cw .await) ++ .pu .parenL :: x ++ .name (if isIn then "in" else "of") :: y ++ .pu .parenR :: z)
  | return_ {e a s} : Opt L e a → Semi s → Stmt L (.ret e) (.kw .return_ :: a ++ s)
  | return2 : L .return_ → Stmt L (.ret .nil) [.kw .return_, .pu .semi, .pu .semi]
  | throw_ {e a s} : Expr L e a → Semi s → Stmt L (.throwS e) (.kw .throw_ :: a ++ s)
  | break_ {e a s} : Opt L e a → Semi s → Stmt L (.brk e) (.kw .break_ :: a ++ s)
  | continue_ {e a s} : Opt L e a → Semi s → Stmt L (.cont e) (.kw .continue_ :: a ++ s)
  | label {k b a} : isWord k = true → Stmt L b a → Stmt L (.label (.leaf k) b) (k :: .pu .colon :: a)
  | switch {t l x y} : Expr L t x → Cases L l y →
      Stmt L (.switchS t l) (.kw .switch :: .pu .parenL :: x ++ .pu .parenR :: .pu .braceL :: y ++ [.pu .braceR])
  | try_ {b h f x y z} : Stmt L b x → Catch L h y → Finally L f z → Stmt L (.tryS b h f) (.kw .try_ :: x ++ y ++ z)
  | debugger {s} : Semi s → Stmt L .debug (.kw .debugger :: s)
  | class_ {k e l a} : Expr L (.class_ (.leaf k) e l) a → Stmt L (.class_ (.leaf k) e l) a
  | import_ {l s a m} : Clause L l a → Semi m →
      Stmt L (.importS l (.leaf (.str s))) (.kw .import_ :: a ++ .name "from" :: .str s :: m)
  | importNoFrom {l s a m} : L .importFrom → Clause L l a → Semi m →
      Stmt L (.importS l (.leaf (.str s))) (.kw .import_ :: a ++ .str s :: m)
  | importBare {s m} : Semi m → Stmt L (.importS [] (.leaf (.str s))) (.kw .import_ :: .str s :: m)
  | exportDec {d a} : Stmt L d a → isDecl d = true ∨ L .exportAsync → Stmt L (.exportDec d) (.kw .export_ :: a)
  | exportDefault {e a s} : Expr L e a → Semi s → Stmt L (.exportDefault e) (.kw .export_ :: .kw .default :: a ++ s)
  | exportDefaultX {d a} : L .exportAsync → Stmt L d a → Stmt L (.exportDefault d) (.kw .export_ :: .kw .default :: a)
  | exportNamed {l a s} : Specs ExpSpec l a → l.all localName = true → Semi s →
      Stmt L (.exportNamed l .nil) (.kw .export_ :: .pu .braceL :: a ++ .pu .braceR :: s)
  | exportFrom {l a f s} : Specs ExpSpec l a → Semi s →
      Stmt L (.exportNamed l (.leaf (.str f))) (.kw .export_ :: .pu .braceL :: a ++ .pu .braceR :: .name "from" :: .str f :: s)
  | exportAll {f s} : Semi s →
      Stmt L (.exportAll .nil (.leaf (.str f))) (.kw .export_ :: .bin .mul :: .name "from" :: .str f :: s)
  | exportAllAs {k f s} : isWord k = true → Semi s →
      Stmt L (.exportAll (.leaf k) (.leaf (.str f))) (.kw .export_ :: .bin .mul :: .name "as" :: k :: .name "from" :: .str f :: s)
  | with_ {t b x y} : Expr L t x → Stmt L b y → Stmt L (.withS t b) (.kw .with_ :: .pu .parenL :: x ++ .pu .parenR :: y)

/-- The catch clause, or nothing. -/
inductive Catch (L : Ex → Prop) : Node → List K → Prop
  | none : Catch L .nil []
  | bare {b a} : Stmt L b a → Catch L (.catchS .nil b) (.kw .catch_ :: a)
  | param {p b x y} : Expr L p x → Stmt L b y → Catch L (.catchS p b) (.kw .catch_ :: .pu .parenL :: x ++ .pu .parenR :: y)

/-- The finally clause, or nothing. -/
inductive Finally (L : Ex → Prop) : Node → List K → Prop
  | none : Finally L .nil []
  | block {b a} : Stmt L b a → Finally L b (.kw .finally_ :: a)

/-- The clauses of a switch. -/
inductive Cases (L : Ex → Prop) : List Node → List K → Prop
  | nil : Cases L [] []
  | case {t b l x y z} : Expr L t x → Stmts L b y → Cases L l z → Cases L (.case t b :: l) (.kw .case_ :: x ++ .pu .colon :: y ++ z)
  | default {b l y z} : Stmts L b y → Cases L l z → Cases L (.case .nil b :: l) (.kw .default :: .pu .colon :: y ++ z)

/-- Statements one after another. -/
inductive Stmts (L : Ex → Prop) : List Node → List K → Prop
  | nil : Stmts L [] []
  | cons {s l a b} : Stmt L s a → Stmts L l b → Stmts L (s :: l) (a ++ b)

/-- The keys of the members of a class. -/
inductive MemberKey (L : Ex → Prop) : Bool → Node → List K → Prop
  | key {c k a} : Key L c k a → MemberKey L c k a
  | pvt {s} : MemberKey L false (.leaf (.pvt s)) [.pvt s]

/-- What a class extends, or nothing. -/
inductive Heritage (L : Ex → Prop) : Node → List K → Prop
  | none : Heritage L .nil []
  | some {e a} : Expr L e a → Heritage L e (.kw .extends_ :: a)

/-- The members of a class, and semicolons.  The first argument: they come after a field with a value. -/
inductive Members (L : Ex → Prop) : Bool → List Node → List K → Prop
  | nil {p} : Members L p [] []
  | semi {p l a} : Members L false l a → Members L p l (.pu .semi :: a)
  | field {p st c k l a b} : MemberKey L c k a → Members L false l b →
      Members L p (.elem st (.field c k .nil) :: l) (opt st (.cw .static) ++ a ++ b)
  | value {p st c k v l a x b} : MemberKey L c k a → Expr L v x → Members L true l b →
      Members L p (.elem st (.field c k v) :: l) (opt st (.cw .static) ++ a ++ .asg .assign :: x ++ b)
  | method {p st i as g c k ps m l w x y z b} : Accessor L i w → MemberKey L c k x → List_ L ps y → Stmts L m z → Members L false l b →
      Members L p (.elem st (.method i as g c k ps (.block m)) :: l)
        (opt st (.cw .static) ++ w ++ opt as (.name "async") ++ opt g (.bin .mul) ++ x ++
          .pu .parenL :: y ++ .pu .parenR :: .pu .braceL :: z ++ .pu .braceR :: b)
  | static {p m l z b} : Stmts L m z → Members L false l b →
      Members L p (.staticBlock m :: l) (.cw .static :: .pu .braceL :: z ++ .pu .braceR :: b)
  | unnamed {p ps m l y z b} : (p = true ∧ L .unnamedValue) ∨ (p = false ∧ L .unnamed) → List_ L ps y → Stmts L m z → Members L false l b →
      Members L p (.elem false (.method 0 false false false .nil ps (.block m)) :: l)
        (.pu .parenL :: y ++ .pu .parenR :: .pu .braceL :: z ++ .pu .braceR :: b)
end

/-- Words that are sometimes names and sometimes not. -/
def contextual : List String := ["async", "get", "set", "let", "const", "in", "of", "target", "yield", "as", "from", "meta"]

/-- Numbers, strings, regular expressions, the texts of templates, `null`, `true`, `false`, `this`, `super`, private names, and names
that are nothing else. -/
def isLit : K → Bool
  | .name s => !contextual.contains s
  | .num _ | .str _ | .regexp _ | .tplPlain _ | .tplHead _ | .tplSpan _ | .tplTail _ | .null | .true_ | .false_ | .pvt _ => true
  | .kw k => k = .this || k = .super
  | _ => false

mutual
/-- The literals and names at the leaves of a tree, from left to right. -/
def lits : Node → List K
  | .nil | .newTarget | .empty | .debug | .importMeta => []
  | .leaf k => if isLit k then [k] else []
  | .tpl t l => lits t ++ litsL l
  | .arr l | .obj l | .seq l | .block l | .prog l | .varDec _ l | .staticBlock l => litsL l
  | .prop _ k v | .init _ k v | .field _ k v => lits k ++ lits v
  | .method _ _ _ _ k ps b => lits k ++ litsL ps ++ lits b
  | .fn _ _ id ps b => lits id ++ litsL ps ++ lits b
  | .arrow _ ps b => litsL ps ++ lits b
  | .spread e | .paren e | .yield_ _ e | .unary _ e | .update _ _ e | .chain e | .exprStmt e | .ret e | .throwS e | .brk e
  | .cont e | .elem _ e | .importCall e | .impDef e | .impNS e | .exportDec e | .exportDefault e => lits e
  | .bin _ l r | .assign _ l r | .member _ l r | .index _ l r | .dec l r | .whileS l r | .doS l r | .label l r | .catchS l r
  | .withS l r | .spec l r | .exportAll l r => lits l ++ lits r
  | .cond t c e | .ifS t c e | .forIn _ _ t c e | .tryS t c e => lits t ++ lits c ++ lits e
  | .forS i t u b => lits i ++ lits t ++ lits u ++ lits b
  | .call _ f l | .new_ f l | .switchS f l | .case f l => lits f ++ litsL l
  | .class_ id e l => lits id ++ lits e ++ litsL l
  | .importS l e | .exportNamed l e => litsL l ++ lits e

def litsL : List Node → List K
  | [] => []
  | e :: l => lits e ++ litsL l
end

end Mole.Parser.Prog
