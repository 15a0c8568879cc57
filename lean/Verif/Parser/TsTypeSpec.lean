import Verif.Parser.TsType

/-! # The grammar of types (for C80)

`G C q j s r` says: `j` is written at the beginning of the tokens `s`, and `r` is left.  With `q = false` these are rules of
TypeScript.  With `q = true` there are also the ways in which the parser departs from them: each such rule asks for `q = true`, or says
what it asks for when `q = false`. -/

namespace Mole.Parser.TsType
variable {X : Type}

/-! ## Unions and intersections -/

/-- Members with the operator before each but the first (`true`: `|`), split at each `|`. -/
def groups (a : Nd X) : List (Bool × Nd X) → List (List (Nd X))
  | [] => [[a]]
  | (true, m) :: l => [a] :: groups m l
  | (false, m) :: l =>
    match groups m l with
    | g :: gs => (a :: g) :: gs
    | [] => [[a]]

/-- The type of members joined with `&`. -/
def interOf : List (Nd X) → Nd X
  | [t] => t
  | l => .inter l

/-- The type of groups joined with `|`: `pend` are the members of the union that is being read, `last` is the priority of the last
operator, and `p` is that of the token after the type.  A group with `&` that is neither the first nor the last one ends a union, that is
the first member of the next one.  If `p` is not lower than the last operator, the union is not built: its first member is the type, and
the others are lost (a departure). -/
def build (p : Nat) : Nat → List (Nd X) → List (List (Nd X)) → Nd X
  | last, pend, [] =>
    match pend with
    | [t] => t
    | t :: l => if p < last then .union (t :: l) else t
    | [] => .union []
  | _, pend, g :: gs =>
    if gs = [] then build p (if 2 ≤ g.length then 10 else 8) (pend ++ [if p < 10 then interOf g else g.headD .this]) []
    else build p (if 2 ≤ g.length then 10 else 8) (if 2 ≤ g.length then [.union (pend ++ [interOf g])] else pend ++ [interOf g]) gs

/-- The type of members joined with `|` and `&` before a token with this priority. -/
def tree (p : Nat) (a : Nd X) (ms : List (Bool × Nd X)) : Nd X :=
  match groups a ms with
  | g :: gs => build p 0 [if gs ≠ [] ∨ p < 10 then interOf g else g.headD .this] gs
  | [] => a

/-- The type is the union of these groups in this order, maybe as a union of a union and more. -/
inductive UnionOf : List (List (Nd X)) → Nd X → Prop where
  | one (g : List (Nd X)) : UnionOf [g] (interOf g)
  | more {gs hs : List (List (Nd X))} {t : Nd X} : UnionOf gs t → hs ≠ [] → UnionOf (gs ++ hs) (.union (t :: hs.map interOf))

/-- The priority of the token after it is at least that of `|` or `&`: members are lost. -/
def lossy (r : List Tok) : Bool := 8 ≤ pcd (hd r).k

/-! ## Tokens -/

/-- A name or a keyword. -/
def word : K → Option String
  | .name s => some s
  | k => kwText k

/-- More names, with dots between. -/
inductive Dots : Name → Name → List Tok → List Tok → Prop where
  | nil {n : Name} {r : List Tok} : (hd r).k ≠ .dot → Dots n n r r
  | cons {n n' : Name} {v : String} {k : K} {a b : Bool} {s r : List Tok} :
    word k = some v → Dots (.dot n v) n' s r → Dots n n' (⟨.dot, a⟩ :: ⟨k, b⟩ :: s) r

/-- Type parameters, if there are some. -/
inductive TPar (C : Cfg X) : Option X → List Tok → List Tok → Prop where
  | nil {s : List Tok} : (hd s).k ≠ .lt → TPar C none s s
  | cons {x : X} {s r : List Tok} : (hd s).k = .lt → C.tparams s = some (x, r) → TPar C (some x) s r

/-! ## Types -/

/-- What is written. -/
inductive Jd (X : Type) where
  /-- a type; `top`: it is not an operand -/
  | typ (F : Fl) (top : Bool) (t : Nd X)
  /-- a member of a union or an intersection; `top`: the first one of a type that is no operand -/
  | prim (F : Fl) (top : Bool) (t : Nd X)
  /-- operators and members -/
  | ops (F : Fl) (ms : List (Bool × Nd X))
  /-- `[]` and `[…]` after the first type, that make it the second -/
  | suf (t t' : Nd X)
  /-- a type to which these may be added -/
  | base (F : Fl) (t : Nd X)
  /-- a type in parentheses, or a function type -/
  | par (top : Bool) (t : Nd X)
  /-- the parameters after the first, with the `)` -/
  | more (l : List (Nd X))
  /-- the parameters after the `(` -/
  | plist (l : List (Nd X))
  /-- `new (…) => t` -/
  | ctor (abs : Bool) (t : Nd X)
  /-- the first parameter -/
  | first (t : Nd X)
  /-- a type argument -/
  | arg (c : Bool) (t : Nd X)
  /-- type arguments after the `<` -/
  | args (c : Bool) (l : List (Nd X))
  /-- a member of a tuple -/
  | mem (rough : Bool) (t : Nd X)
  /-- the members of a tuple after the `[` -/
  | mems (rough : Bool) (l : List (Nd X))

/-- The word is the name of a type here: it is not `infer`, `keyof` or `unique`, not `abstract` before `new`, and not `readonly` before
the beginning of a type. -/
def Free (v : String) (next : Tok) : Prop :=
  v ≠ "infer" ∧ v ≠ "keyof" ∧ v ≠ "unique" ∧ ¬(v = "abstract" ∧ next.k = .new_ ∧ next.nl = false) ∧
    (v = "readonly" → startExpr next.k = false)

/-- No required member after an optional one. -/
def OptLast (l : List (Nd X)) : Prop :=
  ∀ a m b m' c, l = a ++ m :: (b ++ m' :: c) → isOpt m = true → isOpt m' = true ∨ isRest m' = true

/-- A member with a name. -/
def Named (m : Nd X) : Prop := ∃ v o u, m = .named v o u

/-- All members have names or none has; the name of a rest is behind the dots. -/
def NamesAgree (l : List (Nd X)) : Prop := (∃ m ∈ l, Named m) → ∀ m ∈ l, Named m ∨ ∃ t, m = .rest t ∧ Named t

/-- The type is a word, that can also be the name of a member. -/
def Word (t : Nd X) (v : String) : Prop := t = .ref (.id v) ∨ t = .predef v

/-- What a type argument begins with. -/
def StartsArg (k : K) : Prop :=
  (∃ s, k = .name s ∨ k = .str s ∨ k = .num s ∨ k = .ctx s) ∨ k ∈ [K.void, .null, .tru, .fls, .in_, .const_, .lt, .parenL, .braceL]

/-- Those that stay what they are when a parameter is expected, and are then no parameter. -/
def Stays (t : Nd X) : Prop :=
  (∃ s, t = .predef s ∧ s ∉ ["any", "number", "boolean", "string", "symbol", "void"]) ∨ (∃ k, t = .lit k) ∨ (∃ s, t = .neg s) ∨
  (∃ u i, t = .idx u i) ∨ (∃ u, t = .opt u) ∨ (∃ v o u, t = .named v o u) ∨ (∃ s u, t = .op s u) ∨ (∃ u, t = .query u) ∨
  (∃ n, t = .infer n) ∨ (∃ a b c d, t = .cond a b c d) ∨ (∃ a w, t = .pred a w) ∨ (∃ a w u, t = .predTy a w u) ∨
  (∃ s q l, t = .imp s q l) ∨ (∃ a b c d, t = .ctor a b c d) ∨ (∃ x, t = .tpl x) ∨ (∃ s u, t = .tparam s u) ∨
  (∃ s, t = .pid s) ∨ (∃ l, t = .parr l) ∨ (∃ x, t = .pobj x) ∨ (∃ u, t = .prest u) ∨ (∃ u o, t = .param u o) ∨
  (∃ u o v, t = .paramTy u o v) ∨ (∃ x, t = .ext x)

mutual
/-- What has been read as a type, as a parameter: a name, a tuple as the pattern of an array, an object, a rest. -/
inductive AsPat (C : Cfg X) : Nd X → Nd X → Prop where
  | name (s : String) : AsPat C (.ref (.id s)) (.pid s)
  | predef (s : String) : s ∈ ["any", "number", "boolean", "string", "symbol"] → AsPat C (.predef s) (.pid s)
  | this : AsPat C .this (.pid "this")
  | obj (x y : X) : C.toPat x = some y → AsPat C (.obj x) (.pobj y)
  | tuple (l m : List (Nd X)) : AsPats C l m → AsPat C (.tuple l) (.parr m)
  | arr (t p : Nd X) : (∀ s ∈ ["any", "number", "boolean", "string", "symbol", "void"], t ≠ .predef s) → t ≠ .this → AsPat C t p →
    AsPat C (.arr t) p
  | rest (s : String) : AsPat C (.rest (.ref (.id s))) (.prest (.ref (.id s)))
  | stays (t : Nd X) : Stays t → AsPat C t t
inductive AsPats (C : Cfg X) : List (Nd X) → List (Nd X) → Prop where
  | nil : AsPats C [] []
  | cons (t p : Nd X) (l m : List (Nd X)) : AsPat C t p → AsPats C l m → AsPats C (t :: l) (p :: m)
end

/-- A pattern. -/
def Pattern (p : Nd X) : Prop := (∃ s, p = .pid s) ∨ (∃ l, p = .parr l) ∨ (∃ x, p = .pobj x) ∨ ∃ t, p = .prest t

/-- The first parameter has been read as a type, that must be a pattern; the others are as they are. -/
inductive AsFirst (C : Cfg X) : List (Nd X) → List (Nd X) → Prop where
  | nil : AsFirst C [] []
  | param (t p : Nd X) (o : Bool) (l : List (Nd X)) : t ≠ .this → AsPat C t p → Pattern p → AsFirst C (.param t o :: l) (.param p o :: l)
  | paramTy (t p u : Nd X) (o : Bool) (l : List (Nd X)) : AsPat C t p → Pattern p → AsFirst C (.paramTy t o u :: l) (.paramTy p o u :: l)

mutual
/-- What has been read where a parameter may be, as a type: objects are changed, also in tuples. -/
inductive AsTyp (C : Cfg X) : Nd X → Nd X → Prop where
  | obj (x y : X) : C.toTyp x = some y → AsTyp C (.obj x) (.obj y)
  | tuple (l m : List (Nd X)) : AsTyps C l m → AsTyp C (.tuple l) (.tuple m)
  | other (t : Nd X) : (∀ x, t ≠ .obj x) → (∀ l, t ≠ .tuple l) → AsTyp C t t
inductive AsTyps (C : Cfg X) : List (Nd X) → List (Nd X) → Prop where
  | nil : AsTyps C [] []
  | cons (t p : Nd X) (l m : List (Nd X)) : AsTyp C t p → AsTyps C l m → AsTyps C (t :: l) (p :: m)
end

inductive G (C : Cfg X) (q : Bool) : Jd X → List Tok → List Tok → Prop where
  /- types -/
  | new {F : Fl} {top : Bool} {t : Nd X} {s r : List Tok} : G C q (.ctor false t) s r → G C q (.typ F top t) s r
  | fnTyp {F : Fl} {top : Bool} {t : Nd X} {s r : List Tok} : isFn t = true → G C q (.prim F top t) s r → G C q (.typ F top t) s r
  | uni {F : Fl} {top : Bool} {a t : Nd X} {ms : List (Bool × Nd X)} {s m r : List Tok} :
    G C q (.prim F top a) s m → G C q (.ops F ms) m r → isFn a = false → isOp (hd r).k = false →
    ((∀ x ∈ ms, isFn x.2 = false) → t = tree (pcd (hd r).k) a ms) →
    /- `keyof A | B` is not `keyof (A | B)`; no member is lost; a function type is not a member -/
    (q = false → (top = false → ms = []) ∧ (ms ≠ [] → lossy r = false ∧ ∀ x ∈ ms, isFn x.2 = false)) →
    G C q (.typ F top t) s r
  /-- departure: an operator at the beginning loses all members but the last -/
  | lead {F : Fl} {top : Bool} {t : Nd X} {ms : List (Bool × Nd X)} {s r : List Tok} :
    q = true → ms ≠ [] → G C q (.ops F ms) s r → isOp (hd r).k = false →
    ((∀ x ∈ ms, isFn x.2 = false) → (∃ o, (o, t) ∈ ms) ∨ ∃ l, l <:+ ms ∧ t = .inter (l.map Prod.snd)) → G C q (.typ F top t) s r
  | ctor {abs nl a b : Bool} {tp : Option X} {l : List (Nd X)} {t : Nd X} {s s1 s2 r : List Tok} :
    TPar C tp s (⟨.parenL, a⟩ :: s1) → G C q (.more l) s1 (⟨.arrow, b⟩ :: s2) → G C q (.typ no true t) s2 r →
    G C q (.ctor abs (.ctor abs tp l t)) (⟨.new_, nl⟩ :: s) r
  | opsNil {F : Fl} {r : List Tok} : G C q (.ops F []) r r
  | opsCons {F : Fl} {o nl : Bool} {t : Nd X} {ms : List (Bool × Nd X)} {s m r : List Tok} :
    G C q (.prim F false t) s m → G C q (.ops F ms) m r →
    G C q (.ops F ((o, t) :: ms)) (⟨if o then .bar else .amp, nl⟩ :: s) r
  /- members -/
  | paren {F : Fl} {top : Bool} {n t : Nd X} {s m r : List Tok} :
    G C q (.par top n) s m → G C q (.suf n t) m r → (hd r).k ≠ .brackL → G C q (.prim F top (unwrap t)) s r
  | plain {F : Fl} {top : Bool} {t : Nd X} {s r : List Tok} :
    G C q (.base F t) s r → ¬((hd r).k = .brackL ∧ (hd r).nl = false) → ¬((hd r).k = .extends_ ∧ F.cond = true) →
    G C q (.prim F top t) s r
  | array {F : Fl} {top : Bool} {n t : Nd X} {s m r : List Tok} :
    G C q (.base F n) s m → (hd m).k = .brackL → (hd m).nl = false → G C q (.suf n t) m r → (hd r).k ≠ .brackL →
    G C q (.prim F top t) s r
  | cond {F : Fl} {top n1 n2 n3 : Bool} {n e a b : Nd X} {s m1 m2 m3 r : List Tok} :
    (q = true ∨ top = true) → F.cond = true → G C q (.base F n) s (⟨.extends_, n1⟩ :: m1) →
    G C q (.typ no true e) m1 (⟨.hook, n2⟩ :: m2) → G C q (.typ yes true a) m2 (⟨.colon, n3⟩ :: m3) → G C q (.typ yes true b) m3 r →
    G C q (.prim F top (.cond n e a b)) s r
  | null {F : Fl} {top nl : Bool} {r : List Tok} : G C q (.prim F top (.predef "null")) (⟨.null, nl⟩ :: r) r
  | lit {F : Fl} {top nl : Bool} {k : K} {r : List Tok} :
    (k = .tru ∨ k = .fls ∨ (∃ v, k = .str v) ∨ ∃ v, k = .num v) → G C q (.prim F top (.lit k)) (⟨k, nl⟩ :: r) r
  | neg {F : Fl} {top a b : Bool} {v : String} {r : List Tok} : G C q (.prim F top (.neg v)) (⟨.sub, a⟩ :: ⟨.num v, b⟩ :: r) r
  | tpl {F : Fl} {top : Bool} {x : X} {s r : List Tok} :
    (hd s).k = .tpl → C.tpl s = some (x, r) → G C q (.prim F top (.tpl x)) s r
  | absNew {F : Fl} {top nl : Bool} {t : Nd X} {s r : List Tok} :
    (hd s).nl = false → G C q (.ctor true t) s r → G C q (.prim F top t) (⟨.name "abstract", nl⟩ :: s) r
  | readonly {F : Fl} {top nl : Bool} {t : Nd X} {s r : List Tok} :
    (hd s).k = .brackL ∨ (isName (hd s).k = true ∧ (hd s).k ≠ .name "readonly") →
    G C q (.prim no false t) s r → (∃ u, t = .arr u) ∨ (∃ l, t = .tuple l) →
    G C q (.prim F top (.op "readonly" t)) (⟨.name "readonly", nl⟩ :: s) r
  | imp {F : Fl} {top a b c d : Bool} {v : String} {r : List Tok} : (hd r).k ≠ .dot → (hd r).k ≠ .lt →
    G C q (.prim F top (.imp v none [])) (⟨.import_, a⟩ :: ⟨.parenL, b⟩ :: ⟨.str v, c⟩ :: ⟨.parenR, d⟩ :: r) r
  | impName {F : Fl} {top a b c d e f : Bool} {v w : String} {k : K} {n : Name} {s r : List Tok} :
    word k = some w → Dots (.id w) n s r → (hd r).k ≠ .lt →
    G C q (.prim F top (.imp v (some n) [])) (⟨.import_, a⟩ :: ⟨.parenL, b⟩ :: ⟨.str v, c⟩ :: ⟨.parenR, d⟩ :: ⟨.dot, e⟩ :: ⟨k, f⟩ :: s) r
  | impArgs {F : Fl} {top a b c d e : Bool} {v : String} {l : List (Nd X)} {s r : List Tok} : G C q (.args true l) s r →
    G C q (.prim F top (.imp v none l)) (⟨.import_, a⟩ :: ⟨.parenL, b⟩ :: ⟨.str v, c⟩ :: ⟨.parenR, d⟩ :: ⟨.lt, e⟩ :: s) r
  | impNameArgs {F : Fl} {top a b c d e f g : Bool} {v w : String} {k : K} {n : Name} {l : List (Nd X)} {s m r : List Tok} :
    word k = some w → Dots (.id w) n s (⟨.lt, g⟩ :: m) → G C q (.args true l) m r →
    G C q (.prim F top (.imp v (some n) l)) (⟨.import_, a⟩ :: ⟨.parenL, b⟩ :: ⟨.str v, c⟩ :: ⟨.parenR, d⟩ :: ⟨.dot, e⟩ :: ⟨k, f⟩ :: s) r
  /- `[]` and `[…]` -/
  | sufNil {t : Nd X} {r : List Tok} : G C q (.suf t t) r r
  | sufArr {t t' : Nd X} {a b : Bool} {s r : List Tok} : (q = false → a = false) →
    G C q (.suf (.arr t) t') s r → G C q (.suf t t') (⟨.brackL, a⟩ :: ⟨.brackR, b⟩ :: s) r
  | sufIdx {t t' i : Nd X} {a b : Bool} {s m r : List Tok} : (q = false → a = false) →
    G C q (.typ yes true i) s (⟨.brackR, b⟩ :: m) → G C q (.suf (.idx t i) t') m r → G C q (.suf t t') (⟨.brackL, a⟩ :: s) r
  /- types to which these may be added -/
  | infer {F : Fl} {a b : Bool} {k : K} {w : String} {n : Name} {s r : List Tok} :
    word k = some w → Dots (.id w) n s r → G C q (.base F (.infer n)) (⟨.name "infer", a⟩ :: ⟨k, b⟩ :: s) r
  | op {F : Fl} {a : Bool} {w : String} {t : Nd X} {s r : List Tok} : w = "keyof" ∨ w = "unique" →
    G C q (.typ yes false t) s r → G C q (.base F (.op w t)) (⟨.name w, a⟩ :: s) r
  | query {F : Fl} {a : Bool} {t : Nd X} {s r : List Tok} :
    G C q (.typ { cond := F.cond } false t) s r → G C q (.base F (.query t)) (⟨.typeof_, a⟩ :: s) r
  | predef {F : Fl} {a : Bool} {v : String} {r : List Tok} : builtin v = true → (hd r).k ≠ .dot →
    G C q (.base F (.predef v)) (⟨.name v, a⟩ :: r) r
  | void {F : Fl} {a : Bool} {r : List Tok} : (hd r).k ≠ .dot → G C q (.base F (.predef "void")) (⟨.void, a⟩ :: r) r
  | ref {F : Fl} {a : Bool} {v : String} {n : Name} {s r : List Tok} :
    Free v (hd s) → (builtin v = true → (hd s).k = .dot) → Dots (.id v) n s r →
    ¬(n = .id "asserts" ∧ (isName (hd r).k = true ∨ (hd r).k = .this_)) → textIs (hd r).k = false → (hd r).k ≠ .lt →
    G C q (.base F (.ref n)) (⟨.name v, a⟩ :: s) r
  | app {F : Fl} {a b : Bool} {v : String} {n : Name} {l : List (Nd X)} {s m r : List Tok} :
    Free v (hd s) → (builtin v = true → (hd s).k = .dot) → Dots (.id v) n s (⟨.lt, b⟩ :: m) → G C q (.args false l) m r →
    G C q (.base F (.app n l)) (⟨.name v, a⟩ :: s) r
  | const_ {F : Fl} {a : Bool} {n : Name} {s r : List Tok} : F.const_ = true → Dots (.id "const") n s r →
    textIs (hd r).k = false → (hd r).k ≠ .lt → (q = false → n = .id "const") → G C q (.base F (.ref n)) (⟨.const_, a⟩ :: s) r
  | is_ {F : Fl} {a b : Bool} {v : String} {n : Name} {t : Nd X} {s m r : List Tok} :
    Free v (hd s) → (q = false → b = false ∧ n = .id v) → (builtin v = true → (hd s).k = .dot) → n ≠ .id "asserts" →
    Dots (.id v) n s (⟨.name "is", b⟩ :: m) → G C q (.typ no true t) m r → G C q (.base F (.predTy false (.nm n) t)) (⟨.name v, a⟩ :: s) r
  | assertsIs {F : Fl} {a b c : Bool} {v : String} {t : Nd X} {m r : List Tok} : (q = false → b = false ∧ c = false) →
    G C q (.typ no true t) m r →
    G C q (.base F (.predTy true (.nm (.id v)) t)) (⟨.name "asserts", a⟩ :: ⟨.name v, b⟩ :: ⟨.name "is", c⟩ :: m) r
  | asserts {F : Fl} {a b : Bool} {v : String} {r : List Tok} : (q = false → b = false ∧ v ≠ "is") → (hd r).k ≠ .name "is" →
    G C q (.base F (.pred true (.nm (.id v)))) (⟨.name "asserts", a⟩ :: ⟨.name v, b⟩ :: r) r
  | assertsThisIs {F : Fl} {a b c : Bool} {t : Nd X} {m r : List Tok} : (q = false → b = false ∧ c = false) →
    G C q (.typ no true t) m r →
    G C q (.base F (.predTy true .this t)) (⟨.name "asserts", a⟩ :: ⟨.this_, b⟩ :: ⟨.name "is", c⟩ :: m) r
  | assertsThis {F : Fl} {a b : Bool} {r : List Tok} : (q = false → b = false) → (hd r).k ≠ .name "is" →
    G C q (.base F (.pred true .this)) (⟨.name "asserts", a⟩ :: ⟨.this_, b⟩ :: r) r
  /-- departures: the string `"is"` is taken for the word; a predicate about `const` -/
  | isText {F : Fl} {a : Bool} {v : String} {n : Name} {s r : List Tok} : q = true → n ≠ .id "asserts" →
    Dots (.id v) n s r → textIs (hd r).k = true → (hd r).k ≠ .name "is" → G C q (.base F (.pred false (.nm n))) (⟨.name v, a⟩ :: s) r
  | constText {F : Fl} {a : Bool} {n : Name} {s r : List Tok} : q = true → F.const_ = true →
    Dots (.id "const") n s r → textIs (hd r).k = true → (hd r).k ≠ .name "is" → G C q (.base F (.pred false (.nm n))) (⟨.const_, a⟩ :: s) r
  | constIs {F : Fl} {a b : Bool} {n : Name} {t : Nd X} {s m r : List Tok} : q = true → F.const_ = true →
    Dots (.id "const") n s (⟨.name "is", b⟩ :: m) → G C q (.typ no true t) m r → G C q (.base F (.predTy false (.nm n) t)) (⟨.const_, a⟩ :: s) r
  | obj {F : Fl} {x : X} {s r : List Tok} : (hd s).k = .braceL → C.obj F.rough s = some (x, r) → G C q (.base F (.obj x)) s r
  | tuple {F : Fl} {a : Bool} {l : List (Nd X)} {s r : List Tok} : G C q (.mems F.rough l) s r → OptLast l → NamesAgree l →
    G C q (.base F (.tuple l)) (⟨.brackL, a⟩ :: s) r
  | this {F : Fl} {a : Bool} {r : List Tok} : (hd r).k ≠ .name "is" → G C q (.base F .this) (⟨.this_, a⟩ :: r) r
  | thisIs {F : Fl} {a b : Bool} {t : Nd X} {s r : List Tok} : (q = false → b = false) → G C q (.typ no true t) s r →
    G C q (.base F (.predTy false .this t)) (⟨.this_, a⟩ :: ⟨.name "is", b⟩ :: s) r
  /- parentheses -/
  | par {top a b : Bool} {t u : Nd X} {s r : List Tok} : modifier (hd s).k = false →
    G C q (.typ { rough := true } true t) s (⟨.parenR, b⟩ :: r) →
    AsTyp C t u → (hd r).k ≠ .arrow → isOp (hd r).k = false → G C q (.par top (.paren u)) (⟨.parenL, a⟩ :: s) r
  /-- as the first member of a type that is no operand this is right, else it is a departure: `A & (B) | C` is `A & (B | C)` -/
  | parUni {top a b : Bool} {t u w : Nd X} {ms : List (Bool × Nd X)} {s m r : List Tok} : modifier (hd s).k = false →
    (q = true ∨ top = true) → G C q (.typ { rough := true } true t) s (⟨.parenR, b⟩ :: m) → AsTyp C t u →
    ms ≠ [] → G C q (.ops no ms) m r → isOp (hd r).k = false →
    ((∀ x ∈ ms, isFn x.2 = false) → w = tree (pcd (hd r).k) u ms) →
    (q = false → lossy r = false ∧ (hd r).k ≠ .brackL ∧ ∀ x ∈ ms, isFn x.2 = false) → G C q (.par top w) (⟨.parenL, a⟩ :: s) r
  | fn {top a b : Bool} {tp : Option X} {l l' : List (Nd X)} {t : Nd X} {s s1 s2 r : List Tok} : (q = true ∨ top = true) →
    TPar C tp s (⟨.parenL, a⟩ :: s1) → G C q (.plist l) s1 (⟨.arrow, b⟩ :: s2) → AsFirst C l l' → G C q (.typ no true t) s2 r →
    G C q (.par top (.paren (.fn tp l' t))) s r
  /-- departures: type parameters before a type in parentheses, a `?` or a comma after it, nothing in them -/
  | parOdd {top a o : Bool} {tp : Option X} {t u : Nd X} {s s1 r : List Tok} : q = true →
    TPar C tp s (⟨.parenL, a⟩ :: s1) → G C q (.plist [.param t o]) s1 r → AsTyp C t u → (hd r).k ≠ .arrow → isOp (hd r).k = false →
    G C q (.par top (.paren u)) s r
  | parUniOdd {top a o : Bool} {tp : Option X} {t u w : Nd X} {ms : List (Bool × Nd X)} {s s1 m r : List Tok} : q = true →
    TPar C tp s (⟨.parenL, a⟩ :: s1) → G C q (.plist [.param t o]) s1 m → AsTyp C t u →
    ms ≠ [] → G C q (.ops no ms) m r → isOp (hd r).k = false →
    ((∀ x ∈ ms, isFn x.2 = false) → w = tree (pcd (hd r).k) u ms) → G C q (.par top w) s r
  | parNone {top a b : Bool} {tp : Option X} {s r : List Tok} : q = true → TPar C tp s (⟨.parenL, a⟩ :: ⟨.parenR, b⟩ :: r) →
    (hd r).k ≠ .arrow → G C q (.par top (.paren (.fnNo tp))) s r
  /- parameters -/
  | moreNil {a : Bool} {r : List Tok} : G C q (.more []) (⟨.parenR, a⟩ :: r) r
  | moreLast {x : X} {s m r : List Tok} : (hd s).k ≠ .parenR → (hd s).k ≠ .eof → C.param s = some (x, m) → (hd m).k = .parenR →
    G C q (.more []) m r → G C q (.more [.ext x]) s r
  | moreCons {a : Bool} {x : X} {l : List (Nd X)} {s m r : List Tok} : (hd s).k ≠ .parenR → (hd s).k ≠ .eof →
    C.param s = some (x, ⟨.comma, a⟩ :: m) → G C q (.more l) m r → G C q (.more (.ext x :: l)) s r
  | first {t : Nd X} {s r : List Tok} : modifier (hd s).k = false → G C q (.typ { rough := true } true t) s r →
    (hd r).k ≠ .hook → (hd r).k ≠ .colon → G C q (.first (.param t false)) s r
  | firstOpt {t : Nd X} {a : Bool} {s r : List Tok} : modifier (hd s).k = false → G C q (.typ { rough := true } true t) s (⟨.hook, a⟩ :: r) →
    t ≠ .this → (hd r).k ≠ .colon → G C q (.first (.param t true)) s r
  | firstTy {t u : Nd X} {a : Bool} {s m r : List Tok} : modifier (hd s).k = false →
    G C q (.typ { rough := true } true t) s (⟨.colon, a⟩ :: m) → G C q (.typ yes true u) m r → G C q (.first (.paramTy t false u)) s r
  | firstOptTy {t u : Nd X} {a b : Bool} {s m r : List Tok} : modifier (hd s).k = false →
    G C q (.typ { rough := true } true t) s (⟨.hook, a⟩ :: ⟨.colon, b⟩ :: m) → t ≠ .this → G C q (.typ yes true u) m r →
    G C q (.first (.paramTy t true u)) s r
  | plistNil {a : Bool} {r : List Tok} : G C q (.plist []) (⟨.parenR, a⟩ :: r) r
  | plistOne {p : Nd X} {a : Bool} {s r : List Tok} : G C q (.first p) s (⟨.parenR, a⟩ :: r) → G C q (.plist [p]) s r
  | plistCons {p : Nd X} {l : List (Nd X)} {a : Bool} {s m r : List Tok} : G C q (.first p) s (⟨.comma, a⟩ :: m) → G C q (.more l) m r →
    G C q (.plist (p :: l)) s r
  /- type arguments -/
  | arg {c : Bool} {t : Nd X} {s r : List Tok} : StartsArg (hd s).k → G C q (.typ { const_ := c } true t) s r →
    (hd r).k ≠ .extends_ → G C q (.arg c t) s r
  /-- departure: a constraint -/
  | argExt {c a : Bool} {t u : Nd X} {v : String} {s m r : List Tok} : q = true → StartsArg (hd s).k →
    G C q (.typ { const_ := c } true t) s (⟨.extends_, a⟩ :: m) → AsPat C t (.pid v) → G C q (.typ no true u) m r →
    G C q (.arg c (.tparam v u)) s r
  | argsLast {c a : Bool} {t : Nd X} {s r : List Tok} : G C q (.arg c t) s (⟨.gt, a⟩ :: r) → G C q (.args c [t]) s r
  | argsCons {c a : Bool} {t : Nd X} {l : List (Nd X)} {s m r : List Tok} : G C q (.arg c t) s (⟨.comma, a⟩ :: m) →
    G C q (.args c l) m r → G C q (.args c (t :: l)) s r
  /-- departure: a comma at the end -/
  | argsComma {c a b : Bool} {t : Nd X} {s r : List Tok} : q = true → G C q (.arg c t) s (⟨.comma, a⟩ :: ⟨.gt, b⟩ :: r) →
    G C q (.args c [t]) s r
  /- tuples -/
  | mem {rough : Bool} {t : Nd X} {s r : List Tok} : (hd s).k ≠ .dots → G C q (.typ { rough := rough } true t) s r →
    (hd r).k ≠ .colon → (hd r).k ≠ .hook → G C q (.mem rough t) s r
  | memNamed {rough a : Bool} {t u : Nd X} {v : String} {s m r : List Tok} : (hd s).k ≠ .dots →
    G C q (.typ { rough := rough } true t) s (⟨.colon, a⟩ :: m) → Word t v → G C q (.typ yes true u) m r →
    G C q (.mem rough (.named v false u)) s r
  | memNamedOpt {rough a b : Bool} {t u : Nd X} {v : String} {s m r : List Tok} : (hd s).k ≠ .dots →
    G C q (.typ { rough := rough } true t) s (⟨.hook, a⟩ :: ⟨.colon, b⟩ :: m) → Word t v → G C q (.typ yes true u) m r →
    G C q (.mem rough (.named v true u)) s r
  | memOpt {rough a : Bool} {t : Nd X} {s r : List Tok} : (hd s).k ≠ .dots →
    G C q (.typ { rough := rough } true t) s (⟨.hook, a⟩ :: r) → (hd r).k ≠ .colon ∨ (∀ v, ¬ Word t v) → inParen t = true →
    G C q (.mem rough (.opt t)) s r
  | memRest {rough a : Bool} {t : Nd X} {s r : List Tok} : G C q (.mem rough t) s r → rough = true ∨ restOk t = true →
    G C q (.mem rough (.rest t)) (⟨.dots, a⟩ :: s) r
  | memsNil {rough a : Bool} {r : List Tok} : G C q (.mems rough []) (⟨.brackR, a⟩ :: r) r
  | memsCons {rough a : Bool} {t : Nd X} {l : List (Nd X)} {s m r : List Tok} : (hd s).k ≠ .brackR →
    G C q (.mem rough t) s (⟨.comma, a⟩ :: m) → G C q (.mems rough l) m r → G C q (.mems rough (t :: l)) s r
  /-- the last one; departure: no comma between -/
  | memsNext {rough : Bool} {t : Nd X} {l : List (Nd X)} {s m r : List Tok} : (hd s).k ≠ .brackR →
    G C q (.mem rough t) s m → (hd m).k ≠ .comma → (q = false → (hd m).k = .brackR) → G C q (.mems rough l) m r →
    G C q (.mems rough (t :: l)) s r

end Mole.Parser.TsType
