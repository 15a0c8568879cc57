/-! # What the parser notes of `return` and `throw` (model and specification for C85)

ecma/parser/parser.go: the stacks `retsStk` and `tryStk` (49-53, 158-187), and the functions that use them: `tryStmt` 1772-1862,
`throwStmt` 1865-1893, `retStmt` 1896-1928, `fnDec` 2514-2845, `arrowFn` 5789-5858, `method` 6146-6365.  Of the symbol table only whether a
scope is that of a function, or inside of one, is here (symtab.go 513-598).

Simplifications: what is parsed is given as a tree of the things that matter here, in the order of the source; everything else may be
anywhere between them.  An error stops the parser.  The attempts of the TypeScript parser that are taken back are not here. -/

namespace Mole.Parser.Rets

mutual
/-- What matters here of a statement or an expression. -/
inductive Item where
  /-- return statement `n`; what is in its operand -/
  | ret (n : Nat) (a : Items)
  /-- throw statement `n`; what is in its operand -/
  | thr (n : Nat) (a : Items)
  /-- function `n`, be it a declaration, an expression, an arrow function or a method; `a` is what is parsed before its scope is entered: the
  parameters of an arrow function, or the key of a method -/
  | fn (n : Nat) (a b : Items)
  /-- try statement `n`: the block, the parameter of the handler, the handler, the finalizer -/
  | try_ (n : Nat) (b p c f : Items)
  /-- a block, or another part of a statement with a scope -/
  | block (b : Items)
  /-- the members of a class; a static block is a block -/
  | cls (ms : Items)
  /-- `async(…)` that turns out to be a call -/
  | async (a : Items)

inductive Items where
  | nil
  | cons (i : Item) (l : Items)
end

/-- The parts of `Parser` used here, and what has been noted in nodes. -/
structure St where
  /-- the scopes, the current one first: whether it is that of a function or in one -/
  scopes : List Bool := [false]
  /-- `retsStk`, the last first -/
  frames : List (List Nat) := []
  /-- `tryStk`, the last first -/
  tries : List Nat := []
  /-- of each function, what `Rets()` gives -/
  rets : List (Nat × List Nat) := []
  /-- of each throw statement, the try statement that `Target()` gives, or the program -/
  targets : List (Nat × Option Nat) := []
deriving DecidableEq, Repr

inductive Out where
  | ok (s : St)
  | err
  | panic
deriving DecidableEq, Repr

/-- Go on if all is well. -/
def Out.and (o : Out) (f : St → Out) : Out :=
  match o with
  | .ok s => f s
  | .err => .err
  | .panic => .panic

/-- symtab.go 513-590 (EnterScope). -/
def enter (fn : Bool) (s : St) : Out :=
  match s.scopes with
  | [] => .panic
  | c :: l => .ok { s with scopes := (fn || c) :: c :: l }

/-- symtab.go 592-598 (LeaveScope). -/
def leave (s : St) : Out :=
  match s.scopes with
  | [] => .panic
  | _ :: l => .ok { s with scopes := l }

/-- parser.go 173-175 (incRetsStk). -/
def incRets (s : St) : Out := .ok { s with frames := [] :: s.frames }

/-- parser.go 177-181 (decRetsStk), and the node of the function gets them (2807, 2823, 5855, 6314). -/
def decRets (n : Nat) (s : St) : Out :=
  match s.frames with
  | [] => .panic
  | f :: l => .ok { s with frames := l, rets := s.rets ++ [(n, f)] }

/-- parser.go 1923-1928 (retStmt), 183-187 (pushRetsStk). -/
def pushRets (n : Nat) (s : St) : Out :=
  if s.scopes.head? = some true then
    match s.frames with
    | [] => .panic
    | f :: l => .ok { s with frames := (f ++ [n]) :: l }
  else .err

/-- parser.go 158-160 (pushTryStk). -/
def pushTry (n : Nat) (s : St) : Out := .ok { s with tries := n :: s.tries }

/-- parser.go 162-164 (popTryStk). -/
def popTry (s : St) : Out :=
  match s.tries with
  | [] => .panic
  | _ :: l => .ok { s with tries := l }

/-- parser.go 1888-1892 (throwStmt), 166-171 (lastTry). -/
def noteThrow (n : Nat) (s : St) : Out := .ok { s with targets := s.targets ++ [(n, s.tries.head?)] }

mutual
def item : Item → St → Out
  /- parser.go 1896-1928 (retStmt) -/
  | .ret n a, s => (items a s).and (pushRets n)
  /- parser.go 1865-1893 (throwStmt) -/
  | .thr n a, s => (items a s).and (noteThrow n)
  /- parser.go 2514-2845 (fnDec), 5789-5858 (arrowFn), 6146-6365 (method) -/
  | .fn n a b, s => (((((items a s).and (enter true)).and incRets).and (items b)).and leave).and (decRets n)
  /- parser.go 1772-1862 (tryStmt) -/
  | .try_ n b p c f, s =>
    ((((((((((pushTry n s).and (enter false)).and (items b)).and leave).and popTry).and (items p)).and (enter false)).and (items c)).and
      leave).and (enter false)).and (items f) |>.and leave
  /- parser.go 3064-3095 (blockStmt) and others -/
  | .block b, s => ((enter false s).and (items b)).and leave
  /- parser.go 1059-1182 (classDec), where a class enters the scope of a function but nothing is put on `retsStk` -/
  | .cls ms, s => ((enter true s).and (items ms)).and leave
  /- parser.go 2584-2624, 2700-2751 (fnDec): the scope is not left and the list is not taken -/
  | .async a, s => ((enter true s).and incRets).and (items a)
def items : Items → St → Out
  | .nil, s => .ok s
  | .cons i l, s => (item i s).and (items l)
end

/-! ## Specification -/

mutual
/-- The return statements of the function that these are in: those that are not in a function inside of it, and not in a class.  (There is
none in an operand, a parameter or a key.) -/
def own1 : Item → List Nat
  | .ret n a => own a ++ [n]
  | .thr _ a | .fn _ a _ | .async a | .block a => own a
  | .cls _ => []
  | .try_ _ b p c f => own b ++ own p ++ own c ++ own f
def own : Items → List Nat
  | .nil => []
  | .cons i l => own1 i ++ own l
end

mutual
/-- Each function, and its return statements in the order of the source.  A function comes after those inside of it. -/
def fns1 : Item → List (Nat × List Nat)
  | .ret _ a | .thr _ a => fns a
  | .fn n a b => fns a ++ fns b ++ [(n, own b)]
  | .try_ _ b p c f => fns b ++ fns p ++ fns c ++ fns f
  | .block b | .cls b | .async b => fns b
def fns : Items → List (Nat × List Nat)
  | .nil => []
  | .cons i l => fns1 i ++ fns l
end

mutual
/-- Each throw statement, and the innermost try statement of the same function whose block it is in.  `t` is that of what is around. -/
def throws1 (t : Option Nat) : Item → List (Nat × Option Nat)
  | .ret _ a => throws t a
  | .thr n a => throws t a ++ [(n, t)]
  | .fn _ a b => throws t a ++ throws .none b
  | .try_ n b p c f => throws (.some n) b ++ throws t p ++ throws t c ++ throws t f
  | .block b | .cls b | .async b => throws t b
def throws (t : Option Nat) : Items → List (Nat × Option Nat)
  | .nil => []
  | .cons i l => throws1 t i ++ throws t l
end

mutual
/-- Each return statement is in a function: `fn` tells whether one is around.  A static block is not a function. -/
def legal1 (fn : Bool) : Item → Bool
  | .ret _ a => fn && legal fn a
  | .thr _ a | .async a => legal fn a
  | .fn _ a b => legal fn a && legal true b
  | .try_ _ b p c f => legal fn b && legal fn p && legal fn c && legal fn f
  | .block b => legal fn b
  | .cls b => legal false b
def legal (fn : Bool) : Items → Bool
  | .nil => true
  | .cons i l => legal1 fn i && legal fn l
end

/-! What the theorems leave out. -/

mutual
/-- No call of `async`, and no return statement that is in a class but not in a function in it; `k` tells whether this is so here. -/
def calm1 (k : Bool) : Item → Bool
  | .ret _ a => !k && calm k a
  | .thr _ a => calm k a
  | .fn _ a b => calm k a && calm false b
  | .try_ _ b p c f => calm k b && calm k p && calm k c && calm k f
  | .block b => calm k b
  | .cls b => calm true b
  | .async _ => false
def calm (k : Bool) : Items → Bool
  | .nil => true
  | .cons i l => calm1 k i && calm k l
end

mutual
/-- Each throw statement is in the block of a try statement of its own function (`own`), or in none at all (`outer`: a function around is in
one). -/
def near1 (own outer : Bool) : Item → Bool
  | .ret _ a => near own outer a
  | .thr _ a => near own outer a && (own || !outer)
  | .fn _ a b => near own outer a && near false (own || outer) b
  | .try_ _ b p c f => near true outer b && near own outer p && near own outer c && near own outer f
  | .block b | .cls b | .async b => near own outer b
def near (own outer : Bool) : Items → Bool
  | .nil => true
  | .cons i l => near1 own outer i && near own outer l
end

/-- What is parsed from the start. -/
def parse (p : Items) : Out := items p {}

end Mole.Parser.Rets
