import Verif.Parser.RngNest

/-! # C81: where nodes are in the source

The full statement: for every accepted program, every node of the tree begins where the first token of its text begins and ends where the
last one ends; the parts of a node lie inside it, in the order of the source and apart from each other; the program is the whole source.

What is missing: four constructs do not obey (`tagged_range_violated`, `dot_name_range_violated`, `async_star_range_violated`,
`computed_default_range_violated`), and what is listed as not modelled in Rng.lean. -/

namespace Mole.Parser.Rng

open Prog (K Kw Cw Pu BinOp AsgOp)

/-- Tokens, in a source of so many bytes; none of them is the end. -/
structure Source (t : List T) (len : Nat) : Prop extends Src t where
  real : ∀ i, i < t.length → (tokAt t i).k ≠ .eof
  fits : ∀ i, i < t.length → (tokAt t i).hi ≤ len

/-- Every node is located: it ends where its last token ends, begins where its first token begins (or where the node it continues begins),
and its parts are located one after the other among its tokens.  `Loc` in RngSpec.lean says what the first and the last token of each kind
of node are, and where the few nodes begin that do not begin with their first token.  The statements take all tokens. -/
theorem node_places_partial {fuel len : Nat} {t : List T} {o : Nat → Bool} {n : Nd} (hs : Source t len) (h : prog fuel t o len = some n) :
    ∃ l a, n = .node .prog 0 len l ∧ Locs t l 0 a t.length ∧ (l = [] → t = []) := by
  obtain ⟨l, a, j, h1, h2, h3, h4, h5⟩ := prog_located h
  have hj : j = t.length := by
    apply Decidable.byContradiction
    intro hn
    exact hs.real j (by omega) h4
  subst hj
  exact ⟨l, a, h1, h2, fun h => List.eq_nil_of_length_eq_zero (h5 h)⟩

/-- If there is no template with a tag and no `async * (a, b)` in the tree, then the parts of every node lie inside it, in order and apart
from each other, and so do the statements in the program, which is the whole source. -/
theorem nodes_nested_partial {fuel len : Nat} {t : List T} {o : Nat → Bool} {n : Nd} (hs : Source t len) (h : prog fuel t o len = some n)
    (hp : plain n = true) : n.lo = 0 ∧ n.hi = len ∧ Nested n := by
  obtain ⟨l, a, h1, h2, _⟩ := node_places_partial hs h
  subst h1
  simp only [plain, Bool.and_eq_true] at hp
  have hg := h2.goods hs.toSrc hp.2
  exact ⟨rfl, rfl, hg.1 _ _ (fun _ _ _ => Nat.zero_le _) (fun x _ hx => hs.fits x hx) (Nat.zero_le _), hg.2.1⟩

/-- Every node begins exactly where its first token does and ends where its last token does: all but the text of a template, the name
after a dot, which may begin where the dot ends, and the program. -/
theorem node_range_partial {fuel len : Nat} {t : List T} {o : Nat → Bool} {n s : Nd} (hs : Source t len)
    (h : prog fuel t o len = some n) (hp : plain n = true) (hn : Sub s n) (hk : s.kd ≠ .text) (hd : s.kd ≠ .dotName) (hg : s.kd ≠ .prog) :
    ∃ i j, i < j ∧ j ≤ t.length ∧ s.lo = (tokAt t i).lo ∧ s.hi = (tokAt t (j - 1)).hi := by
  obtain ⟨l, a, h1, h2, _⟩ := node_places_partial hs h
  subst h1
  simp only [plain, Bool.and_eq_true] at hp
  cases hn with
  | self => exact absurd rfl hg
  | part hm hn =>
    obtain ⟨i, j, _, _, h3⟩ := h2.mem _ hm
    rcases hn.loc h3 with h | ⟨i', j', _, _, h4⟩
    · rcases h with h | h
      · exact absurd h hk
      · exact absurd h hd
    · have := h4.good hs.toSrc (hn.plain (plains_mem hp.2 hm))
      exact ⟨i', j', this.1, this.2.1, this.2.2.1, this.2.2.2.1⟩

/-! ## Examples and departures -/

mutual
/-- The nodes of the tree with their ranges, a node before its parts. -/
def flat : Nd → List (Kd × Nat × Nat)
  | .node k lo hi kids => (k, lo, hi) :: flats kids

def flats : List Nd → List (Kd × Nat × Nat)
  | [] => []
  | n :: l => flat n ++ flats l
end

def yes : Nat → Bool := fun _ => true

/-- No questions about `yield` and generators. -/
def no (l : List Nat) : Nat → Bool := fun n => !l.contains n

def tk (k : K) (lo hi : Nat) : T := { k := k, lo := lo, hi := hi }

/-- `if (a) b = [c, d];` -/
def exIf : List T :=
  [tk (.kw .if_) 0 2, tk (.pu .parenL) 3 4, tk (.name "a") 4 5, tk (.pu .parenR) 5 6, tk (.name "b") 7 8, tk (.asg .assign) 9 10,
   tk (.pu .brackL) 11 12, tk (.name "c") 12 13, tk (.pu .comma) 13 14, tk (.name "d") 15 16, tk (.pu .brackR) 16 17, tk (.pu .semi) 17 18]

def srcB (t : List T) (len : Nat) : Bool :=
  (List.range t.length).all fun i =>
    (tokAt t i).lo < (tokAt t i).hi && (tokAt t i).lo ≤ (tokAt t i).slo && (tokAt t i).slo ≤ (tokAt t i).shi && (tokAt t i).shi ≤ (tokAt t i).hi &&
    (i + 1 ≥ t.length || (tokAt t i).hi ≤ (tokAt t (i + 1)).lo) && (tokAt t i).k ≠ .eof && (tokAt t i).hi ≤ len

theorem source_of {t : List T} {len : Nat} (h : srcB t len = true) : Source t len := by
  simp only [srcB, List.all_eq_true, List.mem_range, Bool.and_eq_true, Bool.or_eq_true, decide_eq_true_eq] at h
  refine ⟨⟨fun i hi => (h i hi).1.1.1.1.1.1, fun i hi => ?_, fun i hi => ?_⟩, fun i hi => (h i hi).1.2, fun i hi => (h i hi).2⟩
  · have := h i hi
    exact ⟨this.1.1.1.1.1.2, this.1.1.1.1.2, this.1.1.1.2⟩
  · have := (h i (by omega)).1.1.2
    omega

example : Source exIf 18 := source_of (by decide +kernel)

example : (prog 12 exIf yes 18).map flat = some
    [(.prog, 0, 18), (.ifS, 0, 18), (.name, 4, 5), (.exprStmt, 7, 18), (.assign, 7, 17), (.name, 7, 8), (.arr, 11, 17), (.name, 12, 13),
     (.name, 15, 16)] := by decide +kernel

example : (prog 12 exIf yes 18).map plain = some true := by decide +kernel

/-- ``let f = async (x) => { for (const y of x) g(`a${y}b`, ...y); return -x.z++; }`` -/
def exFn : List T :=
  [tk (.cw .let_) 0 3, tk (.name "f") 4 5, tk (.asg .assign) 6 7, tk (.name "async") 8 13, tk (.pu .parenL) 14 15, tk (.name "x") 15 16,
   tk (.pu .parenR) 16 17, tk (.pu .arrow) 18 20, tk (.pu .braceL) 21 22, tk (.kw .for_) 23 26, tk (.pu .parenL) 27 28,
   tk (.cw .const_) 28 33, tk (.name "y") 34 35, tk (.name "of") 36 38, tk (.name "x") 39 40, tk (.pu .parenR) 40 41, tk (.name "g") 42 43,
   tk (.pu .parenL) 43 44, ⟨.tplHead "a", false, 44, 48, 45, 46⟩, tk (.name "y") 48 49, ⟨.tplTail "b", false, 49, 52, 50, 51⟩,
   tk (.pu .comma) 52 53, tk (.pu .dots) 54 57, tk (.name "y") 57 58, tk (.pu .parenR) 58 59, tk (.pu .semi) 59 60, tk (.kw .return_) 61 67,
   tk (.bin .sub) 68 69, tk (.name "x") 69 70, tk (.pu .dot) 70 71, tk (.name "z") 71 72, tk (.pu .inc) 72 74, tk (.pu .semi) 74 75,
   tk (.pu .braceR) 76 77]

example : Source exFn 77 := source_of (by decide +kernel)

example : (prog 24 exFn yes 77).map plain = some true := by decide +kernel

example : (prog 24 exFn yes 77).map flat = some
    [(.prog, 0, 77), (.varDec, 0, 77), (.dec, 4, 77), (.name, 4, 5), (.arrow, 8, 77), (.name, 15, 16), (.block, 21, 77), (.forIn, 23, 60),
     (.varDec, 28, 35), (.dec, 34, 35), (.name, 34, 35), (.name, 39, 40), (.exprStmt, 42, 60), (.call, 42, 59), (.name, 42, 43),
     (.tpl, 44, 52), (.text, 45, 46), (.name, 48, 49), (.text, 50, 51), (.spread, 54, 58), (.name, 57, 58), (.ret, 61, 75), (.unary, 68, 74),
     (.update, 69, 74), (.member, 69, 72), (.name, 69, 70), (.dotName, 71, 72)] := by decide +kernel

/-- ``a`x` + b`` -/
def exTag : List T := [tk (.name "a") 0 1, ⟨.tplPlain "x", false, 1, 4, 2, 3⟩, tk (.bin .add) 5 6, tk (.name "b") 7 8]

/-- A template with a tag does not begin where its tag does, and an expression that begins with such a template does not either. -/
theorem tagged_range_violated : Source exTag 8 ∧ (prog 14 exTag yes 8).map flat = some
    [(.prog, 0, 8), (.exprStmt, 0, 8), (.bin, 1, 8), (.tagged, 1, 4), (.name, 0, 1), (.text, 2, 3), (.name, 7, 8)] :=
  ⟨source_of (by decide +kernel), by decide +kernel⟩

/-- `a. b` -/
def exDot : List T := [tk (.name "a") 0 1, tk (.pu .dot) 1 2, tk (.name "b") 3 4]

/-- The name after a dot begins where the dot ends, before the white space. -/
theorem dot_name_range_violated : Source exDot 4 ∧ (prog 14 exDot yes 4).map flat = some
    [(.prog, 0, 4), (.exprStmt, 0, 4), (.member, 0, 4), (.name, 0, 1), (.dotName, 2, 4)] :=
  ⟨source_of (by decide +kernel), by decide +kernel⟩

/-- `async * (a, b)` -/
def exStar : List T :=
  [tk (.name "async") 0 5, tk (.bin .mul) 6 7, tk (.pu .parenL) 8 9, tk (.name "a") 9 10, tk (.pu .comma) 10 11, tk (.name "b") 12 13,
   tk (.pu .parenR) 13 14]

/-- The right operand begins where the left one does. -/
theorem async_star_range_violated : Source exStar 14 ∧ (prog 14 exStar yes 14).map flat = some
    [(.prog, 0, 14), (.exprStmt, 0, 14), (.starBin, 0, 14), (.name, 0, 5), (.starSeq, 0, 14), (.name, 9, 10), (.name, 12, 13)] :=
  ⟨source_of (by decide +kernel), by decide +kernel⟩

/-- `var {[a] = 1} = x` -/
def exKey : List T :=
  [tk (.kw .var) 0 3, tk (.pu .braceL) 4 5, tk (.pu .brackL) 5 6, tk (.name "a") 6 7, tk (.pu .brackR) 7 8, tk (.asg .assign) 9 10,
   tk (.num "1") 11 12, tk (.pu .braceR) 12 13, tk (.asg .assign) 14 15, tk (.name "x") 16 17]

/-- The property, which there is none of in the language, begins after the bracket. -/
theorem computed_default_range_violated : Source exKey 17 ∧ (prog 14 exKey yes 17).map flat = some
    [(.prog, 0, 17), (.varDec, 0, 17), (.dec, 4, 17), (.objPat, 4, 13), (.prop, 6, 12), (.assignPat, 6, 12), (.name, 6, 7), (.lit, 11, 12),
     (.name, 16, 17)] :=
  ⟨source_of (by decide +kernel), by decide +kernel⟩

end Mole.Parser.Rng
