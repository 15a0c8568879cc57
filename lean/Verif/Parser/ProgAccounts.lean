import Verif.Parser.ProgLits

/-! # C76: a program that is accepted is the program that was written

The rules how a tree is written are in ProgSpec.lean. -/

namespace Mole.Parser.Prog

/-- The full statement: the tokens of the source, all of them and in their order, are a way to write the tree that is returned. -/
def AccountsForSource (o : Chk) (fuel : Nat) (ts : List Tok) : Prop :=
  ∀ t s', prog o fuel ts = .ok t s' → ∃ l, t = .prog l ∧ Stmts (fun _ => False) l (ts.map Tok.k)

/-- **C76, partial.**  Whatever the checks object to, an accepted source is a way to write the tree that is returned; every token has its
place in the tree, in the order of the source.  Missing from the full statement: a rule that is not one of the language is used only if
its tokens occur in the source (`Occ`). -/
theorem program_accounts_partial (o : Chk) (fuel : Nat) (ts : List Tok) (hts : ∀ x ∈ ts, x.k ≠ .eof) (t : Node) (s' : S)
    (h : prog o fuel ts = .ok t s') : ∃ l, t = .prog l ∧ Stmts (Occ (ts.map Tok.k)) l (ts.map Tok.k) := by
  have hw : WP ((rec_ o fuel).stmts false >>= fun l => pure (Node.prog l))
      (fun (t : Node) _ => ∃ l, t = .prog l ∧ Stmts (Occ (ts.map Tok.k)) l (ts.map Tok.k)) (start ts) := by
    refine wp_bind ?_
    intro l s1 e
    obtain ⟨x, h1, h2, h3⟩ := prog_stmts (L := Occ (ts.map Tok.k)) o fuel (start ts) (fun _ hx => hx) l s1 e
    have hT : ts.map Tok.k = x ++ s1.T := h1
    have hn : s1.T = [] := by
      cases hs : s1.T with
      | nil => rfl
      | cons k l =>
        rw [h_T, hs] at h3
        have : k ∈ ts.map Tok.k := by rw [hT, hs]; simp
        obtain ⟨y, hy, rfl⟩ := List.mem_map.mp this
        exact absurd h3 (hts y hy)
    rw [hn, List.append_nil] at hT
    refine wp_pure ⟨l, rfl, ?_⟩
    rw [hT]
    rw [hT] at h2
    exact h2
  exact hw t s' h

theorem accounts_mono {L : Ex → Prop} (hL : ∀ x, ¬L x) {l : List Node} {ks : List K} (h : Stmts L l ks) : Stmts (fun _ => False) l ks := by
  have : L = fun _ => False := funext fun x => propext ⟨hL x, False.elim⟩
  rwa [this] at h

/-- **C76, partial.**  If none of the exceptional sequences of tokens occurs in the source, the full statement holds. -/
theorem program_strict_partial (o : Chk) (fuel : Nat) (ts : List Tok) (hts : ∀ x ∈ ts, x.k ≠ .eof)
    (hx : ∀ x, ¬Occ (ts.map Tok.k) x) : AccountsForSource o fuel ts := by
  intro t s' h
  obtain ⟨l, h1, h2⟩ := program_accounts_partial o fuel ts hts t s' h
  exact ⟨l, h1, accounts_mono hx h2⟩

/-- **C76.**  In an accepted source each bracket is closed by its own kind. -/
theorem program_brackets (o : Chk) (fuel : Nat) (ts : List Tok) (hts : ∀ x ∈ ts, x.k ≠ .eof) (t : Node) (s' : S)
    (h : prog o fuel ts = .ok t s') : balanced [] (ts.map Tok.k) = true := by
  obtain ⟨l, _, h2⟩ := program_accounts_partial o fuel ts hts t s' h
  simpa [balanced] using stmts_neutral h2 [] []

/-- **C76, partial.**  The literals and names of the source are those of the tree, in the order of the source.  Missing: sources with
`async *`, `async f(`, or a string "get" or "set". -/
theorem program_literals_partial (o : Chk) (fuel : Nat) (ts : List Tok) (hts : ∀ x ∈ ts, x.k ≠ .eof) (t : Node) (s' : S)
    (h : prog o fuel ts = .ok t s') (h1 : ¬Occ (ts.map Tok.k) .asyncStar) (h2 : ¬Occ (ts.map Tok.k) .asyncName)
    (h3 : ¬Occ (ts.map Tok.k) .accessor) : lits t = (ts.map Tok.k).filter isLit := by
  obtain ⟨l, rfl, h4⟩ := program_accounts_partial o fuel ts hts t s' h
  rw [lits]
  exact stmts_lits h3 h1 h2 h4

/-! ## A program -/

/-- No objections. -/
def yes : Chk := fun _ _ _ => true

/-- Tokens on one line. -/
def line (ks : List K) : List Tok := ks.map (⟨·, false⟩)

/-- The tree, if there is one. -/
def tree : Out Node → Option Node
  | .ok t _ => some t
  | _ => none

/-- ``const f = (a, {b = 1}) => { for (let i = 0; i < a; i++) { if (i % 2) continue; b += `x${i}`; } return [a, ...b]?.c; }`` -/
def sample : List K :=
  [.name "const", .name "f", .asg .assign, .pu .parenL, .name "a", .pu .comma, .pu .braceL, .name "b", .asg .assign, .num "1",
   .pu .braceR, .pu .parenR, .pu .arrow, .pu .braceL, .kw .for_, .pu .parenL, .name "let", .name "i", .asg .assign, .num "0", .pu .semi,
   .name "i", .bin .lt, .name "a", .pu .semi, .name "i", .pu .inc, .pu .parenR, .pu .braceL, .kw .if_, .pu .parenL, .name "i",
   .bin .mod, .num "2", .pu .parenR, .kw .continue_, .pu .semi, .name "b", .asg .add, .tplHead "x", .name "i", .tplTail "", .pu .semi,
   .pu .braceR, .kw .return_, .pu .brackL, .name "a", .pu .comma, .pu .dots, .name "b", .pu .brackR, .pu .optChain, .name "c",
   .pu .semi, .pu .braceR]

/-- Its tree. -/
def sampleTree : Node :=
  let n := fun s => Node.leaf (.name s)
  .prog [.varDec (.cw .const_) [.dec (n "f") (.arrow false [n "a", .obj [.init false (n "b") (.leaf (.num "1"))]] (.block
    [.forS (.varDec (.cw .let_) [.dec (n "i") (.leaf (.num "0"))]) (.bin .lt (n "i") (n "a")) (.update false (.pu .inc) (n "i")) (.block
      [.ifS (.bin .mod (n "i") (.leaf (.num "2"))) (.cont .nil) .nil,
       .exprStmt (.assign .add (n "b") (.tpl .nil [.leaf (.tplHead "x"), n "i", .leaf (.tplTail "")]))]),
     .ret (.chain (.member true (.arr [n "a", .spread (n "b")]) (n "c")))]))]]

theorem sample_tree : tree (prog yes 40 (line sample)) = some sampleTree := by rfl

/-- A part of a list is found by where it begins and how long it is. -/
theorem within_find {p : List K → Prop} {ks : List K} (h : Within p ks) :
    ∃ i, i < ks.length + 1 ∧ ∃ j, j < ks.length + 1 ∧ p ((ks.drop i).take j) := by
  obtain ⟨a, m, b, rfl, hm⟩ := h
  refine ⟨a.length, by simp; omega, m.length, by simp; omega, ?_⟩
  simpa using hm

theorem within_not {p : List K → Prop} {ks : List K} (q : List K → Bool) (hq : ∀ m, p m → q m = true)
    (h : (List.range (ks.length + 1)).all (fun i => (List.range (ks.length + 1)).all fun j => !q ((ks.drop i).take j)) = true) :
    ¬Within p ks := by
  intro hw
  obtain ⟨i, hi, j, hj, hm⟩ := within_find hw
  have h1 := List.all_eq_true.mp h i (List.mem_range.mpr hi)
  have h2 := List.all_eq_true.mp h1 j (List.mem_range.mpr hj)
  rw [hq _ hm] at h2
  cases h2

theorem within_mem {p : List K → Prop} {ks : List K} {k : K} (hk : k ∉ ks) (hp : ∀ m, p m → k ∈ m) : ¬Within p ks := by
  rintro ⟨a, m, b, rfl, hm⟩
  exact hk (by simp [hp m hm])

/-- None of the exceptional sequences occurs in it. -/
theorem sample_strict : ∀ x, ¬Occ ((line sample).map Tok.k) x := by
  have e : (line sample).map Tok.k = sample := rfl
  have ha : K.name "async" ∉ sample := by decide
  rw [e]
  intro x
  cases x with
  | asyncStar => exact within_mem ha (by rintro _ rfl; simp)
  | asyncName => exact within_mem ha (by rintro _ ⟨_, rfl⟩; simp)
  | asyncFn => exact within_mem ha (by rintro _ ⟨_, rfl⟩; simp)
  | parens =>
    refine within_not (fun m => m.length = 3 && m.head? = some (.pu .parenL) && m.getLast? = some (.pu .parenR)) ?_ (by decide +kernel)
    rintro _ ⟨_, rfl⟩
    rfl
  | optCall => exact within_not (fun m => m = [.pu .optChain, .pu .parenL]) (by rintro _ rfl; rfl) (by decide +kernel)
  | newTpl => exact within_not (fun m => m.take 2 = [.pu .parenL, .pu .parenR]) (by rintro _ ⟨_, rfl, _⟩; rfl) (by decide +kernel)
  | return_ => exact within_not (fun m => m = [.kw .return_, .pu .semi, .pu .semi]) (by rintro _ rfl; rfl) (by decide +kernel)
  | computedInit => exact within_not (fun m => m = [.pu .brackR, .asg .assign]) (by rintro _ rfl; rfl) (by decide +kernel)
  | accessor => exact within_not (fun m => m = [.str "get"] || m = [.str "set"]) (by rintro _ (rfl | rfl) <;> rfl) (by decide +kernel)
  | fnExpr => exact within_mem (k := .kw .func) (by decide) (by rintro _ ⟨_, _, _, rfl, _⟩; simp)
  | unnamed => exact within_mem (k := .kw .class_) (by decide) (by rintro _ ⟨_, _, _, rfl, _⟩; simp)
  | unnamedValue => exact within_mem (k := .kw .class_) (by decide) (by rintro _ ⟨_, _, _, _, rfl, _⟩; simp)
  | importSemi => exact within_mem (k := .kw .import_) (by decide) (by rintro _ ⟨_, rfl, _⟩; simp)
  | importFrom => exact within_mem (k := .kw .import_) (by decide) (by rintro _ ⟨_, _, rfl, _⟩; simp)
  | importComma =>
    refine within_not (fun m => (m.head? = some (.kw .import_) || m.head? = some (.pu .comma)) && m.tail.head? = some (.pu .braceL) &&
      m.reverse.head? = some (.pu .braceR) && (m.tail.tail.reverse.tail).all specTok) ?_ (by decide +kernel)
    rintro _ ⟨k, l, rfl, hk, hl, _⟩
    rcases hk with rfl | rfl <;> simp_all
  | importTwo =>
    refine within_mem (k := .kw .import_) (by decide) ?_
    rintro _ (⟨_, rfl, _⟩ | ⟨_, rfl⟩) <;> simp
  | exportAsync => exact within_mem ha (by rintro _ ⟨_, _, rfl, _⟩; simp)

theorem of_tree {r : Out Node} {t : Node} (h : tree r = some t) : ∃ s', r = .ok t s' := by
  cases r with
  | ok a s => cases h; exact ⟨_, rfl⟩
  | err => cases h
  | panic => cases h
  | noRets => cases h

/-- The hypotheses are met, and this is what the theorems say of it. -/
example : (∃ s', prog yes 40 (line sample) = .ok sampleTree s') ∧ (∀ x ∈ line sample, x.k ≠ .eof) ∧
    (∃ l, sampleTree = .prog l ∧ Stmts (fun _ => False) l sample) ∧ balanced [] sample = true ∧
    lits sampleTree = sample.filter isLit ∧ (lits sampleTree).length = 18 := by
  have hts : ∀ x ∈ line sample, x.k ≠ .eof := by decide
  obtain ⟨s', h⟩ := of_tree sample_tree
  exact ⟨⟨s', h⟩, hts, program_strict_partial yes 40 _ hts sample_strict _ _ h, program_brackets yes 40 _ hts _ _ h,
    program_literals_partial yes 40 _ hts _ _ h (sample_strict _) (sample_strict _) (sample_strict _), by decide⟩

/-- `import a, {b as c, d,} from "m"; export default class A extends b { #p get y() { return f(c, d); } static { f(); } static x = 1; }`
`export {c as if, d}; export const z = [import.meta.u];` -/
def sampleM : List K :=
  [.kw .import_, .name "a", .pu .comma, .pu .braceL, .name "b", .name "as", .name "c", .pu .comma, .name "d", .pu .comma, .pu .braceR,
   .name "from", .str "m", .pu .semi,
   .kw .export_, .kw .default, .kw .class_, .name "A", .kw .extends_, .name "b", .pu .braceL, .pvt "p", .name "get", .name "y", .pu .parenL,
   .pu .parenR, .pu .braceL, .kw .return_, .name "f", .pu .parenL, .name "c", .pu .comma, .name "d", .pu .parenR, .pu .semi, .pu .braceR,
   .cw .static, .pu .braceL, .name "f", .pu .parenL, .pu .parenR, .pu .semi, .pu .braceR,
   .cw .static, .name "x", .asg .assign, .num "1", .pu .semi, .pu .braceR,
   .kw .export_, .pu .braceL, .name "c", .name "as", .kw .if_, .pu .comma, .name "d", .pu .braceR, .pu .semi,
   .kw .export_, .name "const", .name "z", .asg .assign, .pu .brackL, .kw .import_, .pu .dot, .name "meta", .pu .dot, .name "u",
   .pu .brackR, .pu .semi]

/-- Its tree. -/
def sampleMTree : Node :=
  let n := fun s => Node.leaf (.name s)
  .prog [.importS [.impDef (n "a"), .spec (n "b") (n "c"), .spec (n "d") .nil] (.leaf (.str "m")),
    .exportDefault (.class_ (n "A") (n "b")
      [.elem false (.field false (.leaf (.pvt "p")) .nil),
       .elem false (.method 1 false false false (n "y") [] (.block [.ret (.call false (n "f") [n "c", n "d"])])),
       .staticBlock [.exprStmt (.call false (n "f") [])],
       .elem true (.field false (n "x") (.leaf (.num "1")))]),
    .exportNamed [.spec (n "c") (.leaf (.kw .if_)), .spec (n "d") .nil] .nil,
    .exportDec (.varDec (.cw .const_) [.dec (n "z") (.arr [.member false .importMeta (n "u")])])]

theorem sampleM_tree : tree (prog yes 40 (line sampleM)) = some sampleMTree := by rfl

/-- An opening parenthesis after a brace or a semicolon. -/
def odd : List K → Bool
  | k :: .pu .parenL :: l => k = .pu .braceL || k = .pu .braceR || k = .pu .semi || odd (.pu .parenL :: l)
  | _ :: l => odd l
  | [] => false

theorem odd_append (a : List K) {b : List K} (h : odd b = true) : odd (a ++ b) = true := by
  induction a with
  | nil => exact h
  | cons k a ih =>
    rw [List.cons_append]
    unfold odd
    split <;> simp_all

/-- None of the exceptional sequences occurs in it. -/
theorem sampleM_strict : ∀ x, ¬Occ ((line sampleM).map Tok.k) x := by
  have e : (line sampleM).map Tok.k = sampleM := rfl
  have ha : K.name "async" ∉ sampleM := by decide
  rw [e]
  intro x
  cases x with
  | asyncStar => exact within_mem ha (by rintro _ rfl; simp)
  | asyncName => exact within_mem ha (by rintro _ ⟨_, rfl⟩; simp)
  | asyncFn => exact within_mem ha (by rintro _ ⟨_, rfl⟩; simp)
  | parens =>
    refine within_not (fun m => m.length = 3 && m.head? = some (.pu .parenL) && m.getLast? = some (.pu .parenR)) ?_ (by decide +kernel)
    rintro _ ⟨_, rfl⟩
    rfl
  | optCall => exact within_mem (k := .pu .optChain) (by decide) (by rintro _ rfl; simp)
  | newTpl =>
    refine within_not (fun m => m.take 2 = [.pu .parenL, .pu .parenR] && m.getLast? ≠ some (.pu .braceL) && m.getLast? ≠ some (.pu .semi) &&
      m.length = 3) ?_ (by decide +kernel)
    rintro _ ⟨_, rfl, ⟨_, rfl⟩ | ⟨_, rfl⟩⟩ <;> rfl
  | return_ => exact within_not (fun m => m = [.kw .return_, .pu .semi, .pu .semi]) (by rintro _ rfl; rfl) (by decide +kernel)
  | computedInit => exact within_not (fun m => m = [.pu .brackR, .asg .assign]) (by rintro _ rfl; rfl) (by decide +kernel)
  | accessor => exact within_not (fun m => m = [.str "get"] || m = [.str "set"]) (by rintro _ (rfl | rfl) <;> rfl) (by decide +kernel)
  | fnExpr => exact within_mem (k := .kw .func) (by decide) (by rintro _ ⟨_, _, _, rfl, _⟩; simp)
  | unnamed =>
    refine within_not odd ?_ (by decide +kernel)
    rintro _ ⟨a, b, l, rfl, _, _, _, hb⟩
    rcases hb with rfl | ⟨c, rfl⟩ | ⟨c, rfl⟩
    · have := odd_append (.kw .class_ :: a) (b := .pu .braceL :: .pu .parenL :: (l ++ [.pu .parenR, .pu .braceL])) (by simp [odd])
      simpa using this
    · have := odd_append (.kw .class_ :: a ++ .pu .braceL :: c) (b := .pu .semi :: .pu .parenL :: (l ++ [.pu .parenR, .pu .braceL])) (by simp [odd])
      simpa using this
    · have := odd_append (.kw .class_ :: a ++ .pu .braceL :: c) (b := .pu .braceR :: .pu .parenL :: (l ++ [.pu .parenR, .pu .braceL])) (by simp [odd])
      simpa using this
  | unnamedValue =>
    refine within_not (fun m => m.head? = some (.kw .class_) && m.contains (.asg .assign) && m.reverse.take 2 = [.pu .braceL, .pu .parenR]) ?_
      (by decide +kernel)
    rintro _ ⟨a, b, z, l, rfl, _⟩
    simp
  | importSemi =>
    refine within_not (fun m => m.take 2 = [.kw .import_, .pu .parenL]) ?_ (by decide +kernel)
    rintro _ ⟨_, rfl, _⟩
    simp
  | importFrom =>
    refine within_not (fun m => m.head? = some (.kw .import_) && m.reverse.head?.any (· matches .str _) &&
      (m.reverse.tail.head? ≠ some (.name "from") || m.length = 3 || (m.reverse.drop 2).head? = some (.name "as"))) ?_ (by decide +kernel)
    rintro _ ⟨l, s, rfl, h0, _, h⟩
    rcases List.eq_nil_or_concat l with rfl | ⟨l, k, rfl⟩
    · exact absurd rfl h0
    · rcases h with h | ⟨t, h⟩ | h <;> simp_all [Option.any]
  | importComma =>
    refine within_not (fun m => (m.head? = some (.kw .import_) || m.head? = some (.pu .comma)) && m.tail.head? = some (.pu .braceL) &&
      m.reverse.head? = some (.pu .braceR) && !commas m.tail.tail.reverse.tail.reverse && m.tail.tail.reverse.tail.all specTok) ?_ (by decide +kernel)
    rintro _ ⟨k, l, rfl, hk, hl, hc⟩
    rcases hk with rfl | rfl <;> simp_all
  | importTwo =>
    refine within_not (fun m => m.take 2 = [.kw .import_, .pu .braceL] || m.take 2 = [.kw .import_, .bin .mul]) ?_ (by decide +kernel)
    rintro _ (⟨_, rfl, _⟩ | ⟨_, rfl⟩) <;> simp
  | exportAsync => exact within_mem ha (by rintro _ ⟨_, _, rfl, _⟩; simp)

/-- A module with a class. -/
example : (∃ s', prog yes 40 (line sampleM) = .ok sampleMTree s') ∧
    (∃ l, sampleMTree = .prog l ∧ Stmts (fun _ => False) l sampleM) ∧ lits sampleMTree = sampleM.filter isLit ∧ (lits sampleMTree).length = 19 := by
  have hts : ∀ x ∈ line sampleM, x.k ≠ .eof := by decide
  obtain ⟨s', h⟩ := of_tree sampleM_tree
  exact ⟨⟨s', h⟩, program_strict_partial yes 40 _ hts sampleM_strict _ _ h,
    program_literals_partial yes 40 _ hts _ _ h (sampleM_strict _) (sampleM_strict _) (sampleM_strict _), by decide⟩

/-! ## What the parser takes that is not written so -/

theorem not_written {l : List Node} {ks : List K} (h : litsL l ≠ ks.filter isLit) : ¬∃ l', Node.prog l = .prog l' ∧ Stmts (fun _ => False) l' ks := by
  rintro ⟨l', e, hs⟩
  cases e
  exact h (stmts_lits id id id hs)

theorem not_accounts {o : Chk} {fuel : Nat} {ts : List Tok} {l : List Node} (h : tree (prog o fuel ts) = some (.prog l))
    (hn : litsL l ≠ (ts.map Tok.k).filter isLit) : ¬AccountsForSource o fuel ts := by
  intro hA
  obtain ⟨s', h'⟩ := of_tree h
  exact not_written hn (hA _ _ h')

/-- **C76, violated.**  `async f(a);` is read as `async(a);`: the name `f` is in no tree. -/
theorem async_name_violated : ¬AccountsForSource yes 40
    (line [.name "async", .name "f", .pu .parenL, .name "a", .pu .parenR, .pu .semi]) :=
  not_accounts (l := [.exprStmt (.call false (.leaf (.name "async")) [.leaf (.name "a")])]) rfl (by decide)

/-- **C76, violated.**  `async * f(x);` is read as `async * x;`. -/
theorem async_product_violated : ¬AccountsForSource yes 40
    (line [.name "async", .bin .mul, .name "f", .pu .parenL, .name "x", .pu .parenR, .pu .semi]) :=
  not_accounts (l := [.exprStmt (.bin .mul (.leaf (.name "async")) (.leaf (.name "x")))]) rfl (by decide)

/-- **C76, violated.**  `x = {"get" y() {}}` is read as `x = {get y() {}}`. -/
theorem accessor_violated : ¬AccountsForSource yes 40
    (line [.name "x", .asg .assign, .pu .braceL, .str "get", .name "y", .pu .parenL, .pu .parenR, .pu .braceL, .pu .braceR,
      .pu .braceR]) :=
  not_accounts (l := [.exprStmt (.assign .assign (.leaf (.name "x"))
    (.obj [.method 1 false false false (.leaf (.name "y")) [] (.block [])]))]) rfl (by decide)

/-- The other exceptions also occur: `async (x) {}`. -/
theorem async_fn_violated :
    tree (prog yes 40 (line [.name "async", .pu .parenL, .name "x", .pu .parenR, .pu .braceL, .pu .braceR])) =
      some (.prog [.fn true false .nil [.leaf (.name "x")] (.block [])]) := by rfl

/-- `x = function() 1`. -/
theorem fn_expr_violated :
    tree (prog yes 40 (line [.name "x", .asg .assign, .kw .func, .pu .parenL, .pu .parenR, .num "1"])) =
      some (.prog [.exprStmt (.assign .assign (.leaf (.name "x")) (.fn false false .nil [] (.leaf (.num "1"))))]) := by rfl

/-- ``new C()`t` `` has the tree of ``new C`t` ``. -/
theorem new_template_violated :
    tree (prog yes 40 (line [.kw .new_, .name "C", .pu .parenL, .pu .parenR, .tplPlain "t"])) =
      tree (prog yes 40 (line [.kw .new_, .name "C", .tplPlain "t"])) ∧
    (tree (prog yes 40 (line [.kw .new_, .name "C", .tplPlain "t"]))).isSome = true := ⟨rfl, rfl⟩

/-- `let {[a] = 1} = b` has the tree of `let {a = 1} = b`. -/
theorem computed_init_violated :
    tree (prog yes 40 (line [.name "let", .pu .braceL, .pu .brackL, .name "a", .pu .brackR, .asg .assign, .num "1", .pu .braceR,
      .asg .assign, .name "b"])) =
      tree (prog yes 40 (line [.name "let", .pu .braceL, .name "a", .asg .assign, .num "1", .pu .braceR, .asg .assign, .name "b"])) ∧
    (tree (prog yes 40 (line [.name "let", .pu .braceL, .name "a", .asg .assign, .num "1", .pu .braceR, .asg .assign,
      .name "b"]))).isSome = true := ⟨rfl, rfl⟩

/-- `class A { () {} }` is accepted: a method without a name. -/
theorem unnamed_method_violated :
    tree (prog yes 40 (line [.kw .class_, .name "A", .pu .braceL, .pu .parenL, .pu .parenR, .pu .braceL, .pu .braceR, .pu .braceR])) =
      some (.prog [.class_ (.leaf (.name "A")) .nil [.elem false (.method 0 false false false .nil [] (.block []))]]) := by rfl

/-- `x = [import("a");]` is accepted: the semicolon is taken. -/
theorem import_semicolon_violated :
    tree (prog yes 40 (line [.name "x", .asg .assign, .pu .brackL, .kw .import_, .pu .parenL, .str "a", .pu .parenR, .pu .semi, .pu .brackR])) =
      some (.prog [.exprStmt (.assign .assign (.leaf (.name "x")) (.arr [.importCall (.leaf (.str "a"))]))]) := by rfl

/-- `import("a"); b` on one line is rejected: the semicolon was taken for a part of the expression. -/
theorem import_statement_violated :
    tree (prog yes 40 (line [.kw .import_, .pu .parenL, .str "a", .pu .parenR, .pu .semi, .name "b"])) = none := by rfl

/-- `!import("a") + b` is read as `!(import("a") + b)`. -/
theorem import_operator_violated :
    tree (prog yes 40 (line [.un .not, .kw .import_, .pu .parenL, .str "a", .pu .parenR, .bin .add, .name "b"])) =
      some (.prog [.exprStmt (.unary (.un .not) (.bin .add (.importCall (.leaf (.str "a"))) (.leaf (.name "b"))))]) := by rfl

/-- `import a "x"` has the tree of `import a from "x"`. -/
theorem import_from_violated :
    tree (prog yes 40 (line [.kw .import_, .name "a", .str "x"])) = tree (prog yes 40 (line [.kw .import_, .name "a", .name "from", .str "x"])) ∧
    (tree (prog yes 40 (line [.kw .import_, .name "a", .str "x"]))).isSome = true := ⟨rfl, rfl⟩

/-- `import {a b} from "x"` has the tree of `import {a, b} from "x"`. -/
theorem import_comma_violated :
    tree (prog yes 40 (line [.kw .import_, .pu .braceL, .name "a", .name "b", .pu .braceR, .name "from", .str "x"])) =
      tree (prog yes 40 (line [.kw .import_, .pu .braceL, .name "a", .pu .comma, .name "b", .pu .braceR, .name "from", .str "x"])) ∧
    (tree (prog yes 40 (line [.kw .import_, .pu .braceL, .name "a", .name "b", .pu .braceR, .name "from", .str "x"]))).isSome = true :=
  ⟨rfl, rfl⟩

/-- `import {a}, {b} from "x"` is accepted. -/
theorem import_two_violated :
    tree (prog yes 40 (line [.kw .import_, .pu .braceL, .name "a", .pu .braceR, .pu .comma, .pu .braceL, .name "b", .pu .braceR, .name "from",
      .str "x"])) = some (.prog [.importS [.spec (.leaf (.name "a")) .nil, .spec (.leaf (.name "b")) .nil] (.leaf (.str "x"))]) := by rfl

/-- `export async x => x` is accepted: what is exported is not a declaration. -/
theorem export_async_violated :
    tree (prog yes 40 (line [.kw .export_, .name "async", .name "x", .pu .arrow, .name "x"])) =
      some (.prog [.exportDec (.exprStmt (.arrow true [.leaf (.name "x")] (.leaf (.name "x"))))]) := by rfl

end Mole.Parser.Prog
