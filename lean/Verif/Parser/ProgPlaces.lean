import Verif.Parser.ProgPlaceL
import Verif.Parser.ProgAccounts

/-! # C77: jumps, `yield` and `await` of an accepted program are where they may be, and no program stops the parser

Where they may be is in ProgPlaceSpec.lean. -/

namespace Mole.Parser.Prog

/-- The full statement: an accepted program is one whose jumps, `yield` and `await` are where the language allows them, and there is no
panic. -/
def InPlace (o : Chk) (fuel : Nat) (ts : List Tok) : Prop :=
  prog o fuel ts ≠ .panic ∧ prog o fuel ts ≠ .noRets ∧ ∀ l s', prog o fuel ts = .ok (.prog l) s' → legalL true { top := true } l = true

/-- **C77, partial.**  Whatever the checks object to, the parser does not panic, but for a `return` somewhere after the start of a static
block.  Missing: sources with `async(…)` that is a call. -/
theorem program_no_panic_partial (o : Chk) (fuel : Nat) (ts : List Tok) (h1 : ¬AsyncCall ts) (h2 : ¬AsyncStarArrow ts) :
    prog o fuel ts ≠ .panic ∧ (prog o fuel ts = .noRets → ReturnAfterStatic ts) := by
  have := prog_pl o fuel ts ⟨h1, h2⟩
  constructor
  · intro h
    rw [h] at this
    exact this
  · intro h
    rw [h] at this
    exact this

/-- **C77, partial.**  In an accepted program each `return` is in a function, each `break` and `continue` without a label in a loop or a
switch, each `yield` in a generator, each `await` in an async function and each `export` in the outermost scope, as far as `placed` says.
Missing from the full statement: what is nested in the block of a try statement is said to be in a switch, the keys of some methods to be
inside of them, and a static block to be a function; sources with `async(…)` that is a call, or `async *` before an arrow function. -/
theorem program_places_partial (o : Chk) (fuel : Nat) (ts : List Tok) (h1 : ¬AsyncCall ts) (h2 : ¬AsyncStarArrow ts) (t : Node) (s' : S)
    (h : prog o fuel ts = .ok t s') : ∃ l, t = .prog l ∧ placedL { top := true } l = true := by
  have := prog_pl o fuel ts ⟨h1, h2⟩
  rw [h] at this
  exact this.2

/-- **C77, partial.**  By the rules of the language, if no getter, setter, async method or generator has a key in brackets and no static
block has a return statement.  Nothing is said about `break` if there is a try statement. -/
theorem program_jumps_partial (o : Chk) (fuel : Nat) (ts : List Tok) (h1 : ¬AsyncCall ts) (h2 : ¬AsyncStarArrow ts) (l : List Node) (s' : S)
    (h : prog o fuel ts = .ok (.prog l) s') (hk : ∀ n ∈ nodesL l, ¬SpecialKey n ∧ ¬StaticReturn n) : legalL false { top := true } l = true := by
  obtain ⟨l', e, hl⟩ := program_places_partial o fuel ts h1 h2 _ s' h
  cases e
  exact placed_legal false ⟨rfl, rfl, fun _ => rfl, rfl, nofun, nofun, fun _ => rfl⟩ (fun n hn => ⟨hk n hn, nofun, nofun⟩) hl

/-- **C77, partial.**  If there is no try statement either, the full statement holds. -/
theorem program_in_place_partial (o : Chk) (fuel : Nat) (ts : List Tok) (h1 : ¬AsyncCall ts) (h2 : ¬AsyncStarArrow ts)
    (h3 : ¬ReturnAfterStatic ts) (hk : ∀ l s', prog o fuel ts = .ok (.prog l) s' → ∀ n ∈ nodesL l, (¬SpecialKey n ∧ ¬StaticReturn n) ∧ ¬IsTry n) :
    InPlace o fuel ts := by
  have hp := program_no_panic_partial o fuel ts h1 h2
  refine ⟨hp.1, fun h => h3 (hp.2 h), fun l s' h => ?_⟩
  obtain ⟨l', e, hl⟩ := program_places_partial o fuel ts h1 h2 _ s' h
  cases e
  exact placed_legal true ⟨rfl, rfl, fun _ => rfl, rfl, fun _ => rfl, fun _ => rfl, fun _ => rfl⟩
    (fun n hn => ⟨(hk l s' h n hn).1, fun _ => (hk l s' h n hn).2, nofun⟩) hl

/-! ## Programs -/

theorem no_async {ts : List Tok} (h : .name "async" ∉ ts.map Tok.k) : ¬AsyncCall ts ∧ ¬AsyncStarArrow ts := by
  constructor
  · rintro ⟨a, t, w, q, l, q', b, rfl, ht, _⟩
    exact h (by simp [ht])
  · rintro ⟨a, t, m, w, q, b, rfl, ht, _⟩
    exact h (by simp [ht])

theorem no_static {ts : List Tok} (h : ∀ i < ts.length, ¬(hd (ts.drop i) = .cw .static ∧ hd (ts.drop (i + 1)) = .pu .braceL ∧
    ∃ t ∈ ts.drop (i + 1), t.k = .kw .return_)) :
    ¬ReturnAfterStatic ts := by
  rintro ⟨a, st, br, b, r, c, rfl, h1, h2, h3⟩
  refine h a.length (by simp) ⟨?_, ?_, r, ?_, h3⟩
  · simp [hd, h1]
  · rw [← List.drop_drop]
    simp [hd, h2]
  · rw [← List.drop_drop]
    simp

/-- Whether a node is no return statement. -/
def notRet : Node → Bool
  | .ret _ => false
  | _ => true

/-- Whether a node is not exceptional. -/
def ordinary : Node → Bool
  | .method i a g _ (.leaf _) _ _ => true
  | .method i a g _ _ _ _ => i = 0 && !a && !g
  | .tryS .. => false
  | .staticBlock l => (nodesL l).all notRet
  | _ => true

theorem ordinary_ok {n : Node} (h : ordinary n = true) : (¬SpecialKey n ∧ ¬StaticReturn n) ∧ ¬IsTry n := by
  cases n with
  | method i a g c k ps b =>
    refine ⟨⟨?_, id⟩, id⟩
    rintro ⟨h1, h2⟩
    cases k with
    | leaf t => exact h2 t rfl
    | _ => simp [ordinary] at h; simp [h] at h1
  | tryS => cases h
  | staticBlock l =>
    refine ⟨⟨id, ?_⟩, id⟩
    rintro ⟨n, hn, hr⟩
    have := List.all_eq_true.mp h n hn
    cases n <;> first | exact hr | cases this
  | _ => exact ⟨⟨id, id⟩, id⟩

theorem in_place {o : Chk} {fuel : Nat} {ts : List Tok} {l : List Node} (h1 : ¬AsyncCall ts) (h2 : ¬AsyncStarArrow ts)
    (h3 : ¬ReturnAfterStatic ts) (ht : tree (prog o fuel ts) = some (.prog l)) (ho : (nodesL l).all ordinary = true) : InPlace o fuel ts := by
  obtain ⟨s', h⟩ := of_tree ht
  refine program_in_place_partial o fuel ts h1 h2 h3 ?_
  intro l' s'' h' n hn
  rw [h] at h'
  cases h'
  exact ordinary_ok (List.all_eq_true.mp ho n hn)

/-- The program of C76, with `continue` in a loop in a function, and `return`. -/
example : (∃ s', prog yes 40 (line sample) = .ok sampleTree s') ∧ ¬AsyncCall (line sample) ∧ ¬AsyncStarArrow (line sample) ∧ ¬ReturnAfterStatic (line sample) ∧
    InPlace yes 40 (line sample) :=
  have ha := no_async (ts := line sample) (by decide)
  have hs := no_static (ts := line sample) (by decide +kernel)
  ⟨of_tree sample_tree, ha.1, ha.2, hs, in_place ha.1 ha.2 hs sample_tree (by decide +kernel)⟩

/-- A module with a class, of C76. -/
example : (∃ s', prog yes 40 (line sampleM) = .ok sampleMTree s') ∧ ¬AsyncCall (line sampleM) ∧ ¬AsyncStarArrow (line sampleM) ∧ ¬ReturnAfterStatic (line sampleM) ∧
    InPlace yes 40 (line sampleM) :=
  have ha := no_async (ts := line sampleM) (by decide)
  have hs := no_static (ts := line sampleM) (by decide +kernel)
  ⟨of_tree sampleM_tree, ha.1, ha.2, hs, in_place ha.1 ha.2 hs sampleM_tree (by decide +kernel)⟩

/-- Where a call of `async` could be. -/
def asyncCallAt (ts : List Tok) (i j k : Nat) : Bool :=
  hd (ts.drop i) = .name "async" && hd (ts.drop (i + (1 + j))) = .pu .parenL &&
    hd (ts.drop (i + (1 + j + (1 + k)))) = .pu .parenR && hd (ts.drop (i + (1 + j + (1 + k + 1)))) ≠ .pu .braceL

theorem no_asyncCall {ts : List Tok} (h : ((List.range ts.length).all fun i => (List.range 3).all fun j => (List.range ts.length).all fun k =>
    !asyncCallAt ts i j k) = true) : ¬AsyncCall ts := by
  rintro ⟨a, t, w, q, l, q', b, rfl, ht, hw, hq, hq', _, hb, _⟩
  have := List.all_eq_true.mp h a.length (by simp)
  have := List.all_eq_true.mp this w.length (by simp; omega)
  have := List.all_eq_true.mp this l.length (by simp; omega)
  simp [asyncCallAt, ← List.drop_drop, Nat.add_comm 1, hd, ht, hq, hq'] at this
  exact hb this

/-- `async function g(a) { for await (const x of a) { switch (x) { case 1: break; default: await x; } } }` and
`function* h() { yield function() { return 1; }; }`. -/
def jumps : List K :=
  [.name "async", .kw .func, .name "g", .pu .parenL, .name "a", .pu .parenR, .pu .braceL, .kw .for_, .cw .await, .pu .parenL, .cw .const_,
   .name "x", .name "of", .name "a", .pu .parenR, .pu .braceL, .kw .switch, .pu .parenL, .name "x", .pu .parenR, .pu .braceL, .kw .case_,
   .num "1", .pu .colon, .kw .break_, .pu .semi, .kw .default, .pu .colon, .cw .await, .name "x", .pu .semi, .pu .braceR, .pu .braceR,
   .pu .braceR, .kw .func, .bin .mul, .name "h", .pu .parenL, .pu .parenR, .pu .braceL, .cw .yield, .kw .func, .pu .parenL, .pu .parenR,
   .pu .braceL, .kw .return_, .num "1", .pu .semi, .pu .braceR, .pu .semi, .pu .braceR]

def jumpsTree : List Node :=
  let n := fun s => Node.leaf (.name s)
  [.fn true false (n "g") [n "a"] (.block [.forIn true false (.varDec (.cw .const_) [.dec (n "x") .nil]) (n "a") (.block
    [.switchS (n "x") [.case (.leaf (.num "1")) [.brk .nil], .case .nil [.exprStmt (.unary (.cw .await) (n "x"))]]])]),
   .fn false true (n "h") [] (.block [.exprStmt (.yield_ false (.fn false false .nil [] (.block [.ret (.leaf (.num "1"))])))])]

theorem jumps_tree : tree (prog yes 40 (line jumps)) = some (.prog jumpsTree) := by rfl

example : (∃ s', prog yes 40 (line jumps) = .ok (.prog jumpsTree) s') ∧ InPlace yes 40 (line jumps) :=
  ⟨of_tree jumps_tree, in_place (no_asyncCall (by decide +kernel))
    (by
      rintro ⟨a, t, m, w, q, b, e, ht, hm, _⟩
      have h := within_not (p := fun m => m = [.name "async", .bin .mul]) (ks := jumps) (fun m => m = [.name "async", .bin .mul])
        (by rintro _ rfl; rfl) (by decide +kernel)
      refine h ⟨a.map Tok.k, [t.k, m.k], (w ++ q :: b).map Tok.k, ?_, by rw [ht, hm]⟩
      have : (line jumps).map Tok.k = jumps := rfl
      rw [← this, e]
      simp)
    (no_static (by decide +kernel)) jumps_tree (by decide +kernel)⟩

/-- A jump in a wrong place is an error: `function f() { while (1) (function() { break; }); }`. -/
example : prog yes 40 (line [.kw .func, .name "f", .pu .parenL, .pu .parenR, .pu .braceL, .kw .while_, .pu .parenL, .num "1", .pu .parenR,
    .pu .parenL, .kw .func, .pu .parenL, .pu .parenR, .pu .braceL, .kw .break_, .pu .semi, .pu .braceR, .pu .parenR, .pu .semi,
    .pu .braceR]) = .err := by rfl

/-- `{ export {a}; }` is an error. -/
example : prog yes 40 (line [.pu .braceL, .kw .export_, .pu .braceL, .name "a", .pu .braceR, .pu .semi, .pu .braceR]) = .err := by rfl

/-! ## What the parser takes that the language does not allow -/

theorem not_in_place {o : Chk} {fuel : Nat} {ts : List Tok} {l : List Node} (h : tree (prog o fuel ts) = some (.prog l))
    (hn : legalL true { top := true } l = false) : ¬InPlace o fuel ts := by
  intro hA
  obtain ⟨s', h'⟩ := of_tree h
  rw [hA.2.2 _ _ h'] at hn
  cases hn

/-- **C77, violated.**  `try { { break; } } finally {}` is accepted. -/
theorem try_break_violated : ¬InPlace yes 40
    (line [.kw .try_, .pu .braceL, .pu .braceL, .kw .break_, .pu .semi, .pu .braceR, .pu .braceR, .kw .finally_, .pu .braceL, .pu .braceR]) :=
  not_in_place (l := [.tryS (.block [.block [.brk .nil]]) .nil (.block [])]) rfl (by decide)

/-- **C77, violated.**  `x = {*[yield]() {}}` is accepted. -/
theorem key_yield_violated : ¬InPlace yes 40
    (line [.name "x", .asg .assign, .pu .braceL, .bin .mul, .pu .brackL, .cw .yield, .pu .brackR, .pu .parenL, .pu .parenR, .pu .braceL,
      .pu .braceR, .pu .braceR]) :=
  not_in_place (l := [.exprStmt (.assign .assign (.leaf (.name "x"))
    (.obj [.method 0 false true true (.yield_ false .nil) [] (.block [])]))]) rfl (by decide)

/-- **C77, violated.**  `async(x); return 1;` is accepted. -/
theorem async_return_violated : ¬InPlace yes 40
    (line [.name "async", .pu .parenL, .name "x", .pu .parenR, .pu .semi, .kw .return_, .num "1", .pu .semi]) :=
  not_in_place (l := [.exprStmt (.call false (.leaf (.name "async")) [.leaf (.name "x")]), .ret (.leaf (.num "1"))]) rfl (by decide)

/-- **C77, violated.**  `async *(x) => { yield x; }` is accepted. -/
theorem async_star_violated : ¬InPlace yes 40
    (line [.name "async", .bin .mul, .pu .parenL, .name "x", .pu .parenR, .pu .arrow, .pu .braceL, .cw .yield, .name "x", .pu .semi,
      .pu .braceR]) :=
  not_in_place (l := [.exprStmt (.arrow true [.leaf (.name "x")] (.block [.exprStmt (.yield_ false (.leaf (.name "x")))]))]) rfl (by decide)

/-- **C77, violated.**  `class A { static { return; } }` is a panic. -/
theorem static_panic_violated : ¬InPlace yes 40
    (line [.kw .class_, .name "A", .pu .braceL, .cw .static, .pu .braceL, .kw .return_, .pu .semi, .pu .braceR, .pu .braceR]) :=
  fun h => h.2.1 (by rfl)

/-- **C77, violated.**  `function f() { class A { static { return; } } }` is accepted. -/
theorem static_return_violated : ¬InPlace yes 40
    (line [.kw .func, .name "f", .pu .parenL, .pu .parenR, .pu .braceL, .kw .class_, .name "A", .pu .braceL, .cw .static, .pu .braceL,
      .kw .return_, .pu .semi, .pu .braceR, .pu .braceR, .pu .braceR]) :=
  not_in_place (l := [.fn false false (.leaf (.name "f")) [] (.block [.class_ (.leaf (.name "A")) .nil [.staticBlock [.ret .nil]]])]) rfl
    (by decide)

/-- A function in a static block may return: `class A { static { (function() { return; }); } }`. -/
example : tree (prog yes 40 (line [.kw .class_, .name "A", .pu .braceL, .cw .static, .pu .braceL, .pu .parenL, .kw .func, .pu .parenL,
    .pu .parenR, .pu .braceL, .kw .return_, .pu .semi, .pu .braceR, .pu .parenR, .pu .semi, .pu .braceR, .pu .braceR])) =
      some (.prog [.class_ (.leaf (.name "A")) .nil [.staticBlock [.exprStmt (.paren (.fn false false .nil [] (.block [.ret .nil])))]]]) := by
  rfl

/-- **C77, violated.**  `{ import a from "b" }` is accepted. -/
theorem import_block_violated : tree (prog yes 40
    (line [.pu .braceL, .kw .import_, .name "a", .name "from", .str "b", .pu .braceR])) =
      some (.prog [.block [.importS [.impDef (.leaf (.name "a"))] (.leaf (.str "b"))]]) := by rfl

/-- **C77, violated.**  `async(x); export var b;` is an error: the scope of the call has not been left. -/
theorem async_export_violated : tree (prog yes 40
    (line [.name "async", .pu .parenL, .name "x", .pu .parenR, .pu .semi, .kw .export_, .kw .var, .name "b", .pu .semi])) = none ∧
    (tree (prog yes 40 (line [.name "f", .pu .parenL, .name "x", .pu .parenR, .pu .semi, .kw .export_, .kw .var, .name "b", .pu .semi]))).isSome :=
  ⟨rfl, rfl⟩

/-- **C77, violated.**  `while (1) async(x); continue;` is a panic. -/
theorem async_panic_violated : ¬InPlace yes 40
    (line [.kw .while_, .pu .parenL, .num "1", .pu .parenR, .name "async", .pu .parenL, .name "x", .pu .parenR, .pu .semi, .kw .continue_,
      .pu .semi]) :=
  fun h => h.1 (by rfl)

end Mole.Parser.Prog
