import Verif.Parser.TsTypeComplete
import Verif.Parser.TsTypeNoPanic

/-! # Types of TypeScript are read by their rules (C80) -/

namespace Mole.Parser.TsType
variable {X : Type} {C : Cfg X}

/-! ## A configuration for examples

Objects are `{}`, templates one token, parameters names and type parameters `<T>`. -/

def tk (l : List K) : List Tok := l.map fun k => ⟨k, false⟩

def demo : Cfg Unit where
  obj := fun _ s => match s with
    | ⟨.braceL, _⟩ :: ⟨.braceR, _⟩ :: r => some ((), r)
    | _ => none
  tpl := fun s => match s with
    | ⟨.tpl, _⟩ :: r => some ((), r)
    | _ => none
  param := fun s => match s with
    | ⟨.name _, _⟩ :: r => some ((), r)
    | _ => none
  tparams := fun s => match s with
    | ⟨.lt, _⟩ :: ⟨.name _, _⟩ :: ⟨.gt, _⟩ :: r => some ((), r)
    | _ => none
  toTyp := some
  toPat := some

theorem demo_takes : demo.Takes := by
  intro s x r h
  rcases h with ⟨b, h⟩ | h | h | h <;> simp only [demo] at h <;> split at h <;> simp_all <;> omega

theorem demo_keeps : demo.Keeps := by
  intro s x r h y hy
  rcases h with ⟨b, h⟩ | h | h | h <;> simp only [demo] at h <;> split at h <;> simp_all

/-! ## What is accepted -/

/-- What is accepted as a type follows the rules of types with its tree, or one of the rules with `q = true` for what is accepted though
it is not TypeScript, or read as another type.  (In full this would be with `q = false`; see the `_violated` theorems.) -/
theorem types_accepted_partial (T : C.Takes) {n : Nat} {F : Fl} {s r : List Tok} {t : Nd X} (h : parse C n F s = .ok t r) :
    G C true (.typ F true t) s r := by
  have := (specs T n).typ F s
  unfold Tr at this
  rw [show (run C n).typ F s = .ok t r from h] at this
  exact this.1 true

/-- `A | B & C` -/
example : parse demo 100 yes (tk [.name "A", .bar, .name "B", .amp, .name "C"]) =
    .ok (.union [.ref (.id "A"), .inter [.ref (.id "B"), .ref (.id "C")]]) [] := rfl

/-- Each type of TypeScript is accepted with its tree; after it are left the tokens after it.  (In full this would be with rules for
more types; see the `_violated` theorems.) -/
theorem types_complete_partial (T : C.Takes) {n : Nat} {F : Fl} {s r : List Tok} {t : Nd X} (h : G C false (.typ F true t) s r)
    (hn : 6 * s.length + 3 ≤ n) : parse C n F s = .ok t r :=
  (exec T h).2 n hn

/-- `A[][B]` -/
example : G demo false (.typ yes true (.idx (.arr (.ref (.id "A"))) (.ref (.id "B")))) (tk [.name "A", .brackL, .brackR, .brackL, .name "B", .brackR]) [] := by
  have ref : ∀ (v : String) (r : List Tok), Free v (hd r) → builtin v = false → (hd r).k ≠ .dot → (hd r).k ≠ .lt → textIs (hd r).k = false →
      v ≠ "asserts" → G demo false (.base yes (.ref (.id v))) (⟨.name v, false⟩ :: r) r := fun v r h1 h2 h3 h4 h5 h6 =>
    .ref h1 (fun h => by rw [h2] at h; cases h) (.nil h3) (fun h => h6 (by injection h.1)) h5 h4
  have free : ∀ v (t : Tok), v = "A" ∨ v = "B" → Free v t := fun v t h => by rcases h with rfl | rfl <;> simp [Free]
  refine .uni (ms := []) (m := []) (a := .idx (.arr (.ref (.id "A"))) (.ref (.id "B"))) (.array (n := .ref (.id "A"))
    (ref "A" _ (free _ _ (.inl rfl)) (by decide) (by decide) (by decide) (by decide) (by decide)) rfl rfl ?_ (by decide))
    .opsNil rfl rfl (fun _ => by simp [tree, groups, build, interOf, pcd, hd]) (by simp)
  refine .sufArr (by simp) (.sufIdx (b := false) (by simp) (m := []) ?_ .sufNil)
  exact .uni (ms := []) (.plain (ref "B" _ (free _ _ (.inr rfl)) (by decide) (by decide) (by decide) (by decide) (by decide)) (by decide)
    (by decide)) .opsNil rfl rfl (fun _ => by simp [tree, groups, build, interOf, pcd, hd]) (by simp)

/-- Tokens are a type of TypeScript in one way only. -/
theorem types_unique (T : C.Takes) {F : Fl} {s r r' : List Tok} {t t' : Nd X} (h : G C false (.typ F true t) s r)
    (h' : G C false (.typ F true t') s r') : t = t' ∧ r = r' := by
  have e := (types_complete_partial T h (Nat.le_refl _)).symm.trans (types_complete_partial T h' (Nat.le_refl _))
  injection e with e1 e2
  exact ⟨e1, e2⟩

/-- Reading a type ends: calls are not deeper than six times the number of tokens and three, and an accepted type takes a token. -/
theorem types_end (T : C.Takes) {n : Nat} {F : Fl} {s : List Tok} :
    (6 * s.length + 3 ≤ n → parse C n F s ≠ .fuel) ∧ ∀ t r, parse C n F s = .ok t r → r.length < s.length := by
  have := (specs T n).typ F s
  unfold Tr at this
  refine ⟨fun hn h => ?_, fun t r h => ?_⟩
  · rw [show (run C n).typ F s = .fuel from h] at this
    simp only at this
    omega
  · rw [show (run C n).typ F s = .ok t r from h] at this
    exact this.2

/-- Members joined with `&` and `|` before a token that is no operator are the union of intersections they are in TypeScript. -/
theorem union_meaning {p : Nat} (hp : p < 8) (a : Nd X) (ms : List (Bool × Nd X)) : UnionOf (groups a ms) (tree p a ms) := by
  have key : ∀ (gs gs0 hs : List (List (Nd X))) (t : Nd X) (last : Nat), UnionOf gs0 t → (hs ≠ [] → 8 ≤ last) →
      UnionOf (gs0 ++ hs ++ gs) (build p last (t :: hs.map interOf) gs) := by
    have base : ∀ (gs0 hs : List (List (Nd X))) (t : Nd X) (last : Nat), UnionOf gs0 t → (hs ≠ [] → 8 ≤ last) →
      UnionOf (gs0 ++ hs) (build p last (t :: hs.map interOf) []) := by
      intro gs0 hs t last ht hl
      cases hs with
      | nil => simpa [build] using ht
      | cons h hs =>
        have := hl (by simp)
        simp only [List.map_cons, build]
        rw [if_pos (by omega)]
        exact .more ht (by simp)
    intro gs
    induction gs with
    | nil => intro gs0 hs t last ht hl; rw [List.append_nil]; exact base _ _ _ _ ht hl
    | cons g gs ih =>
      intro gs0 hs t last ht hl
      rw [build]
      by_cases hg : gs = []
      · subst hg
        rw [if_pos rfl, if_pos (show p < 10 by omega)]
        have := base gs0 (hs ++ [g]) t (if 2 ≤ g.length then 10 else 8) ht (by intro _; split <;> decide)
        simpa using this
      · rw [if_neg hg]
        by_cases h2 : 2 ≤ g.length
        · rw [if_pos h2, if_pos h2]
          have := ih (gs0 ++ (hs ++ [g])) [] (.union (t :: (hs ++ [g]).map interOf)) 10 (.more ht (by simp)) (by simp)
          simpa using this
        · rw [if_neg h2, if_neg h2]
          have := ih gs0 (hs ++ [g]) t 8 ht (by simp)
          simpa using this
  unfold tree
  split
  · rename_i g gs e
    rw [e]
    have h := key gs [g] [] _ 0 (.one g) (by simp)
    rw [if_pos (by right; omega)]
    simpa using h
  · rename_i e
    exfalso
    revert e
    cases ms with
    | nil => simp [groups]
    | cons m ms =>
      obtain ⟨o, m⟩ := m
      cases o <;> simp only [groups]
      · split <;> simp
      · simp

/-- `A | B & C | D` is a union of a union. -/
example : parse demo 100 yes (tk [.name "A", .bar, .name "B", .amp, .name "C", .bar, .name "D"]) =
    .ok (.union [.union [.ref (.id "A"), .inter [.ref (.id "B"), .ref (.id "C")]], .ref (.id "D")]) [] := rfl

/-- Without `const` among the tokens, reading a type does not crash. -/
theorem types_no_crash_partial (K : C.Keeps) {n : Nat} {F : Fl} {s : List Tok} (h : ∀ x ∈ s, x.k ≠ .const_) : parse C n F s ≠ .panic := by
  have := ((nps K n).typ F).go s h
  unfold NpAt at this
  intro e
  rw [show (run C n).typ F s = .panic from e] at this
  exact this

example : ∀ x ∈ tk [.name "A", .brackL, .brackR], x.k ≠ .const_ := by decide

/-! ## Where the code departs from TypeScript -/

/-- `import("m")<const<b>>` ends in a crash. -/
theorem crash_violated : parse demo 100 yes (tk [.import_, .parenL, .str "m", .parenR, .lt, .const_, .lt, .name "b", .gt, .gt]) = .panic := rfl

/-- In type arguments all members of a union but the first are lost: `Array<A | B>` is read as `Array<A>`. -/
theorem argument_lost_violated : parse demo 100 yes (tk [.name "Array", .lt, .name "A", .bar, .name "B", .gt]) =
    .ok (.app (.id "Array") [.ref (.id "A")]) [] := rfl

/-- With an operator before the first member all but the last are lost: `| A | B` is read as `B`. -/
theorem leading_lost_violated : parse demo 100 yes (tk [.bar, .name "A", .bar, .name "B"]) = .ok (.ref (.id "B")) [] := rfl

/-- `A & (B) | C` is read as `A & (B | C)`, and `keyof A | B` as `keyof (A | B)`. -/
theorem priority_violated :
    parse demo 100 yes (tk [.name "A", .amp, .parenL, .name "B", .parenR, .bar, .name "C"]) =
      .ok (.inter [.ref (.id "A"), .union [.ref (.id "B"), .ref (.id "C")]]) [] ∧
    parse demo 100 yes (tk [.name "keyof", .name "A", .bar, .name "B"]) = .ok (.op "keyof" (.union [.ref (.id "A"), .ref (.id "B")])) [] ∧
    parse demo 100 yes (tk [.typeof_, .name "x", .bar, .name "B"]) = .ok (.query (.union [.ref (.id "x"), .ref (.id "B")])) [] :=
  ⟨rfl, rfl, rfl⟩

/-- `A | B extends C ? D : E` is read as `A | (B extends C ? D : E)`. -/
theorem cond_member_violated :
    parse demo 100 yes (tk [.name "A", .bar, .name "B", .extends_, .name "C", .hook, .name "D", .colon, .name "E"]) =
    .ok (.union [.ref (.id "A"), .cond (.ref (.id "B")) (.ref (.id "C")) (.ref (.id "D")) (.ref (.id "E"))]) [] := rfl

/-- Types of TypeScript that are rejected: `F<[A]>`, `F<this>`, `F<typeof x>`, `(...a: A[]) => A`, `(object: A) => A`.  Of `A[] extends
B ? C : D` only `A[]` is taken, and so it is with `(A) extends B ? C : D`, `() => A extends B ? C : D` and `"a"[]`. -/
theorem rejected_violated :
    parse demo 100 yes (tk [.name "F", .lt, .brackL, .name "A", .brackR, .gt]) = .err ∧
    parse demo 100 yes (tk [.name "F", .lt, .this_, .gt]) = .err ∧
    parse demo 100 yes (tk [.name "F", .lt, .typeof_, .name "x", .gt]) = .err ∧
    parse demo 100 yes (tk [.parenL, .dots, .name "a", .colon, .name "A", .brackL, .brackR, .parenR, .arrow, .name "A"]) = .err ∧
    parse demo 100 yes (tk [.parenL, .name "object", .colon, .name "A", .parenR, .arrow, .name "A"]) = .err ∧
    (let e := [.extends_, .name "B", .hook, .name "C", .colon, .name "D"]
     parse demo 100 yes (tk ([.name "A", .brackL, .brackR] ++ e)) = .ok (.arr (.ref (.id "A"))) (tk e) ∧
     parse demo 100 yes (tk ([.parenL, .name "A", .parenR] ++ e)) = .ok (.ref (.id "A")) (tk e) ∧
     parse demo 100 yes (tk ([.parenL, .parenR, .arrow, .name "A"] ++ e)) = .ok (.fn none [] (.ref (.id "A"))) (tk e)) ∧
    parse demo 100 yes (tk [.str "a", .brackL, .brackR]) = .ok (.lit (.str "a")) (tk [.brackL, .brackR]) :=
  ⟨rfl, rfl, rfl, rfl, rfl, ⟨rfl, rfl, rfl⟩, rfl⟩

/-- Accepted though no types: `[A B]`, `(A?)`, `(A,)`, `()`, `<T>(A)`, `F<A,>`, `F<T extends A>`, `A "is"` (of which the string is left). -/
theorem accepted_violated :
    parse demo 100 yes (tk [.brackL, .name "A", .name "B", .brackR]) = .ok (.tuple [.ref (.id "A"), .ref (.id "B")]) [] ∧
    parse demo 100 yes (tk [.parenL, .name "A", .hook, .parenR]) = .ok (.ref (.id "A")) [] ∧
    parse demo 100 yes (tk [.parenL, .name "A", .comma, .parenR]) = .ok (.ref (.id "A")) [] ∧
    parse demo 100 yes (tk [.parenL, .parenR]) = .ok (.fnNo none) [] ∧
    parse demo 100 yes (tk [.lt, .name "T", .gt, .parenL, .name "A", .parenR]) = .ok (.ref (.id "A")) [] ∧
    parse demo 100 yes (tk [.name "F", .lt, .name "A", .comma, .gt]) = .ok (.app (.id "F") [.ref (.id "A")]) [] ∧
    parse demo 100 yes (tk [.name "F", .lt, .name "T", .extends_, .name "A", .gt]) = .ok (.app (.id "F") [.tparam "T" (.ref (.id "A"))]) [] ∧
    parse demo 100 yes (tk [.name "A", .str "is"]) = .ok (.pred false (.nm (.id "A"))) (tk [.str "is"]) :=
  ⟨rfl, rfl, rfl, rfl, rfl, rfl, rfl, rfl⟩

/-- Of the parameter in `(a[]: A) => B` the brackets are lost. -/
theorem brackets_lost_violated :
    parse demo 100 yes (tk [.parenL, .name "a", .brackL, .brackR, .colon, .name "A", .parenR, .arrow, .name "B"]) =
    .ok (.fn none [.paramTy (.pid "a") false (.ref (.id "A"))] (.ref (.id "B"))) [] := rfl

/-- A `[` on the next line is taken after a type in parentheses, and not after a name. -/
theorem line_violated :
    parse demo 100 yes (tk [.parenL, .name "A", .parenR] ++ ⟨.brackL, true⟩ :: tk [.name "b", .brackR]) =
      .ok (.idx (.paren (.ref (.id "A"))) (.ref (.id "b"))) [] ∧
    parse demo 100 yes (tk [.name "A"] ++ ⟨.brackL, true⟩ :: tk [.name "b", .brackR]) =
      .ok (.ref (.id "A")) (⟨.brackL, true⟩ :: tk [.name "b", .brackR]) := ⟨rfl, rfl⟩

end Mole.Parser.TsType
