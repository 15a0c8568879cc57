/-!
# C31: parser features

ecma/parser/feature.go and parser.go:62-148 (`ParserOpts`, `Setup`).  `Feature` is `uint64`; the constants
are `1 << iota` from `FEAT_STRICT` (iota 1) on.
-/
namespace Mole.Parser.Feat

/-- feature.go:3 `Feature`. -/
abbrev Feature := BitVec 64

/-- feature.go:5-58: the features in the order of the declaration; `none` (iota 0) has no bit. -/
inductive F where
  | strict | globalAsync | letConst | spread | bindingPattern | bindingRestElem | module | importDec
  | exportDec | metaProperty | pow | bindingRestElemNested | asyncAwait | badEscapeInTaggedTpl
  | asyncGenerator | asyncIteration | optCatchParam | jsonSuperSet | classPrv | optExpr | nullish | bigint
  | dynamicImport | exportAllAsNs | numSep | logicAssign | classPubField | classPrivField | jsx | jsxNs
  | chkRegexpFlags | regexpUnicode | regexpSticky | regexpDotAll | regexpHasIndices | ts | dts | decorator
  deriving DecidableEq, Repr

/-- feature.go:6-58: `iota` of the constant. -/
def F.iota (x : F) : Nat := x.ctorIdx + 1

/-- The constant `1 << iota`. -/
def F.flag (x : F) : Feature := 1#64 <<< x.iota

/-- feature.go:60-62 `On`. -/
def on (f flag : Feature) : Feature := f ||| flag
/-- feature.go:64-66 `Off`. -/
def off (f flag : Feature) : Feature := f &&& ~~~flag
/-- feature.go:68-73 `Turn`. -/
def turn (f flag : Feature) (b : Bool) : Feature := if b then on f flag else off f flag

/-- The test used throughout the parser: `feat & FLAG != 0`. -/
def has (f : Feature) (x : F) : Bool := f &&& x.flag != 0

/-- parser.go:114-120, the features `Setup` works with (it also stores them in the caller's options). -/
def setup (f : Feature) : Feature :=
  let f := if f &&& F.asyncAwait.flag == 0 then off f F.globalAsync.flag else f
  if f &&& F.module.flag != 0 then on (on f F.importDec.flag) F.exportDec.flag else f

/-- The options of `MergeJson`: absent, or present with a value that is `true` or not. -/
structure Json where
  sourceType : Option Bool := none  -- present; whether it is "module"
  typescript : Option Bool := none
  jsx : Option Bool := none
  dts : Option Bool := none
  strict : Option Bool := none

/-- One `if on, ok := obj[key]; ok { Turn }`. -/
def opt (f : Feature) (x : F) : Option Bool → Feature
  | none => f
  | some b => turn f x.flag b

/-- parser.go:92-111 `MergeJson`. -/
def mergeJson (f : Feature) (o : Json) : Feature :=
  let f := if o.sourceType = some true then on f F.module.flag else f
  opt (opt (opt (opt f .ts o.typescript) .jsx o.jsx) .dts o.dts) .strict o.strict

theorem flag_bit (x : F) (i : Nat) : x.flag.getLsbD i = decide (i = x.iota) := by
  have h : x.iota < 64 := by cases x <;> decide
  have ht : x.flag = BitVec.twoPow 64 x.iota := by
    rw [F.flag, BitVec.twoPow]
  rw [ht, BitVec.getLsbD_twoPow]
  by_cases hi : i = x.iota
  · subst hi; simp [h]
  · have : ¬ x.iota = i := fun e => hi e.symm
    simp [hi, this]

theorem has_eq (f : Feature) (x : F) : has f x = f.getLsbD x.iota := by
  have h : x.iota < 64 := by cases x <;> decide
  have ht : x.flag = BitVec.twoPow 64 x.iota := by
    rw [F.flag, BitVec.twoPow]
  rw [has, ht, BitVec.and_twoPow]
  cases hb : f.getLsbD x.iota with
  | false => rfl
  | true =>
    have : BitVec.twoPow 64 x.iota ≠ 0#64 := by
      intro he
      have := congrArg (·.getLsbD x.iota) he
      simp [BitVec.getLsbD_twoPow, h] at this
    simp only [if_true]
    simpa using this

theorem iota_inj {x y : F} (h : x.iota = y.iota) : x = y := by
  cases x <;> cases y <;> first | rfl | (exact absurd h (by decide))

/-- **C31.** Turning a feature on or off changes the answer for this feature, and for no other. -/
theorem turn_has (f : Feature) (x y : F) (b : Bool) :
    has (turn f x.flag b) y = if y = x then b else has f y := by
  have key : (y.iota = x.iota) ↔ y = x := ⟨iota_inj, congrArg _⟩
  rw [has_eq, has_eq]
  have h : y.iota < 64 := by cases y <;> decide
  cases b
  · simp only [turn, off, Bool.false_eq_true, if_false, BitVec.getLsbD_and, BitVec.getLsbD_not, flag_bit, key, h]
    by_cases he : y = x <;> simp [he]
  · simp only [turn, on, if_true, BitVec.getLsbD_or, flag_bit, key]
    by_cases he : y = x <;> simp [he]

theorem on_has (f : Feature) (x y : F) : has (on f x.flag) y = (decide (y = x) || has f y) := by
  have := turn_has f x y true
  simp only [turn, if_true] at this
  rw [this]
  by_cases h : y = x <;> simp [h]

theorem off_has (f : Feature) (x y : F) : has (off f x.flag) y = (!decide (y = x) && has f y) := by
  have := turn_has f x y false
  simp only [turn, Bool.false_eq_true, if_false] at this
  rw [this]
  by_cases h : y = x <;> simp [h]

/-- **C31.** What the parser sets up, feature by feature: import and export declarations are on if modules
are, global async only if asked for together with async functions, and nothing else changes. -/
theorem setup_has (f : Feature) (y : F) :
    has (setup f) y =
      match y with
      | .globalAsync => has f .globalAsync && has f .asyncAwait
      | .importDec => has f .importDec || has f .module
      | .exportDec => has f .exportDec || has f .module
      | y => has f y := by
  have h1 : (f &&& F.asyncAwait.flag == 0) = !has f .asyncAwait := by simp [has, bne]
  have h2 : ∀ g : Feature, (g &&& F.module.flag != 0) = has g .module := fun g => rfl
  simp only [setup, h1]
  cases ha : has f .asyncAwait
  · simp only [Bool.not_false, if_true, h2]
    have hm : has (off f F.globalAsync.flag) .module = has f .module := by rw [off_has]; rfl
    rw [hm]
    cases hmod : has f .module
    · simp only [Bool.false_eq_true, if_false, off_has]
      cases y <;> simp [hmod, ha]
    · simp only [if_true, on_has, off_has]
      cases y <;> simp [hmod, ha]
  · simp only [Bool.not_true, Bool.false_eq_true, if_false, h2]
    cases hmod : has f .module
    · cases y <;> simp [hmod, ha]
    · simp only [if_true, on_has]
      cases y <;> simp [hmod, ha]

/-- **C31.** Setting up twice, as happens when options are shared between parsers, is setting up once. -/
theorem setup_idem (f : Feature) (y : F) : has (setup (setup f)) y = has (setup f) y := by
  rw [setup_has (setup f)]
  cases y <;> simp [setup_has]

/-- **C31.** A configuration object sets exactly the features it names. -/
theorem mergeJson_has (f : Feature) (o : Json) (y : F) :
    has (mergeJson f o) y =
      match y with
      | .module => has f .module || o.sourceType == some true
      | .ts => o.typescript.getD (has f .ts)
      | .jsx => o.jsx.getD (has f .jsx)
      | .dts => o.dts.getD (has f .dts)
      | .strict => o.strict.getD (has f .strict)
      | y => has f y := by
  have ho : ∀ (g : Feature) (x z : F) (b : Option Bool),
      has (opt g x b) z = if z = x then b.getD (has g z) else has g z := by
    intro g x z b
    cases b with
    | none => simp [opt]
    | some b => simp only [opt, turn_has]; rfl
  have hm : ∀ z, has (if o.sourceType = some true then on f F.module.flag else f) z =
      if z = .module then (has f z || o.sourceType == some true) else has f z := by
    intro z
    by_cases hs : o.sourceType = some true
    · rw [if_pos hs, on_has]
      by_cases hz : z = .module <;> simp [hz, hs]
    · rw [if_neg hs]
      have : (o.sourceType == some true) = false := by simpa using hs
      rw [this]
      by_cases hz : z = .module <;> simp [hz]
  simp only [mergeJson, ho, hm]
  cases y <;> simp

/-- Options are not constant: JSX on a script that had it off. -/
example : has (mergeJson F.ts.flag { jsx := some true, typescript := some false }) .jsx = true ∧
    has (mergeJson F.ts.flag { jsx := some true, typescript := some false }) .ts = false := by decide
example : has (setup (on (on 0 F.module.flag) F.globalAsync.flag)) .importDec = true ∧
    has (setup (on (on 0 F.module.flag) F.globalAsync.flag)) .globalAsync = false := by decide

end Mole.Parser.Feat
