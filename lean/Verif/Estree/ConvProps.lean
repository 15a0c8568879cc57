import Verif.Estree.ConvLemmas
/-! # C73: the ESTree output says what the tree says

`convert` is the model of estree/convert.go and estree/ts_convert.go, `read` a reader of ESTree after the standard (ConvSpec.lean); `erase` takes the
parentheses off a tree, for ESTree has none. -/

namespace Mole.Estree.Conv

/-- C73, reading the output back.  For every tree the parser makes, of any size, the reader gets that tree from what `Convert` writes
for it: every node, every range, every flag, operator and name, in the same places.

The full property has no `Made`.  Not read back (see below and C54) are trees with
- a regular expression, a name `a:b` of JSX, a directive with an escape or a string as substitution in a template,
- `declare` before a type alias with parameters, or before a class with parameters, arguments for the class it extends, `implements`
  or decorators,
- a `*` before the name of a function without a body,
- `?` after an object pattern, decorators before a pattern or a class expression, more than one argument of `require`,
- in a type `readonly` before a key that is not a name, or a key that is a string,
- `export type *`, or a template whose tag is a call with arguments that are types. -/
theorem tree_partial (t : Node) (h : Made t) : ∃ n, ∀ m, n ≤ m → read m (convert t) = some (erase t) :=
  ⟨size t, fun m hm => ok (size t) m hm t (Nat.le_refl _) h⟩

/-- C73, for programs. -/
theorem prog_partial (rng : Rng) (body : Nodes) (h : MadeL body) :
    ∃ n, ∀ m, n ≤ m → readProg m (convertProg rng body) = some (rng, eraseL body) := by
  refine ⟨sizeL body, fun m hm => ?_⟩
  have h1 := okL (ok (sizeL body) m hm) body (Nat.le_refl _) h
  simp [readProg, convertProg, ob, bare, text, range, nodes, list, J.get, look, h1]

/-- C73, nothing is lost: two trees with the same output are the same up to parentheses. -/
theorem faithful_partial (t t' : Node) (h : Made t) (h' : Made t') (he : convert t = convert t') : erase t = erase t' := by
  obtain ⟨n, hn⟩ := tree_partial t h
  obtain ⟨n', hn'⟩ := tree_partial t' h'
  have h1 := hn (n + n') (by omega)
  have h2 := hn' (n + n') (by omega)
  rw [he, h2] at h1
  exact (Option.some.inj h1).symm

/-- ``f`a${(x) || y}b`;`` with `'use strict'` before it. -/
def sample : Nodes :=
  .cons (.mk (0, 13) (.exprStmt (.mk (0, 12) (.str "use strict" "'use strict'")) true))
  (.cons (.mk (14, 30) (.exprStmt (.mk (15, 29) (.tpl (.mk (14, 15) (.ident "f" false))
    (.cons (.mk (16, 17) (.str "a" "a"))
    (.cons (.mk (19, 27) (.bin "||" (.mk (19, 22) (.paren (.mk (20, 21) (.ident "x" false)))) (.mk (26, 27) (.ident "y" false))))
    (.cons (.mk (28, 29) (.str "b" "b")) .nil))))) false)) .nil)

example : MadeL sample := by
  simp only [sample, MadeL, Made, Own, MadeK, MadeTag, TagOk, Woven, isStr]
  have h : unquote "'use strict'" = "use strict" := by decide
  exact ⟨⟨fun _ => ⟨(0, 12), "'use strict'", by rw [h]⟩, by simp⟩, by simp⟩

/-- `export * as ns from "m"; for (const k in o) <><A b/></>` -/
def sample2 : Nodes :=
  .cons (.mk (0, 24) (.exportDec false true false .nil (.cons (.mk (7, 14) (.exportSpec false true (.mk (12, 14) (.ident "ns" false)) .nil)) .nil)
    (.mk (20, 23) (.str "m" "\"m\""))))
  (.cons (.mk (25, 58) (.forInOf true false (.mk (30, 37) (.varDec "const"
      (.cons (.mk (36, 37) (.declr (.mk (36, 37) (.ident "k" false)) .nil)) .nil))) (.mk (41, 42) (.ident "o" false))
    (.mk (44, 58) (.exprStmt (.mk (44, 58) (.jsxElem (.mk (44, 46) (.jsxOpen .nil .nil false))
      (.cons (.mk (46, 53) (.jsxElem (.mk (46, 53) (.jsxOpen (.mk (47, 48) (.jsxId "A"))
        (.cons (.mk (49, 50) (.jsxAttr (.mk (49, 50) (.jsxId "b")) .nil)) .nil) true)) .nil .nil)) .nil)
      (.mk (53, 58) (.jsxClose .nil)))) false)))) .nil)

example : MadeL sample2 := by
  simp [sample2, MadeL, Made, Own, MadeK, MadeSpecs, MadeDec, AsClause, isFragment, erase, eraseK]

/-- `T` at `i`. -/
def tRef (i : Nat) : Node := .mk (i, i + 1) (.tsRef (.mk (i, i + 1) (.ident "T" false)) .nil)

/-- `<T>` at `i`, as parameters. -/
def tDec (i : Nat) : Node :=
  .mk (i, i + 3) (.tsParamDec (.cons (.mk (i + 1, i + 2) (.tsParam (.mk (i + 1, i + 2) (.ident "T" false)) .nil .nil)) .nil))

/-- `<T>` at `i`, as arguments. -/
def tInst (i : Nat) : Node := .mk (i, i + 3) (.tsParamInst (.cons (tRef (i + 1)) .nil))

/-- `class A<T> extends B<T> { constructor(@d private x?: T); [k: string]: T; @e static readonly y!: T[] }` -/
def sample3 : Nodes :=
  .cons (.mk (0, 98) (.cls false (.mk (6, 7) (.ident "A" false)) (tDec 7) (.mk (19, 20) (.ident "B" false)) (tInst 20) .nil
    (.mk (24, 98) (.classBody
      (.cons (.mk (26, 59) (.method (.mk (26, 37) (.ident "constructor" false)) false false .ctor
        (.mk (37, 59) (.fnT true .nil false false
          (.cons (.mk (49, 50) (.paramProp "private" false false (some (41, 48))
            (.cons (.mk (38, 40) (.decorator (.mk (39, 40) (.ident "d" false)))) .nil)
            (.mk (49, 50) (.identT "x" (some (50, 51)) (.mk (51, 54) (.tsAnnot (tRef 53))) .nil .nil)))) .nil) .nil .nil .nil))))
      (.cons (.mk (61, 75) (.fieldT (.mk (62, 63) (.identT "k" none (.mk (63, 71) (.tsAnnot (.mk (65, 71) (.tsKw .str)))) .nil .nil))
        false true .nil none false false false false false "" (.mk (72, 75) (.tsAnnot (tRef 74))) .nil))
      (.cons (.mk (80, 96) (.fieldT (.mk (96, 97) (.ident "y" false)) true false .nil none true false false true false ""
        (.mk (92, 97) (.tsAnnot (.mk (94, 97) (.tsArr (tRef 94)))))
        (.cons (.mk (77, 79) (.decorator (.mk (78, 79) (.ident "e" false)))) .nil))) .nil))))) false false .nil)) .nil

example : MadeL sample3 := by
  simp [sample3, tRef, tDec, tInst, MadeL, Made, Own, MadeK, isTyp, isTypK, ParamsOk, Real, RealOr, Node.rng, isTsSig]

/-- ``const f = async <T>(x: T): x is T => g<T>`s`;`` with
`interface I<T> extends J<T> { readonly a?: T; b(): void }` and `export import r = require("m")` before it. -/
def sample4 : Nodes :=
  .cons (.mk (0, 57) (.tsItf (.mk (10, 11) (.ident "I" false)) (tDec 11)
    (.cons (.mk (23, 27) (.tsRef (.mk (23, 24) (.ident "J" false)) (tInst 24))) .nil)
    (.mk (28, 57) (.tsItfBody
      (.cons (.mk (39, 44) (.tsProp (.mk (39, 40) (.identT "a" none .nil .nil .nil)) (.mk (41, 44) (.tsAnnot (tRef 43)))
        (some (40, 41)) .init false true))
      (.cons (.mk (46, 55) (.tsProp (.mk (46, 47) (.ident "b" false)) (.mk (47, 55) (.tsCallSig .nil .nil
        (.mk (49, 55) (.tsAnnot (.mk (51, 55) (.tsKw .void)))))) none .init false false)) .nil)))) false))
  (.cons (.mk (58, 89) (.exportDec false false false (.mk (65, 89) (.tsImportRequire (.mk (72, 73) (.ident "r" false)) (76, 88)
    (.cons (.mk (84, 87) (.str "m" "\"m\"")) .nil))) .nil .nil))
  (.cons (.mk (90, 134) (.varDec "const" (.cons (.mk (96, 134) (.declr (.mk (96, 97) (.ident "f" false))
    (.mk (100, 134) (.arrowT true (.cons (.mk (110, 111) (.identT "x" none (.mk (111, 114) (.tsAnnot (tRef 113))) .nil .nil)) .nil)
      (.mk (130, 134) (.tpl (.mk (127, 128) (.identT "g" none .nil .nil (tInst 128))) (.cons (.mk (132, 133) (.str "s" "s")) .nil)))
      true (tDec 106)
      (.mk (115, 123) (.tsAnnot (.mk (117, 123) (.tsPredicate (.mk (117, 118) (.ident "x" false)) (tRef 122) false)))))))) .nil)))
    .nil))

example : MadeL sample4 := by
  simp [sample4, tRef, tDec, tInst, MadeL, Made, Own, MadeK, MadeTag, MadeDec, TagOk, isTyp, isTypK, ParamsOk, ArgsOk, ExtsOk, KeyOk,
    OneArg, allTyp, isCallSig, Real, RealOr, rngOf, Woven, isStr]

/-- Parentheses are all that differs. -/
example : erase (.mk (0, 5) (.bin "*" (.mk (0, 3) (.paren (.mk (1, 2) (.ident "a" false)))) (.mk (4, 5) (.num "2")))) =
    .mk (0, 5) (.bin "*" (.mk (1, 2) (.ident "a" false)) (.mk (4, 5) (.num "2"))) := rfl

/-- C73 fails for regular expressions: the standard has their text in `regex`, the output in `regexp`, so that every one of them is
read as `null`. -/
theorem regexp_violated (m : Nat) (r : Rng) (pat flags : String) :
    read (m + 1) (convert (.mk r (.regex pat flags))) = some (.mk r .null) := by
  simp [convert, convertK, read_ob, type_Literal, readLiteral, get_ob, look]

/-- C73 fails for names with a namespace: the standard has two nodes, the output two strings. -/
theorem namespace_violated (m : Nat) (r : Rng) (ns name : String) :
    read (m + 1) (convert (.mk r (.jsxNs ns name))) = none := by
  simp only [convert, convertK, read_ob, type_JSXNamespacedName, readJSXNamespacedName, get_ob, node]
  cases m <;> simp [look, read]

/-- C73 fails for directives with an escape: the standard has the text in the source, the output its value.  `'use\x20strict'`,
which by the standard does not make code strict, is written as the directive `use strict`. -/
theorem directive_violated (r : Rng) :
    (convert (.mk r (.exprStmt (.mk r (.str "use strict" "'use\\x20strict'")) true))).get "directive" = some (.str "use strict") ∧
    directiveText (.mk r (.str "use strict" "'use\\x20strict'")) = some "use\\x20strict" := by
  refine ⟨by simp [convert, convertK, ob, J.get, look, strVal], ?_⟩
  simp only [directiveText]
  decide

/-- C73 fails for whether a program is a script or a module: no output says either. -/
theorem sourceType_violated (rng : Rng) (body : Nodes) :
    text (convertProg rng body) "sourceType" ≠ some "script" ∧ text (convertProg rng body) "sourceType" ≠ some "module" := by
  simp [convertProg, ob, text, J.get, look]

/-- C73 fails for `declare type A<T> = T`: the parameters are not written. -/
theorem declareAlias_violated (r : Rng) (id tparams typ : Node) :
    convert (.mk r (.tsAlias id tparams typ true)) = convert (.mk r (.tsAlias id .nil typ true)) := by
  simp [convert, convertK]

/-- C73 fails for `declare class`: parameters, arguments of what it extends, what it implements and decorators are not written. -/
theorem declareClass_violated (r inner : Rng) (id tparams sup supArgs body : Node) (impls decs : Nodes) (abstract : Bool) :
    convert (.mk r (.tsDecClass inner id tparams sup supArgs impls body abstract decs)) =
      convert (.mk r (.tsDecClass inner id .nil sup .nil .nil body abstract .nil)) := by
  simp [convert, convertK]

/-- C73 fails for functions without a body: no output says whether there is a `*` or a `declare` before the function, so that
`declare function f(): void` is written as `function f(): void` is, for the same range. -/
theorem declareFunction_violated (r : Rng) (id tparams ret : Node) (params : Nodes) (gen gen' async : Bool) :
    convert (.mk r (.tsDecFn id gen async params .nil tparams ret)) =
      convert (.mk r (.fnT false id gen' async params .nil tparams ret)) := by
  simp [convert, convertK, Node.isNil]

/-- C73 fails for `({a}?: T) => 0`: that the pattern is optional is not written. -/
theorem optionalPattern_violated (r q : Rng) (props : Nodes) (annot : Node) (decs : Nodes) :
    (convert (.mk r (.objPatT props (some q) annot decs))).get "optional" = some (.bool false) := by
  simp [convert, convertK, ob, J.get, look]

/-- C73 fails for decorators before patterns and class expressions: they are not written. -/
theorem droppedDecorators_violated (r : Rng) (elems impls decs : Nodes) (q : Option Rng) (id tparams sup supArgs body annot : Node)
    (abstract declare : Bool) :
    convert (.mk r (.arrPatT elems q annot decs)) = convert (.mk r (.arrPatT elems q annot .nil)) ∧
    convert (.mk r (.objPatT elems q annot decs)) = convert (.mk r (.objPatT elems q annot .nil)) ∧
    convert (.mk r (.restPatT id q annot decs)) = convert (.mk r (.restPatT id q annot .nil)) ∧
    convert (.mk r (.cls true id tparams sup supArgs impls body abstract declare decs)) =
      convert (.mk r (.cls true id tparams sup supArgs impls body abstract declare .nil)) := by
  simp [convert, convertK]

/-- C73 fails for `import a = require("b", c)`: the second argument is not written. -/
theorem require_violated (r callRng : Rng) (name arg : Node) (rest : Nodes) :
    convert (.mk r (.tsImportRequire name callRng (.cons arg rest))) =
      convert (.mk r (.tsImportRequire name callRng (.cons arg .nil))) := by
  simp [convert, convertK, required]

/-- C73 fails for `readonly` before a key `[a.b]` in a type: it is not written. -/
theorem readonlyKey_violated (r rk : Rng) (o prop val : Node) (opt computed c : Bool) (ques : Option Rng) (kind : PropKind) :
    convert (.mk r (.tsProp (.mk rk (.member o prop computed opt)) val ques kind c true)) =
      convert (.mk r (.tsProp (.mk rk (.member o prop computed opt)) val ques kind c false)) := by
  simp [convert, convertK, keyReadonly]

/-- C73 fails for the type `{ "a": T }`: the key is taken for a name and the conversion panics. -/
theorem stringKey_violated (r rk : Rng) (s raw : String) (val : Node) (ques : Option Rng) (kind : PropKind) (c readonly : Bool)
    (h : isCallSig val = false) :
    (convert (.mk r (.tsProp (.mk rk (.str s raw)) val ques kind c readonly))).get "readonly" = some .crash := by
  simp [convert, convertK, h, keyReadonly, ob, J.get, look]

/-- C73 fails for `export type * from "a"`: it is written as `export * from "a"` is. -/
theorem exportTypeAll_violated (r : Rng) (deflt : Bool) (dec src : Node) (specs : Nodes) :
    convert (.mk r (.exportDec true true deflt dec specs src)) = convert (.mk r (.exportDec false true deflt dec specs src)) := by
  simp [convert, convertK]

/-- C73 fails for ``f<T>()`x` ``: the arguments of the call are written for the template too. -/
theorem templateArgs_violated (r rc : Rng) (callee targs : Node) (args elems : Nodes) (opt : Bool) :
    (convert (.mk r (.tpl (.mk rc (.callT callee args opt targs)) elems))).get "typeParameters" = some (typArgs targs) := by
  simp [convert, convertK, tagArgs, ob, J.get, look]

end Mole.Estree.Conv
