import Verif.Estree.ConvSpec
/-! # Lemmas on reading what the converter writes -/

namespace Mole.Estree.Conv

set_option maxHeartbeats 4000000

mutual
def size : Node → Nat
  | .nil => 0
  | .mk _ k => sizeK k + 1
def sizeK : Kind → Nat
  | .exprStmt e _ => size e
  | .arr elems => sizeL elems
  | .spread arg => size arg
  | .obj props => sizeL props
  | .new callee args => size callee + sizeL args
  | .member o prop _ _ => size o + size prop
  | .call callee args _ => size callee + sizeL args
  | .bin _ l r => size l + size r
  | .unary _ arg => size arg
  | .update _ _ arg => size arg
  | .cond test cons alt => size test + size cons + size alt
  | .assign _ l r => size l + size r
  | .seq elems => sizeL elems
  | .paren e => size e
  | .tpl tag elems => size tag + sizeL elems + 1
  | .importCall src => size src
  | .«yield» _ arg => size arg
  | .arrPat elems => sizeL elems
  | .assignPat l r => size l + size r
  | .restPat arg => size arg
  | .objPat props => sizeL props
  | .prop key val _ _ _ _ => size key + size val
  | .fn _ id _ _ params body => size id + sizeL params + size body
  | .arrow _ params body _ => sizeL params + size body
  | .varDec _ decs => sizeL decs
  | .declr id init => size id + size init
  | .block body => sizeL body
  | .doWhile test body => size test + size body
  | .«while» test body => size test + size body
  | .«for» init test update body => size init + size test + size update + size body
  | .forInOf _ _ l r body => size l + size r + size body
  | .«if» test cons alt => size test + size cons + size alt
  | .switch test cases => size test + sizeL cases
  | .case test cons => size test + sizeL cons
  | .brk label => size label
  | .cont label => size label
  | .label label body => size label + size body
  | .ret arg => size arg
  | .«throw» arg => size arg
  | .«catch» param body => size param + size body
  | .«try» block handler fin => size block + size handler + size fin
  | .«with» o body => size o + size body
  | .cls _ id tparams sup supArgs impls body _ _ decs =>
    size id + size tparams + size sup + size supArgs + sizeL impls + size body + sizeL decs
  | .classBody elems => sizeL elems
  | .method key _ _ _ val => size key + size val
  | .field key _ _ val => size key + size val
  | .staticBlock body => sizeL body
  | .metaProp mt prop => size mt + size prop
  | .importDec _ specs src => sizeL specs + size src
  | .importSpec _ _ _ loc id => size loc + size id
  | .exportDec _ _ _ dec specs src => size dec + sizeL specs + size src
  | .exportSpec _ _ loc id => size loc + size id
  | .chain e => size e
  | .jsxMember o prop => size o + size prop
  | .jsxElem opening children closing => size opening + sizeL children + size closing
  | .jsxOpen name attrs _ => size name + sizeL attrs
  | .jsxClose name => size name
  | .jsxExpr e => size e
  | .jsxAttr name val => size name + size val
  | .jsxSpreadAttr arg => size arg
  | .jsxSpreadChild e => size e
  | .identT _ _ annot decs targs => size annot + sizeL decs + size targs
  | .newT callee args targs => size callee + sizeL args + size targs
  | .callT callee args _ targs => size callee + sizeL args + size targs
  | .fnT _ id _ _ params body tparams ret => size id + sizeL params + size body + size tparams + size ret
  | .arrowT _ params body _ tparams ret => sizeL params + size body + size tparams + size ret
  | .arrPatT elems _ annot decs => sizeL elems + size annot + sizeL decs
  | .objPatT props _ annot decs => sizeL props + size annot + sizeL decs
  | .restPatT arg _ annot decs => size arg + size annot + sizeL decs
  | .methodT key _ _ _ val _ _ _ _ _ _ decs => size key + size val + sizeL decs
  | .fieldT key _ _ val _ _ _ _ _ _ _ annot decs => size key + size val + size annot + sizeL decs
  | .paramProp _ _ _ _ decs param => sizeL decs + size param
  | .jsxOpenT name attrs _ targs => size name + sizeL attrs + size targs
  | .tsProp key val _ _ _ _ => size key + size val
  | .tsDecFn id _ _ params body tparams ret => size id + sizeL params + size body + size tparams + size ret
  | .tsDecClass _ id tparams sup supArgs impls body _ decs => size id + size tparams + size sup + size supArgs + sizeL impls + size body + sizeL decs
  | .tsDecVar _ decs => sizeL decs
  | .tsItf id tparams exts body _ => size id + size tparams + sizeL exts + size body
  | .tsAlias id tparams typ _ => size id + size tparams + size typ
  | .tsImportRequire name _ args => size name + sizeL args + 1
  | .nsAlias id => size id
  | .idxSig _ _ _ _ _ _ key annot decs => size key + size annot + sizeL decs
  | .tsAnnot typ => size typ
  | .tsRef name args => size name + size args
  | .tsParamInst params => sizeL params
  | .tsParamDec params => sizeL params
  | .tsParam name cons deflt => size name + size cons + size deflt
  | .tsArr arg => size arg
  | .tsObj props => sizeL props
  | .tsCallSig params tparams ret => sizeL params + size tparams + size ret
  | .tsPredicate name typ _ => size name + size typ
  | .tsAssert e typ => size e + size typ
  | .tsNoNull e => size e
  | .tsUnion elems => sizeL elems
  | .tsIntersect elems => sizeL elems
  | .tsQName lhs rhs => size lhs + size rhs
  | .tsItfBody body => sizeL body
  | .tsEnum id members _ _ => size id + sizeL members
  | .tsEnumMember key val => size key + size val
  | .tsModule id body _ _ => size id + size body
  | .tsExportAssign e => size e
  | .tsLit lit => size lit
  | .tsImportAlias name val _ => size name + size val
  | .tsNewSig params tparams ret _ => sizeL params + size tparams + size ret
  | .tsNew params tparams ret _ => sizeL params + size tparams + size ret
  | .tsFnTyp params tparams ret => sizeL params + size tparams + size ret
  | .tsImportTyp arg qual args => size arg + size qual + size args
  | .tsQuery arg => size arg
  | .tsCond check ext yes no => size check + size ext + size yes + size no
  | .tsInfer arg => size arg
  | .tsParen arg => size arg
  | .tsIdxAccess o idx => size o + size idx
  | .tsMapped _ _ key name val => size key + size name + size val
  | .tsTypOp _ arg => size arg
  | .tsTuple elems => sizeL elems
  | .tsNamed _ label val => size label + size val
  | .tsRest arg => size arg
  | .tsOpt arg => size arg
  | .decorator e => size e
  | _ => 0
def sizeL : Nodes → Nat
  | .nil => 0
  | .cons n l => size n + sizeL l
end

/-- Nodes of a size up to `n` are read as they are. -/
def Ok (n m : Nat) : Prop := ∀ t, size t ≤ n → Made t → read m (convert t) = some (erase t)

theorem okL {n m : Nat} (ih : Ok n m) : ∀ l : Nodes, sizeL l ≤ n → MadeL l → readAll (read m) (convertL l) = some (eraseL l)
  | .nil, _, _ => rfl
  | .cons t l, hs, hm => by
    simp only [sizeL] at hs
    simp only [MadeL] at hm
    have h1 := ih t (by omega) hm.1
    have h2 := okL ih l (by omega) hm.2
    simp [convertL, eraseL, readAll, h1, h2]

theorem read_ob (m : Nat) (t : String) (r : Rng) (fs : List (String × J)) :
    read (m + 1) (ob t r fs) = readType (read m) t r (ob t r fs) := by
  simp [ob, read, text, range, J.get, look]

theorem get_ob (t : String) (r : Rng) (fs : List (String × J)) (k : String) :
    (ob t r fs).get k = look k (("type", .str t) :: ("start", .nat r.1) :: ("end", .nat r.2) :: fs) := rfl

theorem read_null (m : Nat) : read m .null = some .nil := by
  cases m <;> simp [read]

theorem convertT_eq {n : Node} (h : isTyp n = true) : convertT n = convert n := by
  cases n with
  | nil => simp [convertT, convert]
  | mk r k =>
    simp only [isTyp] at h
    simp [convertT, convert, h]

theorem convertTL_eq : ∀ {l : Nodes}, allTyp l = true → convertTL l = convertL l
  | .nil, _ => rfl
  | .cons n l, h => by
    simp only [allTyp, Bool.and_eq_true] at h
    simp [convertTL, convertL, convertT_eq h.1, convertTL_eq h.2]

theorem typParams_eq {n : Node} (h : ParamsOk n) : typParams n = convert n := by
  unfold ParamsOk at h
  split at h
  · simp [typParams, convert]
  · simp only [allTyp, Bool.and_eq_true] at h
    simp [typParams, convert, convertK, convertL, convertT_eq h.1, convertTL_eq h.2]
  · exact h.elim

theorem typArgs_eq {n : Node} (h : ArgsOk n) : typArgs n = convert n := by
  unfold ArgsOk at h
  split at h
  · simp [typArgs, convert]
  · simp only [allTyp, Bool.and_eq_true] at h
    simp [typArgs, convert, convertK, convertL, convertT_eq h.1, convertTL_eq h.2]
  · exact h.elim

theorem dec_eq (rng : Rng) (decs : Nodes) : locWithDecorator rng decs = afterDecs rng decs := by
  cases decs <;> rfl

theorem last_fold : ∀ (l : List Rng) (st : Option Rng × Rng), (st.1 = none ∧ st.2.2 = 0 ∨ st.1 = some st.2) →
    let q := l.foldl (fun (st : Option Rng × Rng) r =>
      if r = (0, 0) then st
      else if st.2.2 < r.2 || (r.2 == st.2.2 && st.2.1 < r.1) then (some r, r) else st) st
    (q.1 = none ∧ q.2.2 = 0 ∨ q.1 = some q.2) ∧ q.2.2 = l.foldl (fun m r => max m r.2) st.2.2
  | [], st, h => ⟨h, rfl⟩
  | r :: l, st, h => by
    simp only [List.foldl_cons]
    by_cases h0 : r = (0, 0)
    · have hm : max st.2.2 r.2 = st.2.2 := by rw [h0]; omega
      rw [if_pos h0, hm]
      exact last_fold l st h
    · rw [if_neg h0]
      by_cases h1 : (st.2.2 < r.2 || (r.2 == st.2.2 && st.2.1 < r.1)) = true
      · have hm : max st.2.2 r.2 = r.2 := by
          simp at h1
          omega
        rw [if_pos h1, hm]
        exact last_fold l (some r, r) (.inr rfl)
      · have hm : max st.2.2 r.2 = st.2.2 := by
          simp at h1
          omega
        rw [if_neg h1, hm]
        exact last_fold l st h

theorem foldl_max_le (l : List Rng) : ∀ a, a ≤ l.foldl (fun m r => max m r.2) a := by
  induction l with
  | nil => intro a; exact Nat.le_refl _
  | cons r l ih =>
    intro a
    have := ih (max a r.2)
    simp only [List.foldl_cons]
    omega

theorem lastLoc_hi (r : Rng) (l : List Rng) : (lastLoc (r :: l)).2 = (r :: l).foldl (fun m r => max m r.2) 0 := by
  have h := last_fold (r :: l) (none, (0, 0)) (.inl ⟨rfl, rfl⟩)
  obtain ⟨h1, h2⟩ := h
  simp only [lastLoc]
  rcases h1 with ⟨h1, h3⟩ | h1
  · rw [h1, ← h2, h3]
    have h4 := foldl_max_le l (max 0 r.2)
    rw [h3] at h2
    simp only [List.foldl_cons] at h2
    simp only [Option.getD_none, List.headD_cons]
    omega
  · rw [h1, Option.getD_some, h2]

theorem loc_hi (rng : Rng) (tparams : Node) (begin : List Rng) (ques : Option Rng) (annot : Node) :
    (locWithTypeInfo rng tparams begin ques annot).2 = endOf rng ques annot := by
  cases annot with
  | nil =>
    simp only [locWithTypeInfo, Node.isNil, if_true, List.nil_append, lastLoc_hi, List.foldl_cons, List.foldl_nil, endOf, Node.rng]
    omega
  | mk r k =>
    simp only [locWithTypeInfo, Node.isNil, Bool.false_eq_true, if_false, List.cons_append, List.nil_append, lastLoc_hi,
      List.foldl_cons, List.foldl_nil, endOf, Node.rng]
    omega

theorem first1 (r : Rng) : firstLoc [r] = r := by
  simp only [firstLoc, List.foldl_cons, List.foldl_nil]
  split
  · rfl
  · split <;> rfl

theorem real_ne {r : Rng} (h : Real r) : r ≠ (0, 0) := by
  intro h0
  rw [h0] at h
  exact absurd h.1 (by simp)

theorem first2 (a b : Rng) (ha : Real a) (hb : Real b) : (firstLoc [a, b]).1 = min a.1 b.1 := by
  simp only [firstLoc, List.foldl_cons, List.foldl_nil, if_neg (real_ne ha), if_neg (real_ne hb)]
  have h1 := ha.2
  have h2 : (decide (a.1 < 4294967295) || (a.1 == 4294967295 && decide (a.2 < 4294967295))) = true := by simp [h1]
  rw [if_pos h2]
  dsimp only
  split
  · rename_i h
    simp at h
    simp only [Option.getD_some]
    omega
  · rename_i h
    simp at h
    simp only [Option.getD_some]
    omega

theorem first20 (a : Rng) (ha : Real a) : (firstLoc [a, (0, 0)]).1 = a.1 := by
  simp only [firstLoc, List.foldl_cons, List.foldl_nil, if_neg (real_ne ha), if_true]
  have h1 := ha.2
  have h2 : (decide (a.1 < 4294967295) || (a.1 == 4294967295 && decide (a.2 < 4294967295))) = true := by simp [h1]
  rw [if_pos h2]
  rfl

theorem loc_plain (rng : Rng) (ques : Option Rng) (annot : Node) :
    locWithTypeInfo rng .nil [] ques annot = (rng.1, endOf rng ques annot) := by
  refine Prod.ext ?_ (loc_hi ..)
  simp [locWithTypeInfo, Node.isNil, first1]

theorem loc_arrow (rng : Rng) (tparams ret : Node) (h : Real rng) (ht : RealOr (rngOf tparams)) :
    locWithTypeInfo rng tparams [] none ret = (startOf rng (rngOf tparams), endOf rng none ret) := by
  refine Prod.ext ?_ (loc_hi ..)
  cases tparams with
  | nil => simp [locWithTypeInfo, Node.isNil, first1, rngOf, startOf]
  | mk r k =>
    simp only [rngOf, RealOr] at ht
    simp only [locWithTypeInfo, Node.isNil, Bool.false_eq_true, if_false, List.cons_append, List.nil_append, List.append_nil,
      Node.rng, first2 _ _ ht h, rngOf, startOf]
    omega

theorem loc_param (rng : Rng) (begin ques : Option Rng) (annot : Node) (h : Real rng) (hb : RealOr begin) :
    locWithTypeInfo rng .nil [begin.getD (0, 0)] ques annot = (startOf rng begin, endOf rng ques annot) := by
  refine Prod.ext ?_ (loc_hi ..)
  cases begin with
  | none =>
    simp only [locWithTypeInfo, Node.isNil, if_true, List.nil_append, List.cons_append, Option.getD_none, first20 _ h, startOf]
  | some r =>
    simp only [RealOr] at hb
    simp only [locWithTypeInfo, Node.isNil, if_true, List.nil_append, List.cons_append, Option.getD_some, first2 _ _ h hb, startOf]

theorem type_TSTypeAnnotation (d : Reader) (r : Rng) (j : J) : readType d "TSTypeAnnotation" r j = readTSTypeAnnotation d r j := by
  simp [readType, readTypeTs]
theorem type_TSTypeReference (d : Reader) (r : Rng) (j : J) : readType d "TSTypeReference" r j = readTSTypeReference d r j := by
  simp [readType, readTypeTs]
theorem type_TSTypeParameterInstantiation (d : Reader) (r : Rng) (j : J) : readType d "TSTypeParameterInstantiation" r j = readTSTypeParameterInstantiation d r j := by
  simp [readType, readTypeTs]
theorem type_TSTypeParameterDeclaration (d : Reader) (r : Rng) (j : J) : readType d "TSTypeParameterDeclaration" r j = readTSTypeParameterDeclaration d r j := by
  simp [readType, readTypeTs]
theorem type_TSTypeParameter (d : Reader) (r : Rng) (j : J) : readType d "TSTypeParameter" r j = readTSTypeParameter d r j := by
  simp [readType, readTypeTs]
theorem type_TSArrayType (d : Reader) (r : Rng) (j : J) : readType d "TSArrayType" r j = readTSArrayType d r j := by
  simp [readType, readTypeTs]
theorem type_TSTypeLiteral (d : Reader) (r : Rng) (j : J) : readType d "TSTypeLiteral" r j = readTSTypeLiteral d r j := by
  simp [readType, readTypeTs]
theorem type_TSCallSignatureDeclaration (d : Reader) (r : Rng) (j : J) : readType d "TSCallSignatureDeclaration" r j = readTSCallSignatureDeclaration d r j := by
  simp [readType, readTypeTs]
theorem type_TSTypePredicate (d : Reader) (r : Rng) (j : J) : readType d "TSTypePredicate" r j = readTSTypePredicate d r j := by
  simp [readType, readTypeTs]
theorem type_TSTypeAssertion (d : Reader) (r : Rng) (j : J) : readType d "TSTypeAssertion" r j = readTSTypeAssertion d r j := by
  simp [readType, readTypeTs]
theorem type_TSNonNullExpression (d : Reader) (r : Rng) (j : J) : readType d "TSNonNullExpression" r j = readTSNonNullExpression d r j := by
  simp [readType, readTypeTs]
theorem type_TSUnionType (d : Reader) (r : Rng) (j : J) : readType d "TSUnionType" r j = readTSUnionType d r j := by
  simp [readType, readTypeTs]
theorem type_TSIntersectionType (d : Reader) (r : Rng) (j : J) : readType d "TSIntersectionType" r j = readTSIntersectionType d r j := by
  simp [readType, readTypeTs]
theorem type_TSQualifiedName (d : Reader) (r : Rng) (j : J) : readType d "TSQualifiedName" r j = readTSQualifiedName d r j := by
  simp [readType, readTypeTs]
theorem type_TSInterfaceBody (d : Reader) (r : Rng) (j : J) : readType d "TSInterfaceBody" r j = readTSInterfaceBody d r j := by
  simp [readType, readTypeTs]
theorem type_TSEnumDeclaration (d : Reader) (r : Rng) (j : J) : readType d "TSEnumDeclaration" r j = readTSEnumDeclaration d r j := by
  simp [readType, readTypeTs]
theorem type_TSEnumMember (d : Reader) (r : Rng) (j : J) : readType d "TSEnumMember" r j = readTSEnumMember d r j := by
  simp [readType, readTypeTs]
theorem type_TSModuleDeclaration (d : Reader) (r : Rng) (j : J) : readType d "TSModuleDeclaration" r j = readTSModuleDeclaration d r j := by
  simp [readType, readTypeTs]
theorem type_TSExportAssignment (d : Reader) (r : Rng) (j : J) : readType d "TSExportAssignment" r j = readTSExportAssignment d r j := by
  simp [readType, readTypeTs]
theorem type_TSLiteralType (d : Reader) (r : Rng) (j : J) : readType d "TSLiteralType" r j = readTSLiteralType d r j := by
  simp [readType, readTypeTs]
theorem type_TSImportEqualsDeclaration (d : Reader) (r : Rng) (j : J) : readType d "TSImportEqualsDeclaration" r j = readTSImportEqualsDeclaration d r j := by
  simp [readType, readTypeTs]
theorem type_TSConstructSignatureDeclaration (d : Reader) (r : Rng) (j : J) : readType d "TSConstructSignatureDeclaration" r j = readTSConstructSignatureDeclaration d r j := by
  simp [readType, readTypeTs]
theorem type_TSConstructorType (d : Reader) (r : Rng) (j : J) : readType d "TSConstructorType" r j = readTSConstructorType d r j := by
  simp [readType, readTypeTs]
theorem type_TSFunctionType (d : Reader) (r : Rng) (j : J) : readType d "TSFunctionType" r j = readTSFunctionType d r j := by
  simp [readType, readTypeTs]
theorem type_TSImportType (d : Reader) (r : Rng) (j : J) : readType d "TSImportType" r j = readTSImportType d r j := by
  simp [readType, readTypeTs]
theorem type_TSTypeQuery (d : Reader) (r : Rng) (j : J) : readType d "TSTypeQuery" r j = readTSTypeQuery d r j := by
  simp [readType, readTypeTs]
theorem type_TSConditionalType (d : Reader) (r : Rng) (j : J) : readType d "TSConditionalType" r j = readTSConditionalType d r j := by
  simp [readType, readTypeTs]
theorem type_TSInferType (d : Reader) (r : Rng) (j : J) : readType d "TSInferType" r j = readTSInferType d r j := by
  simp [readType, readTypeTs]
theorem type_TSParenthesizedType (d : Reader) (r : Rng) (j : J) : readType d "TSParenthesizedType" r j = readTSParenthesizedType d r j := by
  simp [readType, readTypeTs]
theorem type_TSIndexedAccessType (d : Reader) (r : Rng) (j : J) : readType d "TSIndexedAccessType" r j = readTSIndexedAccessType d r j := by
  simp [readType, readTypeTs]
theorem type_TSMappedType (d : Reader) (r : Rng) (j : J) : readType d "TSMappedType" r j = readTSMappedType d r j := by
  simp [readType, readTypeTs]
theorem type_TSTypeOperator (d : Reader) (r : Rng) (j : J) : readType d "TSTypeOperator" r j = readTSTypeOperator d r j := by
  simp [readType, readTypeTs]
theorem type_TSTupleType (d : Reader) (r : Rng) (j : J) : readType d "TSTupleType" r j = readTSTupleType d r j := by
  simp [readType, readTypeTs]
theorem type_TSNamedTupleMember (d : Reader) (r : Rng) (j : J) : readType d "TSNamedTupleMember" r j = readTSNamedTupleMember d r j := by
  simp [readType, readTypeTs]
theorem type_TSRestType (d : Reader) (r : Rng) (j : J) : readType d "TSRestType" r j = readTSRestType d r j := by
  simp [readType, readTypeTs]
theorem type_TSOptionalType (d : Reader) (r : Rng) (j : J) : readType d "TSOptionalType" r j = readTSOptionalType d r j := by
  simp [readType, readTypeTs]
theorem type_Decorator (d : Reader) (r : Rng) (j : J) : readType d "Decorator" r j = readDecorator d r j := by
  simp [readType, readTypeTs]
theorem type_TSAsExpression (d : Reader) (r : Rng) (j : J) : readType d "TSAsExpression" r j = readTSAsExpression d r j := by
  simp [readType, readTypeTs]
theorem type_TSMethodSignature (d : Reader) (r : Rng) (j : J) : readType d "TSMethodSignature" r j = readTSMethodSignature d r j := by
  simp [readType, readTypeTs]
theorem type_TSPropertySignature (d : Reader) (r : Rng) (j : J) : readType d "TSPropertySignature" r j = readTSPropertySignature d r j := by
  simp [readType, readTypeTs]
theorem type_TSDeclareFunction (d : Reader) (r : Rng) (j : J) : readType d "TSDeclareFunction" r j = readTSDeclareFunction d r j := by
  simp [readType, readTypeTs]
theorem type_TSIndexSignature (d : Reader) (r : Rng) (j : J) : readType d "TSIndexSignature" r j = readTSIndexSignature d r j := by
  simp [readType, readTypeTs]
theorem type_TSParameterProperty (d : Reader) (r : Rng) (j : J) : readType d "TSParameterProperty" r j = readTSParameterProperty d r j := by
  simp [readType, readTypeTs]
theorem type_TSInterfaceDeclaration (d : Reader) (r : Rng) (j : J) : readType d "TSInterfaceDeclaration" r j = readTSInterfaceDeclaration d r j := by
  simp [readType, readTypeTs]
theorem type_TSExpressionWithTypeArguments (d : Reader) (r : Rng) (j : J) : readType d "TSExpressionWithTypeArguments" r j = readTSExpressionWithTypeArguments d r j := by
  simp [readType, readTypeTs]
theorem type_TSTypeAliasDeclaration (d : Reader) (r : Rng) (j : J) : readType d "TSTypeAliasDeclaration" r j = readTSTypeAliasDeclaration d r j := by
  simp [readType, readTypeTs]
theorem type_TSExternalModuleReference (d : Reader) (r : Rng) (j : J) : readType d "TSExternalModuleReference" r j = readTSExternalModuleReference d r j := by
  simp [readType, readTypeTs]
theorem type_TSNamespaceExportDeclaration (d : Reader) (r : Rng) (j : J) : readType d "TSNamespaceExportDeclaration" r j = readTSNamespaceExportDeclaration d r j := by
  simp [readType, readTypeTs]
theorem type_TSNumberKeyword (d : Reader) (r : Rng) (j : J) : readType d "TSNumberKeyword" r j = some (.mk r (.tsKw .num)) := by
  simp [readType, readTypeTs, keyword]
theorem type_TSStringKeyword (d : Reader) (r : Rng) (j : J) : readType d "TSStringKeyword" r j = some (.mk r (.tsKw .str)) := by
  simp [readType, readTypeTs, keyword]
theorem type_TSAnyKeyword (d : Reader) (r : Rng) (j : J) : readType d "TSAnyKeyword" r j = some (.mk r (.tsKw .any)) := by
  simp [readType, readTypeTs, keyword]
theorem type_TSBooleanKeyword (d : Reader) (r : Rng) (j : J) : readType d "TSBooleanKeyword" r j = some (.mk r (.tsKw .bool)) := by
  simp [readType, readTypeTs, keyword]
theorem type_TSVoidKeyword (d : Reader) (r : Rng) (j : J) : readType d "TSVoidKeyword" r j = some (.mk r (.tsKw .void)) := by
  simp [readType, readTypeTs, keyword]
theorem type_TSIntrinsicKeyword (d : Reader) (r : Rng) (j : J) : readType d "TSIntrinsicKeyword" r j = some (.mk r (.tsKw .intrinsic)) := by
  simp [readType, readTypeTs, keyword]
theorem type_TSNeverKeyword (d : Reader) (r : Rng) (j : J) : readType d "TSNeverKeyword" r j = some (.mk r (.tsKw .never)) := by
  simp [readType, readTypeTs, keyword]
theorem type_TSSymbolKeyword (d : Reader) (r : Rng) (j : J) : readType d "TSSymbolKeyword" r j = some (.mk r (.tsKw .sym)) := by
  simp [readType, readTypeTs, keyword]
theorem type_TSUndefinedKeyword (d : Reader) (r : Rng) (j : J) : readType d "TSUndefinedKeyword" r j = some (.mk r (.tsKw .undef)) := by
  simp [readType, readTypeTs, keyword]
theorem type_TSBigIntKeyword (d : Reader) (r : Rng) (j : J) : readType d "TSBigIntKeyword" r j = some (.mk r (.tsKw .bigint)) := by
  simp [readType, readTypeTs, keyword]
theorem type_TSNullKeyword (d : Reader) (r : Rng) (j : J) : readType d "TSNullKeyword" r j = some (.mk r (.tsKw .null)) := by
  simp [readType, readTypeTs, keyword]
theorem type_TSThisType (d : Reader) (r : Rng) (j : J) : readType d "TSThisType" r j = some (.mk r (.tsKw .this)) := by
  simp [readType, readTypeTs, keyword]
theorem type_TSUnknownKeyword (d : Reader) (r : Rng) (j : J) : readType d "TSUnknownKeyword" r j = some (.mk r (.tsKw .unknown)) := by
  simp [readType, readTypeTs, keyword]
theorem type_TSObjectKeyword (d : Reader) (r : Rng) (j : J) : readType d "TSObjectKeyword" r j = some (.mk r (.tsKw .obj)) := by
  simp [readType, readTypeTs, keyword]

theorem type_ExpressionStatement (d : Reader) (r : Rng) (j : J) : readType d "ExpressionStatement" r j = readExpressionStatement d r j := by
  simp [readType]
theorem type_Literal (d : Reader) (r : Rng) (j : J) : readType d "Literal" r j = readLiteral d r j := by
  simp [readType]
theorem type_BinaryExpression (d : Reader) (r : Rng) (j : J) : readType d "BinaryExpression" r j = readBinaryExpression d r j := by
  simp [readType]
theorem type_LogicalExpression (d : Reader) (r : Rng) (j : J) : readType d "LogicalExpression" r j = readLogicalExpression d r j := by
  simp [readType]
theorem type_UnaryExpression (d : Reader) (r : Rng) (j : J) : readType d "UnaryExpression" r j = readUnaryExpression d r j := by
  simp [readType]
theorem type_TemplateLiteral (d : Reader) (r : Rng) (j : J) : readType d "TemplateLiteral" r j = readTemplateLiteral d r j := by
  simp [readType]
theorem type_ArrayExpression (d : Reader) (r : Rng) (j : J) : readType d "ArrayExpression" r j = readArrayExpression d r j := by
  simp [readType]
theorem type_SpreadElement (d : Reader) (r : Rng) (j : J) : readType d "SpreadElement" r j = readSpreadElement d r j := by
  simp [readType]
theorem type_ObjectExpression (d : Reader) (r : Rng) (j : J) : readType d "ObjectExpression" r j = readObjectExpression d r j := by
  simp [readType]
theorem type_Identifier (d : Reader) (r : Rng) (j : J) : readType d "Identifier" r j = readIdentifier d r j := by
  simp [readType]
theorem type_PrivateIdentifier (d : Reader) (r : Rng) (j : J) : readType d "PrivateIdentifier" r j = readPrivateIdentifier d r j := by
  simp [readType]
theorem type_NewExpression (d : Reader) (r : Rng) (j : J) : readType d "NewExpression" r j = readNewExpression d r j := by
  simp [readType]
theorem type_MemberExpression (d : Reader) (r : Rng) (j : J) : readType d "MemberExpression" r j = readMemberExpression d r j := by
  simp [readType]
theorem type_CallExpression (d : Reader) (r : Rng) (j : J) : readType d "CallExpression" r j = readCallExpression d r j := by
  simp [readType]
theorem type_UpdateExpression (d : Reader) (r : Rng) (j : J) : readType d "UpdateExpression" r j = readUpdateExpression d r j := by
  simp [readType]
theorem type_AwaitExpression (d : Reader) (r : Rng) (j : J) : readType d "AwaitExpression" r j = readAwaitExpression d r j := by
  simp [readType]
theorem type_ConditionalExpression (d : Reader) (r : Rng) (j : J) : readType d "ConditionalExpression" r j = readConditionalExpression d r j := by
  simp [readType]
theorem type_AssignmentExpression (d : Reader) (r : Rng) (j : J) : readType d "AssignmentExpression" r j = readAssignmentExpression d r j := by
  simp [readType]
theorem type_ThisExpression (d : Reader) (r : Rng) (j : J) : readType d "ThisExpression" r j = readThisExpression d r j := by
  simp [readType]
theorem type_SequenceExpression (d : Reader) (r : Rng) (j : J) : readType d "SequenceExpression" r j = readSequenceExpression d r j := by
  simp [readType]
theorem type_Super (d : Reader) (r : Rng) (j : J) : readType d "Super" r j = readSuper d r j := by
  simp [readType]
theorem type_ImportExpression (d : Reader) (r : Rng) (j : J) : readType d "ImportExpression" r j = readImportExpression d r j := by
  simp [readType]
theorem type_YieldExpression (d : Reader) (r : Rng) (j : J) : readType d "YieldExpression" r j = readYieldExpression d r j := by
  simp [readType]
theorem type_ArrayPattern (d : Reader) (r : Rng) (j : J) : readType d "ArrayPattern" r j = readArrayPattern d r j := by
  simp [readType]
theorem type_AssignmentPattern (d : Reader) (r : Rng) (j : J) : readType d "AssignmentPattern" r j = readAssignmentPattern d r j := by
  simp [readType]
theorem type_RestElement (d : Reader) (r : Rng) (j : J) : readType d "RestElement" r j = readRestElement d r j := by
  simp [readType]
theorem type_ObjectPattern (d : Reader) (r : Rng) (j : J) : readType d "ObjectPattern" r j = readObjectPattern d r j := by
  simp [readType]
theorem type_Property (d : Reader) (r : Rng) (j : J) : readType d "Property" r j = readProperty d r j := by
  simp [readType]
theorem type_FunctionDeclaration (d : Reader) (r : Rng) (j : J) : readType d "FunctionDeclaration" r j = readFunctionDeclaration d r j := by
  simp [readType]
theorem type_FunctionExpression (d : Reader) (r : Rng) (j : J) : readType d "FunctionExpression" r j = readFunctionExpression d r j := by
  simp [readType]
theorem type_ArrowFunctionExpression (d : Reader) (r : Rng) (j : J) : readType d "ArrowFunctionExpression" r j = readArrowFunctionExpression d r j := by
  simp [readType]
theorem type_VariableDeclaration (d : Reader) (r : Rng) (j : J) : readType d "VariableDeclaration" r j = readVariableDeclaration d r j := by
  simp [readType]
theorem type_VariableDeclarator (d : Reader) (r : Rng) (j : J) : readType d "VariableDeclarator" r j = readVariableDeclarator d r j := by
  simp [readType]
theorem type_BlockStatement (d : Reader) (r : Rng) (j : J) : readType d "BlockStatement" r j = readBlockStatement d r j := by
  simp [readType]
theorem type_EmptyStatement (d : Reader) (r : Rng) (j : J) : readType d "EmptyStatement" r j = readEmptyStatement d r j := by
  simp [readType]
theorem type_DoWhileStatement (d : Reader) (r : Rng) (j : J) : readType d "DoWhileStatement" r j = readDoWhileStatement d r j := by
  simp [readType]
theorem type_WhileStatement (d : Reader) (r : Rng) (j : J) : readType d "WhileStatement" r j = readWhileStatement d r j := by
  simp [readType]
theorem type_ForStatement (d : Reader) (r : Rng) (j : J) : readType d "ForStatement" r j = readForStatement d r j := by
  simp [readType]
theorem type_ForInStatement (d : Reader) (r : Rng) (j : J) : readType d "ForInStatement" r j = readForInStatement d r j := by
  simp [readType]
theorem type_ForOfStatement (d : Reader) (r : Rng) (j : J) : readType d "ForOfStatement" r j = readForOfStatement d r j := by
  simp [readType]
theorem type_IfStatement (d : Reader) (r : Rng) (j : J) : readType d "IfStatement" r j = readIfStatement d r j := by
  simp [readType]
theorem type_SwitchStatement (d : Reader) (r : Rng) (j : J) : readType d "SwitchStatement" r j = readSwitchStatement d r j := by
  simp [readType]
theorem type_SwitchCase (d : Reader) (r : Rng) (j : J) : readType d "SwitchCase" r j = readSwitchCase d r j := by
  simp [readType]
theorem type_BreakStatement (d : Reader) (r : Rng) (j : J) : readType d "BreakStatement" r j = readBreakStatement d r j := by
  simp [readType]
theorem type_ContinueStatement (d : Reader) (r : Rng) (j : J) : readType d "ContinueStatement" r j = readContinueStatement d r j := by
  simp [readType]
theorem type_LabeledStatement (d : Reader) (r : Rng) (j : J) : readType d "LabeledStatement" r j = readLabeledStatement d r j := by
  simp [readType]
theorem type_ReturnStatement (d : Reader) (r : Rng) (j : J) : readType d "ReturnStatement" r j = readReturnStatement d r j := by
  simp [readType]
theorem type_ThrowStatement (d : Reader) (r : Rng) (j : J) : readType d "ThrowStatement" r j = readThrowStatement d r j := by
  simp [readType]
theorem type_CatchClause (d : Reader) (r : Rng) (j : J) : readType d "CatchClause" r j = readCatchClause d r j := by
  simp [readType]
theorem type_TryStatement (d : Reader) (r : Rng) (j : J) : readType d "TryStatement" r j = readTryStatement d r j := by
  simp [readType]
theorem type_DebuggerStatement (d : Reader) (r : Rng) (j : J) : readType d "DebuggerStatement" r j = readDebuggerStatement d r j := by
  simp [readType]
theorem type_WithStatement (d : Reader) (r : Rng) (j : J) : readType d "WithStatement" r j = readWithStatement d r j := by
  simp [readType]
theorem type_ClassDeclaration (d : Reader) (r : Rng) (j : J) : readType d "ClassDeclaration" r j = readClassDeclaration d r j := by
  simp [readType]
theorem type_ClassExpression (d : Reader) (r : Rng) (j : J) : readType d "ClassExpression" r j = readClassExpression d r j := by
  simp [readType]
theorem type_ClassBody (d : Reader) (r : Rng) (j : J) : readType d "ClassBody" r j = readClassBody d r j := by
  simp [readType]
theorem type_MethodDefinition (d : Reader) (r : Rng) (j : J) : readType d "MethodDefinition" r j = readMethodDefinition d r j := by
  simp [readType]
theorem type_PropertyDefinition (d : Reader) (r : Rng) (j : J) : readType d "PropertyDefinition" r j = readPropertyDefinition d r j := by
  simp [readType]
theorem type_StaticBlock (d : Reader) (r : Rng) (j : J) : readType d "StaticBlock" r j = readStaticBlock d r j := by
  simp [readType]
theorem type_MetaProperty (d : Reader) (r : Rng) (j : J) : readType d "MetaProperty" r j = readMetaProperty d r j := by
  simp [readType]
theorem type_ImportDeclaration (d : Reader) (r : Rng) (j : J) : readType d "ImportDeclaration" r j = readImportDeclaration d r j := by
  simp [readType]
theorem type_ImportDefaultSpecifier (d : Reader) (r : Rng) (j : J) : readType d "ImportDefaultSpecifier" r j = readImportDefaultSpecifier d r j := by
  simp [readType]
theorem type_ImportNamespaceSpecifier (d : Reader) (r : Rng) (j : J) : readType d "ImportNamespaceSpecifier" r j = readImportNamespaceSpecifier d r j := by
  simp [readType]
theorem type_ImportSpecifier (d : Reader) (r : Rng) (j : J) : readType d "ImportSpecifier" r j = readImportSpecifier d r j := by
  simp [readType]
theorem type_ExportNamedDeclaration (d : Reader) (r : Rng) (j : J) : readType d "ExportNamedDeclaration" r j = readExportNamedDeclaration d r j := by
  simp [readType]
theorem type_ExportDefaultDeclaration (d : Reader) (r : Rng) (j : J) : readType d "ExportDefaultDeclaration" r j = readExportDefaultDeclaration d r j := by
  simp [readType]
theorem type_ExportAllDeclaration (d : Reader) (r : Rng) (j : J) : readType d "ExportAllDeclaration" r j = readExportAllDeclaration d r j := by
  simp [readType]
theorem type_ExportSpecifier (d : Reader) (r : Rng) (j : J) : readType d "ExportSpecifier" r j = readExportSpecifier d r j := by
  simp [readType]
theorem type_ChainExpression (d : Reader) (r : Rng) (j : J) : readType d "ChainExpression" r j = readChainExpression d r j := by
  simp [readType]
theorem type_JSXIdentifier (d : Reader) (r : Rng) (j : J) : readType d "JSXIdentifier" r j = readJSXIdentifier d r j := by
  simp [readType]
theorem type_JSXNamespacedName (d : Reader) (r : Rng) (j : J) : readType d "JSXNamespacedName" r j = readJSXNamespacedName d r j := by
  simp [readType]
theorem type_JSXMemberExpression (d : Reader) (r : Rng) (j : J) : readType d "JSXMemberExpression" r j = readJSXMemberExpression d r j := by
  simp [readType]
theorem type_JSXElement (d : Reader) (r : Rng) (j : J) : readType d "JSXElement" r j = readJSXElement d r j := by
  simp [readType]
theorem type_JSXFragment (d : Reader) (r : Rng) (j : J) : readType d "JSXFragment" r j = readJSXFragment d r j := by
  simp [readType]
theorem type_JSXOpeningElement (d : Reader) (r : Rng) (j : J) : readType d "JSXOpeningElement" r j = readJSXOpeningElement d r j := by
  simp [readType]
theorem type_JSXClosingElement (d : Reader) (r : Rng) (j : J) : readType d "JSXClosingElement" r j = readJSXClosingElement d r j := by
  simp [readType]
theorem type_JSXText (d : Reader) (r : Rng) (j : J) : readType d "JSXText" r j = readJSXText d r j := by
  simp [readType]
theorem type_JSXExpressionContainer (d : Reader) (r : Rng) (j : J) : readType d "JSXExpressionContainer" r j = readJSXExpressionContainer d r j := by
  simp [readType]
theorem type_JSXAttribute (d : Reader) (r : Rng) (j : J) : readType d "JSXAttribute" r j = readJSXAttribute d r j := by
  simp [readType]
theorem type_JSXSpreadAttribute (d : Reader) (r : Rng) (j : J) : readType d "JSXSpreadAttribute" r j = readJSXSpreadAttribute d r j := by
  simp [readType]
theorem type_JSXSpreadChild (d : Reader) (r : Rng) (j : J) : readType d "JSXSpreadChild" r j = readJSXSpreadChild d r j := by
  simp [readType]
theorem type_JSXEmptyExpression (d : Reader) (r : Rng) (j : J) : readType d "JSXEmptyExpression" r j = readJSXEmptyExpression d r j := by
  simp [readType]
theorem type_TaggedTemplateExpression (d : Reader) (r : Rng) (j : J) : readType d "TaggedTemplateExpression" r j = readTaggedTemplateExpression d r j := by
  simp [readType]

theorem rt_exprStmt {n m : Nat} (ih : Ok n m) (rng : Rng) (e : Node) (dir : Bool) (hs : sizeK (.exprStmt e dir) ≤ n)
    (ho : Own rng (.exprStmt e dir)) (hm : MadeK (.exprStmt e dir)) : read (m + 1) (convertK rng (.exprStmt e dir)) = some (eraseK rng (.exprStmt e dir)) := by
  simp only [sizeK] at hs
  simp only [MadeK] at hm
  have h0 := ih e (by omega) hm
  simp only [Own] at ho
  cases dir
  all_goals first | obtain ⟨r, raw, rfl⟩ := ho rfl | skip
  all_goals generalize hc : convert _ = c at h0
  all_goals simp [convertK, read_ob, type_ExpressionStatement, readExpressionStatement, get_ob, look, node, nodes, list, text, bool, boolOr, nodeOr, nodesOr, kindOf, kindText, eraseK, h0, directiveText, strVal, hc, erase]

theorem rt_empty {n m : Nat} (ih : Ok n m) (rng : Rng) (hs : sizeK (.empty) ≤ n)
    (ho : Own rng (.empty)) (hm : MadeK (.empty)) : read (m + 1) (convertK rng (.empty)) = some (eraseK rng (.empty)) := by
  simp [convertK, read_ob, type_EmptyStatement, readEmptyStatement, get_ob, look, node, nodes, list, text, bool, boolOr, nodeOr, nodesOr, kindOf, kindText, eraseK]

theorem rt_null {n m : Nat} (ih : Ok n m) (rng : Rng) (hs : sizeK (.null) ≤ n)
    (ho : Own rng (.null)) (hm : MadeK (.null)) : read (m + 1) (convertK rng (.null)) = some (eraseK rng (.null)) := by
  simp [convertK, read_ob, type_Literal, readLiteral, get_ob, look, node, nodes, list, text, bool, boolOr, nodeOr, nodesOr, kindOf, kindText, eraseK]

theorem rt_bool {n m : Nat} (ih : Ok n m) (rng : Rng) (b : Bool) (hs : sizeK (.bool b) ≤ n)
    (ho : Own rng (.bool b)) (hm : MadeK (.bool b)) : read (m + 1) (convertK rng (.bool b)) = some (eraseK rng (.bool b)) := by
  simp [convertK, read_ob, type_Literal, readLiteral, get_ob, look, node, nodes, list, text, bool, boolOr, nodeOr, nodesOr, kindOf, kindText, eraseK]

theorem rt_num {n m : Nat} (ih : Ok n m) (rng : Rng) (raw : String) (hs : sizeK (.num raw) ≤ n)
    (ho : Own rng (.num raw)) (hm : MadeK (.num raw)) : read (m + 1) (convertK rng (.num raw)) = some (eraseK rng (.num raw)) := by
  by_cases hb : raw.toList.getLast? = some 'n'
  all_goals simp [convertK, read_ob, type_Literal, readLiteral, get_ob, look, node, nodes, list, text, bool, boolOr, nodeOr, nodesOr, kindOf, kindText, eraseK, hb, isBig]

theorem rt_str {n m : Nat} (ih : Ok n m) (rng : Rng) (val : String) (raw : String) (hs : sizeK (.str val raw) ≤ n)
    (ho : Own rng (.str val raw)) (hm : MadeK (.str val raw)) : read (m + 1) (convertK rng (.str val raw)) = some (eraseK rng (.str val raw)) := by
  simp [convertK, read_ob, type_Literal, readLiteral, get_ob, look, node, nodes, list, text, bool, boolOr, nodeOr, nodesOr, kindOf, kindText, eraseK]

theorem rt_arr {n m : Nat} (ih : Ok n m) (rng : Rng) (elems : Nodes) (hs : sizeK (.arr elems) ≤ n)
    (ho : Own rng (.arr elems)) (hm : MadeK (.arr elems)) : read (m + 1) (convertK rng (.arr elems)) = some (eraseK rng (.arr elems)) := by
  simp only [sizeK] at hs
  simp only [MadeK] at hm
  have h0 := okL ih elems (by omega) hm
  simp [convertK, read_ob, type_ArrayExpression, readArrayExpression, get_ob, look, node, nodes, list, text, bool, boolOr, nodeOr, nodesOr, kindOf, kindText, eraseK, h0]

theorem rt_spread {n m : Nat} (ih : Ok n m) (rng : Rng) (arg : Node) (hs : sizeK (.spread arg) ≤ n)
    (ho : Own rng (.spread arg)) (hm : MadeK (.spread arg)) : read (m + 1) (convertK rng (.spread arg)) = some (eraseK rng (.spread arg)) := by
  simp only [sizeK] at hs
  simp only [MadeK] at hm
  have h0 := ih arg (by omega) hm
  simp [convertK, read_ob, type_SpreadElement, readSpreadElement, get_ob, look, node, nodes, list, text, bool, boolOr, nodeOr, nodesOr, kindOf, kindText, eraseK, h0]

theorem rt_obj {n m : Nat} (ih : Ok n m) (rng : Rng) (props : Nodes) (hs : sizeK (.obj props) ≤ n)
    (ho : Own rng (.obj props)) (hm : MadeK (.obj props)) : read (m + 1) (convertK rng (.obj props)) = some (eraseK rng (.obj props)) := by
  simp only [sizeK] at hs
  simp only [MadeK] at hm
  have h0 := okL ih props (by omega) hm
  simp [convertK, read_ob, type_ObjectExpression, readObjectExpression, get_ob, look, node, nodes, list, text, bool, boolOr, nodeOr, nodesOr, kindOf, kindText, eraseK, h0]

theorem rt_ident {n m : Nat} (ih : Ok n m) (rng : Rng) (name : String) (pvt : Bool) (hs : sizeK (.ident name pvt) ≤ n)
    (ho : Own rng (.ident name pvt)) (hm : MadeK (.ident name pvt)) : read (m + 1) (convertK rng (.ident name pvt)) = some (eraseK rng (.ident name pvt)) := by
  cases pvt
  all_goals simp [convertK, read_ob, type_Identifier, type_PrivateIdentifier, readIdentifier, readPrivateIdentifier, get_ob, look, node, nodes, list, text, bool, boolOr, nodeOr, nodesOr, kindOf, kindText, eraseK]

theorem rt_new {n m : Nat} (ih : Ok n m) (rng : Rng) (callee : Node) (args : Nodes) (hs : sizeK (.new callee args) ≤ n)
    (ho : Own rng (.new callee args)) (hm : MadeK (.new callee args)) : read (m + 1) (convertK rng (.new callee args)) = some (eraseK rng (.new callee args)) := by
  simp only [sizeK] at hs
  simp only [MadeK] at hm
  have h0 := ih callee (by omega) hm.1
  have h1 := okL ih args (by omega) hm.2
  simp [convertK, read_ob, type_NewExpression, readNewExpression, get_ob, look, node, nodes, list, text, bool, boolOr, nodeOr, nodesOr, kindOf, kindText, eraseK, h0, h1]

theorem rt_member {n m : Nat} (ih : Ok n m) (rng : Rng) (o : Node) (prop : Node) (computed : Bool) (optional : Bool) (hs : sizeK (.member o prop computed optional) ≤ n)
    (ho : Own rng (.member o prop computed optional)) (hm : MadeK (.member o prop computed optional)) : read (m + 1) (convertK rng (.member o prop computed optional)) = some (eraseK rng (.member o prop computed optional)) := by
  simp only [sizeK] at hs
  simp only [MadeK] at hm
  have h0 := ih o (by omega) hm.1
  have h1 := ih prop (by omega) hm.2
  simp [convertK, read_ob, type_MemberExpression, readMemberExpression, get_ob, look, node, nodes, list, text, bool, boolOr, nodeOr, nodesOr, kindOf, kindText, eraseK, h0, h1]

theorem rt_call {n m : Nat} (ih : Ok n m) (rng : Rng) (callee : Node) (args : Nodes) (optional : Bool) (hs : sizeK (.call callee args optional) ≤ n)
    (ho : Own rng (.call callee args optional)) (hm : MadeK (.call callee args optional)) : read (m + 1) (convertK rng (.call callee args optional)) = some (eraseK rng (.call callee args optional)) := by
  simp only [sizeK] at hs
  simp only [MadeK] at hm
  have h0 := ih callee (by omega) hm.1
  have h1 := okL ih args (by omega) hm.2
  simp [convertK, read_ob, type_CallExpression, readCallExpression, get_ob, look, node, nodes, list, text, bool, boolOr, nodeOr, nodesOr, kindOf, kindText, eraseK, h0, h1]

theorem rt_bin {n m : Nat} (ih : Ok n m) (rng : Rng) (op : String) (l : Node) (r : Node) (hs : sizeK (.bin op l r) ≤ n)
    (ho : Own rng (.bin op l r)) (hm : MadeK (.bin op l r)) : read (m + 1) (convertK rng (.bin op l r)) = some (eraseK rng (.bin op l r)) := by
  simp only [sizeK] at hs
  simp only [MadeK] at hm
  have h0 := ih l (by omega) hm.1
  have h1 := ih r (by omega) hm.2
  by_cases has : op = "as"
  · subst has
    simp [convertK, read_ob, type_TSAsExpression, readTSAsExpression, get_ob, look, node, eraseK, h0, h1]
  by_cases hop : op = "&&" ∨ op = "||" ∨ op = "??"
  all_goals simp [convertK, read_ob, type_BinaryExpression, type_LogicalExpression, readBinaryExpression, readLogicalExpression, get_ob, look, node, nodes, list, text, bool, boolOr, nodeOr, nodesOr, kindOf, kindText, eraseK, h0, h1, hop, has, or_assoc]

theorem rt_unary {n m : Nat} (ih : Ok n m) (rng : Rng) (op : String) (arg : Node) (hs : sizeK (.unary op arg) ≤ n)
    (ho : Own rng (.unary op arg)) (hm : MadeK (.unary op arg)) : read (m + 1) (convertK rng (.unary op arg)) = some (eraseK rng (.unary op arg)) := by
  simp only [sizeK] at hs
  simp only [MadeK] at hm
  have h0 := ih arg (by omega) hm
  by_cases hop : op = "await"
  all_goals simp [convertK, read_ob, type_UnaryExpression, type_AwaitExpression, readUnaryExpression, readAwaitExpression, get_ob, look, node, nodes, list, text, bool, boolOr, nodeOr, nodesOr, kindOf, kindText, eraseK, h0, hop]

theorem rt_update {n m : Nat} (ih : Ok n m) (rng : Rng) (op : String) («prefix» : Bool) (arg : Node) (hs : sizeK (.update op «prefix» arg) ≤ n)
    (ho : Own rng (.update op «prefix» arg)) (hm : MadeK (.update op «prefix» arg)) : read (m + 1) (convertK rng (.update op «prefix» arg)) = some (eraseK rng (.update op «prefix» arg)) := by
  simp only [sizeK] at hs
  simp only [MadeK] at hm
  have h0 := ih arg (by omega) hm
  simp [convertK, read_ob, type_UpdateExpression, readUpdateExpression, get_ob, look, node, nodes, list, text, bool, boolOr, nodeOr, nodesOr, kindOf, kindText, eraseK, h0]

theorem rt_cond {n m : Nat} (ih : Ok n m) (rng : Rng) (test : Node) (cons : Node) (alt : Node) (hs : sizeK (.cond test cons alt) ≤ n)
    (ho : Own rng (.cond test cons alt)) (hm : MadeK (.cond test cons alt)) : read (m + 1) (convertK rng (.cond test cons alt)) = some (eraseK rng (.cond test cons alt)) := by
  simp only [sizeK] at hs
  simp only [MadeK] at hm
  have h0 := ih test (by omega) hm.1
  have h1 := ih cons (by omega) hm.2.1
  have h2 := ih alt (by omega) hm.2.2
  simp [convertK, read_ob, type_ConditionalExpression, readConditionalExpression, get_ob, look, node, nodes, list, text, bool, boolOr, nodeOr, nodesOr, kindOf, kindText, eraseK, h0, h1, h2]

theorem rt_assign {n m : Nat} (ih : Ok n m) (rng : Rng) (op : String) (l : Node) (r : Node) (hs : sizeK (.assign op l r) ≤ n)
    (ho : Own rng (.assign op l r)) (hm : MadeK (.assign op l r)) : read (m + 1) (convertK rng (.assign op l r)) = some (eraseK rng (.assign op l r)) := by
  simp only [sizeK] at hs
  simp only [MadeK] at hm
  have h0 := ih l (by omega) hm.1
  have h1 := ih r (by omega) hm.2
  simp [convertK, read_ob, type_AssignmentExpression, readAssignmentExpression, get_ob, look, node, nodes, list, text, bool, boolOr, nodeOr, nodesOr, kindOf, kindText, eraseK, h0, h1]

theorem rt_this {n m : Nat} (ih : Ok n m) (rng : Rng) (hs : sizeK (.this) ≤ n)
    (ho : Own rng (.this)) (hm : MadeK (.this)) : read (m + 1) (convertK rng (.this)) = some (eraseK rng (.this)) := by
  simp [convertK, read_ob, type_ThisExpression, readThisExpression, get_ob, look, node, nodes, list, text, bool, boolOr, nodeOr, nodesOr, kindOf, kindText, eraseK]

theorem rt_seq {n m : Nat} (ih : Ok n m) (rng : Rng) (elems : Nodes) (hs : sizeK (.seq elems) ≤ n)
    (ho : Own rng (.seq elems)) (hm : MadeK (.seq elems)) : read (m + 1) (convertK rng (.seq elems)) = some (eraseK rng (.seq elems)) := by
  simp only [sizeK] at hs
  simp only [MadeK] at hm
  have h0 := okL ih elems (by omega) hm
  simp [convertK, read_ob, type_SequenceExpression, readSequenceExpression, get_ob, look, node, nodes, list, text, bool, boolOr, nodeOr, nodesOr, kindOf, kindText, eraseK, h0]

theorem rt_super {n m : Nat} (ih : Ok n m) (rng : Rng) (hs : sizeK (.super) ≤ n)
    (ho : Own rng (.super)) (hm : MadeK (.super)) : read (m + 1) (convertK rng (.super)) = some (eraseK rng (.super)) := by
  simp [convertK, read_ob, type_Super, readSuper, get_ob, look, node, nodes, list, text, bool, boolOr, nodeOr, nodesOr, kindOf, kindText, eraseK]

theorem rt_importCall {n m : Nat} (ih : Ok n m) (rng : Rng) (src : Node) (hs : sizeK (.importCall src) ≤ n)
    (ho : Own rng (.importCall src)) (hm : MadeK (.importCall src)) : read (m + 1) (convertK rng (.importCall src)) = some (eraseK rng (.importCall src)) := by
  simp only [sizeK] at hs
  simp only [MadeK] at hm
  have h0 := ih src (by omega) hm
  simp [convertK, read_ob, type_ImportExpression, readImportExpression, get_ob, look, node, nodes, list, text, bool, boolOr, nodeOr, nodesOr, kindOf, kindText, eraseK, h0]

theorem rt_yield {n m : Nat} (ih : Ok n m) (rng : Rng) (delegate : Bool) (arg : Node) (hs : sizeK (.«yield» delegate arg) ≤ n)
    (ho : Own rng (.«yield» delegate arg)) (hm : MadeK (.«yield» delegate arg)) : read (m + 1) (convertK rng (.«yield» delegate arg)) = some (eraseK rng (.«yield» delegate arg)) := by
  simp only [sizeK] at hs
  simp only [MadeK] at hm
  have h0 := ih arg (by omega) hm
  simp [convertK, read_ob, type_YieldExpression, readYieldExpression, get_ob, look, node, nodes, list, text, bool, boolOr, nodeOr, nodesOr, kindOf, kindText, eraseK, h0]

theorem rt_arrPat {n m : Nat} (ih : Ok n m) (rng : Rng) (elems : Nodes) (hs : sizeK (.arrPat elems) ≤ n)
    (ho : Own rng (.arrPat elems)) (hm : MadeK (.arrPat elems)) : read (m + 1) (convertK rng (.arrPat elems)) = some (eraseK rng (.arrPat elems)) := by
  simp only [sizeK] at hs
  simp only [MadeK] at hm
  have h0 := okL ih elems (by omega) hm
  simp [convertK, read_ob, type_ArrayPattern, readArrayPattern, get_ob, look, node, nodes, list, text, bool, boolOr, nodeOr, nodesOr, kindOf, kindText, eraseK, h0]

theorem rt_assignPat {n m : Nat} (ih : Ok n m) (rng : Rng) (l : Node) (r : Node) (hs : sizeK (.assignPat l r) ≤ n)
    (ho : Own rng (.assignPat l r)) (hm : MadeK (.assignPat l r)) : read (m + 1) (convertK rng (.assignPat l r)) = some (eraseK rng (.assignPat l r)) := by
  simp only [sizeK] at hs
  simp only [MadeK] at hm
  have h0 := ih l (by omega) hm.1
  have h1 := ih r (by omega) hm.2
  simp [convertK, read_ob, type_AssignmentPattern, readAssignmentPattern, get_ob, look, node, nodes, list, text, bool, boolOr, nodeOr, nodesOr, kindOf, kindText, eraseK, h0, h1]

theorem rt_restPat {n m : Nat} (ih : Ok n m) (rng : Rng) (arg : Node) (hs : sizeK (.restPat arg) ≤ n)
    (ho : Own rng (.restPat arg)) (hm : MadeK (.restPat arg)) : read (m + 1) (convertK rng (.restPat arg)) = some (eraseK rng (.restPat arg)) := by
  simp only [sizeK] at hs
  simp only [MadeK] at hm
  have h0 := ih arg (by omega) hm
  simp [convertK, read_ob, type_RestElement, readRestElement, get_ob, look, node, nodes, list, text, bool, boolOr, nodeOr, nodesOr, kindOf, kindText, eraseK, h0]

theorem rt_objPat {n m : Nat} (ih : Ok n m) (rng : Rng) (props : Nodes) (hs : sizeK (.objPat props) ≤ n)
    (ho : Own rng (.objPat props)) (hm : MadeK (.objPat props)) : read (m + 1) (convertK rng (.objPat props)) = some (eraseK rng (.objPat props)) := by
  simp only [sizeK] at hs
  simp only [MadeK] at hm
  have h0 := okL ih props (by omega) hm
  simp [convertK, read_ob, type_ObjectPattern, readObjectPattern, get_ob, look, node, nodes, list, text, bool, boolOr, nodeOr, nodesOr, kindOf, kindText, eraseK, h0]

theorem rt_prop {n m : Nat} (ih : Ok n m) (rng : Rng) (key : Node) (val : Node) (computed : Bool) (method : Bool) (shorthand : Bool) (kind : PropKind) (hs : sizeK (.prop key val computed method shorthand kind) ≤ n)
    (ho : Own rng (.prop key val computed method shorthand kind)) (hm : MadeK (.prop key val computed method shorthand kind)) : read (m + 1) (convertK rng (.prop key val computed method shorthand kind)) = some (eraseK rng (.prop key val computed method shorthand kind)) := by
  simp only [sizeK] at hs
  simp only [MadeK] at hm
  have h0 := ih key (by omega) hm.1
  have h1 := ih val (by omega) hm.2
  simp only [Own] at ho
  cases kind
  all_goals first | (simp at ho; done) | skip
  all_goals simp [convertK, read_ob, type_Property, readProperty, get_ob, look, node, nodes, list, text, bool, boolOr, nodeOr, nodesOr, kindOf, kindText, eraseK, h0, h1, propKind, PropKind.text, Bool.and_comm]

theorem rt_fn {n m : Nat} (ih : Ok n m) (rng : Rng) (expr : Bool) (id : Node) (gen : Bool) (async : Bool) (params : Nodes) (body : Node) (hs : sizeK (.fn expr id gen async params body) ≤ n)
    (ho : Own rng (.fn expr id gen async params body)) (hm : MadeK (.fn expr id gen async params body)) : read (m + 1) (convertK rng (.fn expr id gen async params body)) = some (eraseK rng (.fn expr id gen async params body)) := by
  simp only [sizeK] at hs
  simp only [MadeK] at hm
  have h0 := ih id (by omega) hm.1
  have h1 := okL ih params (by omega) hm.2.1
  have h2 := ih body (by omega) hm.2.2
  cases expr
  all_goals simp [convertK, read_ob, type_FunctionDeclaration, type_FunctionExpression, readFunctionDeclaration, readFunctionExpression, get_ob, look, node, nodes, list, text, bool, boolOr, nodeOr, nodesOr, kindOf, kindText, eraseK, h0, h1, h2]

theorem rt_arrow {n m : Nat} (ih : Ok n m) (rng : Rng) (async : Bool) (params : Nodes) (body : Node) (expr : Bool) (hs : sizeK (.arrow async params body expr) ≤ n)
    (ho : Own rng (.arrow async params body expr)) (hm : MadeK (.arrow async params body expr)) : read (m + 1) (convertK rng (.arrow async params body expr)) = some (eraseK rng (.arrow async params body expr)) := by
  simp only [sizeK] at hs
  simp only [MadeK] at hm
  have h0 := okL ih params (by omega) hm.1
  have h1 := ih body (by omega) hm.2
  simp [convertK, read_ob, type_ArrowFunctionExpression, readArrowFunctionExpression, get_ob, look, node, nodes, list, text, bool, boolOr, nodeOr, nodesOr, kindOf, kindText, eraseK, h0, h1]

theorem rt_varDec {n m : Nat} (ih : Ok n m) (rng : Rng) (kind : String) (decs : Nodes) (hs : sizeK (.varDec kind decs) ≤ n)
    (ho : Own rng (.varDec kind decs)) (hm : MadeK (.varDec kind decs)) : read (m + 1) (convertK rng (.varDec kind decs)) = some (eraseK rng (.varDec kind decs)) := by
  simp only [sizeK] at hs
  simp only [MadeK] at hm
  have h0 := okL ih decs (by omega) hm
  simp [convertK, read_ob, type_VariableDeclaration, readVariableDeclaration, get_ob, look, node, nodes, list, text, bool, boolOr, nodeOr, nodesOr, kindOf, kindText, eraseK, h0]

theorem rt_declr {n m : Nat} (ih : Ok n m) (rng : Rng) (id : Node) (init : Node) (hs : sizeK (.declr id init) ≤ n)
    (ho : Own rng (.declr id init)) (hm : MadeK (.declr id init)) : read (m + 1) (convertK rng (.declr id init)) = some (eraseK rng (.declr id init)) := by
  simp only [sizeK] at hs
  simp only [MadeK] at hm
  have h0 := ih id (by omega) hm.1
  have h1 := ih init (by omega) hm.2
  simp [convertK, read_ob, type_VariableDeclarator, readVariableDeclarator, get_ob, look, node, nodes, list, text, bool, boolOr, nodeOr, nodesOr, kindOf, kindText, eraseK, h0, h1]

theorem rt_block {n m : Nat} (ih : Ok n m) (rng : Rng) (body : Nodes) (hs : sizeK (.block body) ≤ n)
    (ho : Own rng (.block body)) (hm : MadeK (.block body)) : read (m + 1) (convertK rng (.block body)) = some (eraseK rng (.block body)) := by
  simp only [sizeK] at hs
  simp only [MadeK] at hm
  have h0 := okL ih body (by omega) hm
  simp [convertK, read_ob, type_BlockStatement, readBlockStatement, get_ob, look, node, nodes, list, text, bool, boolOr, nodeOr, nodesOr, kindOf, kindText, eraseK, h0]

theorem rt_doWhile {n m : Nat} (ih : Ok n m) (rng : Rng) (test : Node) (body : Node) (hs : sizeK (.doWhile test body) ≤ n)
    (ho : Own rng (.doWhile test body)) (hm : MadeK (.doWhile test body)) : read (m + 1) (convertK rng (.doWhile test body)) = some (eraseK rng (.doWhile test body)) := by
  simp only [sizeK] at hs
  simp only [MadeK] at hm
  have h0 := ih test (by omega) hm.1
  have h1 := ih body (by omega) hm.2
  simp [convertK, read_ob, type_DoWhileStatement, readDoWhileStatement, get_ob, look, node, nodes, list, text, bool, boolOr, nodeOr, nodesOr, kindOf, kindText, eraseK, h0, h1]

theorem rt_while {n m : Nat} (ih : Ok n m) (rng : Rng) (test : Node) (body : Node) (hs : sizeK (.«while» test body) ≤ n)
    (ho : Own rng (.«while» test body)) (hm : MadeK (.«while» test body)) : read (m + 1) (convertK rng (.«while» test body)) = some (eraseK rng (.«while» test body)) := by
  simp only [sizeK] at hs
  simp only [MadeK] at hm
  have h0 := ih test (by omega) hm.1
  have h1 := ih body (by omega) hm.2
  simp [convertK, read_ob, type_WhileStatement, readWhileStatement, get_ob, look, node, nodes, list, text, bool, boolOr, nodeOr, nodesOr, kindOf, kindText, eraseK, h0, h1]

theorem rt_for {n m : Nat} (ih : Ok n m) (rng : Rng) (init : Node) (test : Node) (update : Node) (body : Node) (hs : sizeK (.«for» init test update body) ≤ n)
    (ho : Own rng (.«for» init test update body)) (hm : MadeK (.«for» init test update body)) : read (m + 1) (convertK rng (.«for» init test update body)) = some (eraseK rng (.«for» init test update body)) := by
  simp only [sizeK] at hs
  simp only [MadeK] at hm
  have h0 := ih init (by omega) hm.1
  have h1 := ih test (by omega) hm.2.1
  have h2 := ih update (by omega) hm.2.2.1
  have h3 := ih body (by omega) hm.2.2.2
  simp [convertK, read_ob, type_ForStatement, readForStatement, get_ob, look, node, nodes, list, text, bool, boolOr, nodeOr, nodesOr, kindOf, kindText, eraseK, h0, h1, h2, h3]

theorem rt_forInOf {n m : Nat} (ih : Ok n m) (rng : Rng) (isIn : Bool) (await : Bool) (l : Node) (r : Node) (body : Node) (hs : sizeK (.forInOf isIn await l r body) ≤ n)
    (ho : Own rng (.forInOf isIn await l r body)) (hm : MadeK (.forInOf isIn await l r body)) : read (m + 1) (convertK rng (.forInOf isIn await l r body)) = some (eraseK rng (.forInOf isIn await l r body)) := by
  simp only [sizeK] at hs
  simp only [MadeK] at hm
  have h0 := ih l (by omega) hm.1
  have h1 := ih r (by omega) hm.2.1
  have h2 := ih body (by omega) hm.2.2
  simp only [Own] at ho
  cases isIn
  all_goals simp [convertK, read_ob, type_ForInStatement, type_ForOfStatement, readForInStatement, readForOfStatement, get_ob, look, node, nodes, list, text, bool, boolOr, nodeOr, nodesOr, kindOf, kindText, eraseK, h0, h1, h2, ho]

theorem rt_if {n m : Nat} (ih : Ok n m) (rng : Rng) (test : Node) (cons : Node) (alt : Node) (hs : sizeK (.«if» test cons alt) ≤ n)
    (ho : Own rng (.«if» test cons alt)) (hm : MadeK (.«if» test cons alt)) : read (m + 1) (convertK rng (.«if» test cons alt)) = some (eraseK rng (.«if» test cons alt)) := by
  simp only [sizeK] at hs
  simp only [MadeK] at hm
  have h0 := ih test (by omega) hm.1
  have h1 := ih cons (by omega) hm.2.1
  have h2 := ih alt (by omega) hm.2.2
  simp [convertK, read_ob, type_IfStatement, readIfStatement, get_ob, look, node, nodes, list, text, bool, boolOr, nodeOr, nodesOr, kindOf, kindText, eraseK, h0, h1, h2]

theorem rt_switch {n m : Nat} (ih : Ok n m) (rng : Rng) (test : Node) (cases : Nodes) (hs : sizeK (.switch test cases) ≤ n)
    (ho : Own rng (.switch test cases)) (hm : MadeK (.switch test cases)) : read (m + 1) (convertK rng (.switch test cases)) = some (eraseK rng (.switch test cases)) := by
  simp only [sizeK] at hs
  simp only [MadeK] at hm
  have h0 := ih test (by omega) hm.1
  have h1 := okL ih cases (by omega) hm.2
  simp [convertK, read_ob, type_SwitchStatement, readSwitchStatement, get_ob, look, node, nodes, list, text, bool, boolOr, nodeOr, nodesOr, kindOf, kindText, eraseK, h0, h1]

theorem rt_case {n m : Nat} (ih : Ok n m) (rng : Rng) (test : Node) (cons : Nodes) (hs : sizeK (.case test cons) ≤ n)
    (ho : Own rng (.case test cons)) (hm : MadeK (.case test cons)) : read (m + 1) (convertK rng (.case test cons)) = some (eraseK rng (.case test cons)) := by
  simp only [sizeK] at hs
  simp only [MadeK] at hm
  have h0 := ih test (by omega) hm.1
  have h1 := okL ih cons (by omega) hm.2
  simp [convertK, read_ob, type_SwitchCase, readSwitchCase, get_ob, look, node, nodes, list, text, bool, boolOr, nodeOr, nodesOr, kindOf, kindText, eraseK, h0, h1]

theorem rt_brk {n m : Nat} (ih : Ok n m) (rng : Rng) (label : Node) (hs : sizeK (.brk label) ≤ n)
    (ho : Own rng (.brk label)) (hm : MadeK (.brk label)) : read (m + 1) (convertK rng (.brk label)) = some (eraseK rng (.brk label)) := by
  simp only [sizeK] at hs
  simp only [MadeK] at hm
  have h0 := ih label (by omega) hm
  simp [convertK, read_ob, type_BreakStatement, readBreakStatement, get_ob, look, node, nodes, list, text, bool, boolOr, nodeOr, nodesOr, kindOf, kindText, eraseK, h0]

theorem rt_cont {n m : Nat} (ih : Ok n m) (rng : Rng) (label : Node) (hs : sizeK (.cont label) ≤ n)
    (ho : Own rng (.cont label)) (hm : MadeK (.cont label)) : read (m + 1) (convertK rng (.cont label)) = some (eraseK rng (.cont label)) := by
  simp only [sizeK] at hs
  simp only [MadeK] at hm
  have h0 := ih label (by omega) hm
  simp [convertK, read_ob, type_ContinueStatement, readContinueStatement, get_ob, look, node, nodes, list, text, bool, boolOr, nodeOr, nodesOr, kindOf, kindText, eraseK, h0]

theorem rt_label {n m : Nat} (ih : Ok n m) (rng : Rng) (label : Node) (body : Node) (hs : sizeK (.label label body) ≤ n)
    (ho : Own rng (.label label body)) (hm : MadeK (.label label body)) : read (m + 1) (convertK rng (.label label body)) = some (eraseK rng (.label label body)) := by
  simp only [sizeK] at hs
  simp only [MadeK] at hm
  have h0 := ih label (by omega) hm.1
  have h1 := ih body (by omega) hm.2
  simp [convertK, read_ob, type_LabeledStatement, readLabeledStatement, get_ob, look, node, nodes, list, text, bool, boolOr, nodeOr, nodesOr, kindOf, kindText, eraseK, h0, h1]

theorem rt_ret {n m : Nat} (ih : Ok n m) (rng : Rng) (arg : Node) (hs : sizeK (.ret arg) ≤ n)
    (ho : Own rng (.ret arg)) (hm : MadeK (.ret arg)) : read (m + 1) (convertK rng (.ret arg)) = some (eraseK rng (.ret arg)) := by
  simp only [sizeK] at hs
  simp only [MadeK] at hm
  have h0 := ih arg (by omega) hm
  simp [convertK, read_ob, type_ReturnStatement, readReturnStatement, get_ob, look, node, nodes, list, text, bool, boolOr, nodeOr, nodesOr, kindOf, kindText, eraseK, h0]

theorem rt_throw {n m : Nat} (ih : Ok n m) (rng : Rng) (arg : Node) (hs : sizeK (.«throw» arg) ≤ n)
    (ho : Own rng (.«throw» arg)) (hm : MadeK (.«throw» arg)) : read (m + 1) (convertK rng (.«throw» arg)) = some (eraseK rng (.«throw» arg)) := by
  simp only [sizeK] at hs
  simp only [MadeK] at hm
  have h0 := ih arg (by omega) hm
  simp [convertK, read_ob, type_ThrowStatement, readThrowStatement, get_ob, look, node, nodes, list, text, bool, boolOr, nodeOr, nodesOr, kindOf, kindText, eraseK, h0]

theorem rt_catch {n m : Nat} (ih : Ok n m) (rng : Rng) (param : Node) (body : Node) (hs : sizeK (.«catch» param body) ≤ n)
    (ho : Own rng (.«catch» param body)) (hm : MadeK (.«catch» param body)) : read (m + 1) (convertK rng (.«catch» param body)) = some (eraseK rng (.«catch» param body)) := by
  simp only [sizeK] at hs
  simp only [MadeK] at hm
  have h0 := ih param (by omega) hm.1
  have h1 := ih body (by omega) hm.2
  simp [convertK, read_ob, type_CatchClause, readCatchClause, get_ob, look, node, nodes, list, text, bool, boolOr, nodeOr, nodesOr, kindOf, kindText, eraseK, h0, h1]

theorem rt_try {n m : Nat} (ih : Ok n m) (rng : Rng) (block : Node) (handler : Node) (fin : Node) (hs : sizeK (.«try» block handler fin) ≤ n)
    (ho : Own rng (.«try» block handler fin)) (hm : MadeK (.«try» block handler fin)) : read (m + 1) (convertK rng (.«try» block handler fin)) = some (eraseK rng (.«try» block handler fin)) := by
  simp only [sizeK] at hs
  simp only [MadeK] at hm
  have h0 := ih block (by omega) hm.1
  have h1 := ih handler (by omega) hm.2.1
  have h2 := ih fin (by omega) hm.2.2
  simp [convertK, read_ob, type_TryStatement, readTryStatement, get_ob, look, node, nodes, list, text, bool, boolOr, nodeOr, nodesOr, kindOf, kindText, eraseK, h0, h1, h2]

theorem rt_debug {n m : Nat} (ih : Ok n m) (rng : Rng) (hs : sizeK (.debug) ≤ n)
    (ho : Own rng (.debug)) (hm : MadeK (.debug)) : read (m + 1) (convertK rng (.debug)) = some (eraseK rng (.debug)) := by
  simp [convertK, read_ob, type_DebuggerStatement, readDebuggerStatement, get_ob, look, node, nodes, list, text, bool, boolOr, nodeOr, nodesOr, kindOf, kindText, eraseK]

theorem rt_with {n m : Nat} (ih : Ok n m) (rng : Rng) (o : Node) (body : Node) (hs : sizeK (.«with» o body) ≤ n)
    (ho : Own rng (.«with» o body)) (hm : MadeK (.«with» o body)) : read (m + 1) (convertK rng (.«with» o body)) = some (eraseK rng (.«with» o body)) := by
  simp only [sizeK] at hs
  simp only [MadeK] at hm
  have h0 := ih o (by omega) hm.1
  have h1 := ih body (by omega) hm.2
  simp [convertK, read_ob, type_WithStatement, readWithStatement, get_ob, look, node, nodes, list, text, bool, boolOr, nodeOr, nodesOr, kindOf, kindText, eraseK, h0, h1]

theorem rt_cls {n m : Nat} (ih : Ok n m) (rng : Rng) (expr : Bool) (id : Node) (tparams : Node) (sup : Node) (supArgs : Node) (impls : Nodes) (body : Node) (abstract : Bool) (declare : Bool) (decs : Nodes) (hs : sizeK (.cls expr id tparams sup supArgs impls body abstract declare decs) ≤ n)
    (ho : Own rng (.cls expr id tparams sup supArgs impls body abstract declare decs)) (hm : MadeK (.cls expr id tparams sup supArgs impls body abstract declare decs)) :
    read (m + 1) (convertK rng (.cls expr id tparams sup supArgs impls body abstract declare decs)) = some (eraseK rng (.cls expr id tparams sup supArgs impls body abstract declare decs)) := by
  simp only [sizeK] at hs
  simp only [MadeK] at hm
  have h0 := ih id (by omega) hm.1
  have h1 := ih tparams (by omega) hm.2.1
  have h2 := ih sup (by omega) hm.2.2.1
  have h3 := ih supArgs (by omega) hm.2.2.2.1
  have h4 := okL ih impls (by omega) hm.2.2.2.2.1
  have h5 := ih body (by omega) hm.2.2.2.2.2.1
  have h6 := okL ih decs (by omega) hm.2.2.2.2.2.2
  simp only [Own] at ho
  have e0 := convertT_eq ho.1
  have e1 := convertT_eq ho.2.1
  cases expr
  · cases tparams <;> cases supArgs <;> cases impls
    all_goals simp [convertK, read_ob, type_ClassDeclaration, readClassDeclaration, type_ClassExpression, readClassExpression, get_ob, look, node, nodes, list, text, bool, boolOr, nodeOr, nodesOr, kindOf, kindText, eraseK, h0, h1, h2, h3, h4, h5, h6, e0, e1, dec_eq, Node.isNil, Nodes.isNil, erase, eraseL, afterDecs]
  · obtain ⟨rfl, rfl⟩ := ho.2.2 rfl
    cases tparams <;> cases supArgs <;> cases impls
    all_goals simp [convertK, read_ob, type_ClassDeclaration, readClassDeclaration, type_ClassExpression, readClassExpression, get_ob, look, node, nodes, list, text, bool, boolOr, nodeOr, nodesOr, kindOf, kindText, eraseK, h0, h1, h2, h3, h4, h5, h6, e0, e1, dec_eq, Node.isNil, Nodes.isNil, erase, eraseL, afterDecs]

theorem rt_classBody {n m : Nat} (ih : Ok n m) (rng : Rng) (elems : Nodes) (hs : sizeK (.classBody elems) ≤ n)
    (ho : Own rng (.classBody elems)) (hm : MadeK (.classBody elems)) : read (m + 1) (convertK rng (.classBody elems)) = some (eraseK rng (.classBody elems)) := by
  simp only [sizeK] at hs
  simp only [MadeK] at hm
  have h0 := okL ih elems (by omega) hm
  simp [convertK, read_ob, type_ClassBody, readClassBody, get_ob, look, node, nodes, list, text, bool, boolOr, nodeOr, nodesOr, kindOf, kindText, eraseK, h0]

theorem rt_method {n m : Nat} (ih : Ok n m) (rng : Rng) (key : Node) (static : Bool) (computed : Bool) (kind : PropKind) (val : Node) (hs : sizeK (.method key static computed kind val) ≤ n)
    (ho : Own rng (.method key static computed kind val)) (hm : MadeK (.method key static computed kind val)) : read (m + 1) (convertK rng (.method key static computed kind val)) = some (eraseK rng (.method key static computed kind val)) := by
  simp only [sizeK] at hs
  simp only [MadeK] at hm
  have h0 := ih key (by omega) hm.1
  have h1 := ih val (by omega) hm.2
  simp only [Own] at ho
  cases kind
  all_goals first | (simp at ho; done) | skip
  all_goals simp [convertK, read_ob, type_MethodDefinition, readMethodDefinition, get_ob, look, node, nodes, list, text, bool, boolOr, nodeOr, nodesOr, kindOf, kindText, eraseK, h0, h1, methodKind, PropKind.text]

theorem rt_field {n m : Nat} (ih : Ok n m) (rng : Rng) (key : Node) (static : Bool) (computed : Bool) (val : Node) (hs : sizeK (.field key static computed val) ≤ n)
    (ho : Own rng (.field key static computed val)) (hm : MadeK (.field key static computed val)) : read (m + 1) (convertK rng (.field key static computed val)) = some (eraseK rng (.field key static computed val)) := by
  simp only [sizeK] at hs
  simp only [MadeK] at hm
  have h0 := ih key (by omega) hm.1
  have h1 := ih val (by omega) hm.2
  simp [convertK, read_ob, type_PropertyDefinition, readPropertyDefinition, get_ob, look, node, nodes, list, text, bool, boolOr, nodeOr, nodesOr, kindOf, kindText, eraseK, h0, h1]

theorem rt_staticBlock {n m : Nat} (ih : Ok n m) (rng : Rng) (body : Nodes) (hs : sizeK (.staticBlock body) ≤ n)
    (ho : Own rng (.staticBlock body)) (hm : MadeK (.staticBlock body)) : read (m + 1) (convertK rng (.staticBlock body)) = some (eraseK rng (.staticBlock body)) := by
  simp only [sizeK] at hs
  simp only [MadeK] at hm
  have h0 := okL ih body (by omega) hm
  simp [convertK, read_ob, type_StaticBlock, readStaticBlock, get_ob, look, node, nodes, list, text, bool, boolOr, nodeOr, nodesOr, kindOf, kindText, eraseK, h0]

theorem rt_metaProp {n m : Nat} (ih : Ok n m) (rng : Rng) (mt : Node) (prop : Node) (hs : sizeK (.metaProp mt prop) ≤ n)
    (ho : Own rng (.metaProp mt prop)) (hm : MadeK (.metaProp mt prop)) : read (m + 1) (convertK rng (.metaProp mt prop)) = some (eraseK rng (.metaProp mt prop)) := by
  simp only [sizeK] at hs
  simp only [MadeK] at hm
  have h0 := ih mt (by omega) hm.1
  have h1 := ih prop (by omega) hm.2
  simp [convertK, read_ob, type_MetaProperty, readMetaProperty, get_ob, look, node, nodes, list, text, bool, boolOr, nodeOr, nodesOr, kindOf, kindText, eraseK, h0, h1]

theorem rt_importDec {n m : Nat} (ih : Ok n m) (rng : Rng) (typ : Bool) (specs : Nodes) (src : Node) (hs : sizeK (.importDec typ specs src) ≤ n)
    (ho : Own rng (.importDec typ specs src)) (hm : MadeK (.importDec typ specs src)) : read (m + 1) (convertK rng (.importDec typ specs src)) = some (eraseK rng (.importDec typ specs src)) := by
  simp only [sizeK] at hs
  simp only [MadeK] at hm
  have h0 := okL ih specs (by omega) hm.1
  have h1 := ih src (by omega) hm.2
  cases typ
  all_goals simp [convertK, read_ob, type_ImportDeclaration, readImportDeclaration, get_ob, look, node, nodes, list, text, bool, boolOr, nodeOr, nodesOr, kindOf, kindText, eraseK, h0, h1]

theorem rt_importSpec {n m : Nat} (ih : Ok n m) (rng : Rng) (typ : Bool) (deflt : Bool) (ns : Bool) (loc : Node) (id : Node) (hs : sizeK (.importSpec typ deflt ns loc id) ≤ n)
    (ho : Own rng (.importSpec typ deflt ns loc id)) (hm : MadeK (.importSpec typ deflt ns loc id)) : read (m + 1) (convertK rng (.importSpec typ deflt ns loc id)) = some (eraseK rng (.importSpec typ deflt ns loc id)) := by
  simp only [sizeK] at hs
  simp only [MadeK] at hm
  have h0 := ih loc (by omega) hm.1
  have h1 := ih id (by omega) hm.2
  simp only [Own] at ho
  cases typ <;> cases deflt <;> cases ns
  all_goals simp [convertK, read_ob, type_ImportDefaultSpecifier, type_ImportNamespaceSpecifier, type_ImportSpecifier, readImportDefaultSpecifier, readImportNamespaceSpecifier, readImportSpecifier, get_ob, look, node, nodes, list, text, bool, boolOr, nodeOr, nodesOr, kindOf, kindText, eraseK, h0, h1, ho, erase]

theorem rt_exportSpec {n m : Nat} (ih : Ok n m) (rng : Rng) (typ : Bool) (ns : Bool) (loc : Node) (id : Node) (hs : sizeK (.exportSpec typ ns loc id) ≤ n)
    (ho : Own rng (.exportSpec typ ns loc id)) (hm : MadeK (.exportSpec typ ns loc id)) : read (m + 1) (convertK rng (.exportSpec typ ns loc id)) = some (eraseK rng (.exportSpec typ ns loc id)) := by
  simp only [sizeK] at hs
  simp only [MadeK] at hm
  have h0 := ih loc (by omega) hm.1
  have h1 := ih id (by omega) hm.2
  simp only [Own] at ho
  cases typ
  all_goals simp [convertK, read_ob, type_ExportSpecifier, readExportSpecifier, get_ob, look, node, nodes, list, text, bool, boolOr, nodeOr, nodesOr, kindOf, kindText, eraseK, h0, h1, ho]

theorem rt_chain {n m : Nat} (ih : Ok n m) (rng : Rng) (e : Node) (hs : sizeK (.chain e) ≤ n)
    (ho : Own rng (.chain e)) (hm : MadeK (.chain e)) : read (m + 1) (convertK rng (.chain e)) = some (eraseK rng (.chain e)) := by
  simp only [sizeK] at hs
  simp only [MadeK] at hm
  have h0 := ih e (by omega) hm
  simp [convertK, read_ob, type_ChainExpression, readChainExpression, get_ob, look, node, nodes, list, text, bool, boolOr, nodeOr, nodesOr, kindOf, kindText, eraseK, h0]

theorem rt_jsxId {n m : Nat} (ih : Ok n m) (rng : Rng) (name : String) (hs : sizeK (.jsxId name) ≤ n)
    (ho : Own rng (.jsxId name)) (hm : MadeK (.jsxId name)) : read (m + 1) (convertK rng (.jsxId name)) = some (eraseK rng (.jsxId name)) := by
  simp [convertK, read_ob, type_JSXIdentifier, readJSXIdentifier, get_ob, look, node, nodes, list, text, bool, boolOr, nodeOr, nodesOr, kindOf, kindText, eraseK]

theorem rt_jsxMember {n m : Nat} (ih : Ok n m) (rng : Rng) (o : Node) (prop : Node) (hs : sizeK (.jsxMember o prop) ≤ n)
    (ho : Own rng (.jsxMember o prop)) (hm : MadeK (.jsxMember o prop)) : read (m + 1) (convertK rng (.jsxMember o prop)) = some (eraseK rng (.jsxMember o prop)) := by
  simp only [sizeK] at hs
  simp only [MadeK] at hm
  have h0 := ih o (by omega) hm.1
  have h1 := ih prop (by omega) hm.2
  simp [convertK, read_ob, type_JSXMemberExpression, readJSXMemberExpression, get_ob, look, node, nodes, list, text, bool, boolOr, nodeOr, nodesOr, kindOf, kindText, eraseK, h0, h1]

theorem rt_jsxOpen {n m : Nat} (ih : Ok n m) (rng : Rng) (name : Node) (attrs : Nodes) (closed : Bool) (hs : sizeK (.jsxOpen name attrs closed) ≤ n)
    (ho : Own rng (.jsxOpen name attrs closed)) (hm : MadeK (.jsxOpen name attrs closed)) : read (m + 1) (convertK rng (.jsxOpen name attrs closed)) = some (eraseK rng (.jsxOpen name attrs closed)) := by
  simp only [sizeK] at hs
  simp only [MadeK] at hm
  have h0 := ih name (by omega) hm.1
  have h1 := okL ih attrs (by omega) hm.2
  simp [convertK, read_ob, type_JSXOpeningElement, readJSXOpeningElement, get_ob, look, node, nodes, list, text, bool, boolOr, nodeOr, nodesOr, kindOf, kindText, eraseK, h0, h1]

theorem rt_jsxClose {n m : Nat} (ih : Ok n m) (rng : Rng) (name : Node) (hs : sizeK (.jsxClose name) ≤ n)
    (ho : Own rng (.jsxClose name)) (hm : MadeK (.jsxClose name)) : read (m + 1) (convertK rng (.jsxClose name)) = some (eraseK rng (.jsxClose name)) := by
  simp only [sizeK] at hs
  simp only [MadeK] at hm
  have h0 := ih name (by omega) hm
  simp [convertK, read_ob, type_JSXClosingElement, readJSXClosingElement, get_ob, look, node, nodes, list, text, bool, boolOr, nodeOr, nodesOr, kindOf, kindText, eraseK, h0]

theorem rt_jsxText {n m : Nat} (ih : Ok n m) (rng : Rng) (val : String) (raw : String) (hs : sizeK (.jsxText val raw) ≤ n)
    (ho : Own rng (.jsxText val raw)) (hm : MadeK (.jsxText val raw)) : read (m + 1) (convertK rng (.jsxText val raw)) = some (eraseK rng (.jsxText val raw)) := by
  simp [convertK, read_ob, type_JSXText, readJSXText, get_ob, look, node, nodes, list, text, bool, boolOr, nodeOr, nodesOr, kindOf, kindText, eraseK]

theorem rt_jsxExpr {n m : Nat} (ih : Ok n m) (rng : Rng) (e : Node) (hs : sizeK (.jsxExpr e) ≤ n)
    (ho : Own rng (.jsxExpr e)) (hm : MadeK (.jsxExpr e)) : read (m + 1) (convertK rng (.jsxExpr e)) = some (eraseK rng (.jsxExpr e)) := by
  simp only [sizeK] at hs
  simp only [MadeK] at hm
  have h0 := ih e (by omega) hm
  simp [convertK, read_ob, type_JSXExpressionContainer, readJSXExpressionContainer, get_ob, look, node, nodes, list, text, bool, boolOr, nodeOr, nodesOr, kindOf, kindText, eraseK, h0]

theorem rt_jsxAttr {n m : Nat} (ih : Ok n m) (rng : Rng) (name : Node) (val : Node) (hs : sizeK (.jsxAttr name val) ≤ n)
    (ho : Own rng (.jsxAttr name val)) (hm : MadeK (.jsxAttr name val)) : read (m + 1) (convertK rng (.jsxAttr name val)) = some (eraseK rng (.jsxAttr name val)) := by
  simp only [sizeK] at hs
  simp only [MadeK] at hm
  have h0 := ih name (by omega) hm.1
  have h1 := ih val (by omega) hm.2
  simp [convertK, read_ob, type_JSXAttribute, readJSXAttribute, get_ob, look, node, nodes, list, text, bool, boolOr, nodeOr, nodesOr, kindOf, kindText, eraseK, h0, h1]

theorem rt_jsxSpreadAttr {n m : Nat} (ih : Ok n m) (rng : Rng) (arg : Node) (hs : sizeK (.jsxSpreadAttr arg) ≤ n)
    (ho : Own rng (.jsxSpreadAttr arg)) (hm : MadeK (.jsxSpreadAttr arg)) : read (m + 1) (convertK rng (.jsxSpreadAttr arg)) = some (eraseK rng (.jsxSpreadAttr arg)) := by
  simp only [sizeK] at hs
  simp only [MadeK] at hm
  have h0 := ih arg (by omega) hm
  simp [convertK, read_ob, type_JSXSpreadAttribute, readJSXSpreadAttribute, get_ob, look, node, nodes, list, text, bool, boolOr, nodeOr, nodesOr, kindOf, kindText, eraseK, h0]

theorem rt_jsxSpreadChild {n m : Nat} (ih : Ok n m) (rng : Rng) (e : Node) (hs : sizeK (.jsxSpreadChild e) ≤ n)
    (ho : Own rng (.jsxSpreadChild e)) (hm : MadeK (.jsxSpreadChild e)) : read (m + 1) (convertK rng (.jsxSpreadChild e)) = some (eraseK rng (.jsxSpreadChild e)) := by
  simp only [sizeK] at hs
  simp only [MadeK] at hm
  have h0 := ih e (by omega) hm
  simp [convertK, read_ob, type_JSXSpreadChild, readJSXSpreadChild, get_ob, look, node, nodes, list, text, bool, boolOr, nodeOr, nodesOr, kindOf, kindText, eraseK, h0]

theorem rt_jsxEmpty {n m : Nat} (ih : Ok n m) (rng : Rng) (hs : sizeK (.jsxEmpty) ≤ n)
    (ho : Own rng (.jsxEmpty)) (hm : MadeK (.jsxEmpty)) : read (m + 1) (convertK rng (.jsxEmpty)) = some (eraseK rng (.jsxEmpty)) := by
  simp [convertK, read_ob, type_JSXEmptyExpression, readJSXEmptyExpression, get_ob, look, node, nodes, list, text, bool, boolOr, nodeOr, nodesOr, kindOf, kindText, eraseK]

theorem quasis_expr (rng : Rng) (first : Bool) (e : Node) (rest : Nodes) (h : isStr e = false) :
    quasis rng first (.cons e rest) =
      (if first || rest.isNil then [quasi rng rest.isNil "" ""] else []) ++ quasis rng false rest := by
  match e with
  | .nil => rfl
  | .mk r k => cases k <;> first | rfl | simp [isStr] at h

theorem isStr_iff {s : Node} (h : isStr s = true) : ∃ r v w, s = .mk r (.str v w) := by
  match s with
  | .nil => simp [isStr] at h
  | .mk r k => cases k <;> first | exact ⟨r, _, _, rfl⟩ | simp [isStr] at h

theorem readQuasi_quasi (r : Rng) (b : Bool) (c w : String) : readQuasi b (quasi r b c w) = some (.mk r (.str c w)) := by
  simp [readQuasi, quasi, ob, range, text, bool, J.get, look]

theorem woven_cons {l : Nodes} (h : Woven l) : l.isNil = false := by
  match l with
  | .nil => simp [Woven] at h
  | .cons _ _ => rfl

theorem weave_ok {n m : Nat} (ih : Ok n m) (rng : Rng) : ∀ (l : Nodes) (first : Bool), Woven l → sizeL l ≤ n → MadeL l →
    weave (read m) (quasis rng first l) (exprs l) = some (eraseL l)
  | .nil, _, hw, _, _ => by simp [Woven] at hw
  | .cons s .nil, first, hw, _, _ => by
    obtain ⟨r, v, w, rfl⟩ := isStr_iff (by simpa [Woven] using hw)
    simp [quasis, exprs, isStr, weave, Nodes.isNil, readQuasi_quasi, eraseL, erase, eraseK]
  | .cons s (.cons e l), first, hw, hs, hm => by
    simp only [Woven] at hw
    simp only [sizeL] at hs
    simp only [MadeL] at hm
    obtain ⟨r, v, w, rfl⟩ := isStr_iff hw.1
    have h1 := ih e (by omega) hm.2.1
    have h2 := weave_ok ih rng l false hw.2.2 (by omega) hm.2.2
    have hq := quasis_expr rng false e l hw.2.1
    simp only [woven_cons hw.2.2, Bool.or_self, Bool.false_eq_true, if_false, List.nil_append] at hq
    have he : exprs (.cons (.mk r (.str v w)) (.cons e l)) = convert e :: exprs l := by
      have hx : isStr (.mk r (.str v w)) = true := rfl
      simp only [exprs, hx, hw.2.1, if_true, Bool.false_eq_true, if_false]
    rw [he]
    have hq2 : quasis rng first (.cons (.mk r (.str v w)) (.cons e l)) = quasi r false v w :: quasis rng false l := by
      simp only [quasis]
      rw [hq]
      rfl
    rw [hq2]
    simp [weave, readQuasi_quasi, h1, h2, eraseL, erase, eraseK]

theorem rt_lit {n m : Nat} (ih : Ok n m) (rng : Rng) (elems : Nodes) (hs : sizeL elems ≤ n) (hw : Woven elems)
    (hm : MadeL elems) :
    read (m + 1) (ob "TemplateLiteral" rng [("quasis", .arr (quasis rng true elems)), ("expressions", .arr (exprs elems))]) =
      some (.mk rng (.tpl .nil (eraseL elems))) := by
  have h := weave_ok ih rng elems true hw hs hm
  simp [read_ob, type_TemplateLiteral, readTemplateLiteral, get_ob, look, list, h]

theorem rt_tsAnnot {n m : Nat} (ih : Ok n m) (rng : Rng) (typ : Node) (hs : sizeK (.tsAnnot typ) ≤ n)
    (ho : Own rng (.tsAnnot typ)) (hm : MadeK (.tsAnnot typ)) :
    read (m + 1) (convertK rng (.tsAnnot typ)) = some (eraseK rng (.tsAnnot typ)) := by
  simp only [sizeK] at hs
  simp only [MadeK] at hm
  have h0 := ih typ (by omega) hm
  simp only [Own] at ho
  have e0 := convertT_eq ho
  simp [convertK, read_ob, type_TSTypeAnnotation, readTSTypeAnnotation, get_ob, look, node, nodes, list, text, bool, boolOr, nodeOr, nodesOr, kindOf, kindText, eraseK, h0, e0]

theorem rt_tsRef {n m : Nat} (ih : Ok n m) (rng : Rng) (name : Node) (args : Node) (hs : sizeK (.tsRef name args) ≤ n)
    (ho : Own rng (.tsRef name args)) (hm : MadeK (.tsRef name args)) :
    read (m + 1) (convertK rng (.tsRef name args)) = some (eraseK rng (.tsRef name args)) := by
  simp only [sizeK] at hs
  simp only [MadeK] at hm
  have h0 := ih name (by omega) hm.1
  have h1 := ih args (by omega) hm.2
  simp [convertK, read_ob, type_TSTypeReference, readTSTypeReference, get_ob, look, node, nodes, list, text, bool, boolOr, nodeOr, nodesOr, kindOf, kindText, eraseK, h0, h1]

theorem rt_tsParamInst {n m : Nat} (ih : Ok n m) (rng : Rng) (params : Nodes) (hs : sizeK (.tsParamInst params) ≤ n)
    (ho : Own rng (.tsParamInst params)) (hm : MadeK (.tsParamInst params)) :
    read (m + 1) (convertK rng (.tsParamInst params)) = some (eraseK rng (.tsParamInst params)) := by
  simp only [sizeK] at hs
  simp only [MadeK] at hm
  have h0 := okL ih params (by omega) hm
  simp [convertK, read_ob, type_TSTypeParameterInstantiation, readTSTypeParameterInstantiation, get_ob, look, node, nodes, list, text, bool, boolOr, nodeOr, nodesOr, kindOf, kindText, eraseK, h0]

theorem rt_tsParamDec {n m : Nat} (ih : Ok n m) (rng : Rng) (params : Nodes) (hs : sizeK (.tsParamDec params) ≤ n)
    (ho : Own rng (.tsParamDec params)) (hm : MadeK (.tsParamDec params)) :
    read (m + 1) (convertK rng (.tsParamDec params)) = some (eraseK rng (.tsParamDec params)) := by
  simp only [sizeK] at hs
  simp only [MadeK] at hm
  have h0 := okL ih params (by omega) hm
  simp [convertK, read_ob, type_TSTypeParameterDeclaration, readTSTypeParameterDeclaration, get_ob, look, node, nodes, list, text, bool, boolOr, nodeOr, nodesOr, kindOf, kindText, eraseK, h0]

theorem rt_tsParam {n m : Nat} (ih : Ok n m) (rng : Rng) (name : Node) (cons : Node) (deflt : Node) (hs : sizeK (.tsParam name cons deflt) ≤ n)
    (ho : Own rng (.tsParam name cons deflt)) (hm : MadeK (.tsParam name cons deflt)) :
    read (m + 1) (convertK rng (.tsParam name cons deflt)) = some (eraseK rng (.tsParam name cons deflt)) := by
  simp only [sizeK] at hs
  simp only [MadeK] at hm
  have h0 := ih name (by omega) hm.1
  have h1 := ih cons (by omega) hm.2.1
  have h2 := ih deflt (by omega) hm.2.2
  simp [convertK, read_ob, type_TSTypeParameter, readTSTypeParameter, get_ob, look, node, nodes, list, text, bool, boolOr, nodeOr, nodesOr, kindOf, kindText, eraseK, h0, h1, h2]

theorem rt_tsArr {n m : Nat} (ih : Ok n m) (rng : Rng) (arg : Node) (hs : sizeK (.tsArr arg) ≤ n)
    (ho : Own rng (.tsArr arg)) (hm : MadeK (.tsArr arg)) :
    read (m + 1) (convertK rng (.tsArr arg)) = some (eraseK rng (.tsArr arg)) := by
  simp only [sizeK] at hs
  simp only [MadeK] at hm
  have h0 := ih arg (by omega) hm
  simp only [Own] at ho
  have e0 := convertT_eq ho
  simp [convertK, read_ob, type_TSArrayType, readTSArrayType, get_ob, look, node, nodes, list, text, bool, boolOr, nodeOr, nodesOr, kindOf, kindText, eraseK, h0, e0]

theorem rt_tsObj {n m : Nat} (ih : Ok n m) (rng : Rng) (props : Nodes) (hs : sizeK (.tsObj props) ≤ n)
    (ho : Own rng (.tsObj props)) (hm : MadeK (.tsObj props)) :
    read (m + 1) (convertK rng (.tsObj props)) = some (eraseK rng (.tsObj props)) := by
  simp only [sizeK] at hs
  simp only [MadeK] at hm
  have h0 := okL ih props (by omega) hm
  simp [convertK, read_ob, type_TSTypeLiteral, readTSTypeLiteral, get_ob, look, node, nodes, list, text, bool, boolOr, nodeOr, nodesOr, kindOf, kindText, eraseK, h0]

theorem rt_tsCallSig {n m : Nat} (ih : Ok n m) (rng : Rng) (params : Nodes) (tparams : Node) (ret : Node) (hs : sizeK (.tsCallSig params tparams ret) ≤ n)
    (ho : Own rng (.tsCallSig params tparams ret)) (hm : MadeK (.tsCallSig params tparams ret)) :
    read (m + 1) (convertK rng (.tsCallSig params tparams ret)) = some (eraseK rng (.tsCallSig params tparams ret)) := by
  simp only [sizeK] at hs
  simp only [MadeK] at hm
  have h0 := okL ih params (by omega) hm.1
  have h1 := ih tparams (by omega) hm.2.1
  have h2 := ih ret (by omega) hm.2.2
  simp only [Own] at ho
  have e0 := convertT_eq ho.1
  have e1 := convertT_eq ho.2
  simp [convertK, read_ob, type_TSCallSignatureDeclaration, readTSCallSignatureDeclaration, get_ob, look, node, nodes, list, text, bool, boolOr, nodeOr, nodesOr, kindOf, kindText, eraseK, h0, h1, h2, e0, e1]

theorem rt_tsPredicate {n m : Nat} (ih : Ok n m) (rng : Rng) (name : Node) (typ : Node) (asserts : Bool) (hs : sizeK (.tsPredicate name typ asserts) ≤ n)
    (ho : Own rng (.tsPredicate name typ asserts)) (hm : MadeK (.tsPredicate name typ asserts)) :
    read (m + 1) (convertK rng (.tsPredicate name typ asserts)) = some (eraseK rng (.tsPredicate name typ asserts)) := by
  simp only [sizeK] at hs
  simp only [MadeK] at hm
  have h0 := ih name (by omega) hm.1
  have h1 := ih typ (by omega) hm.2
  simp only [Own] at ho
  have e0 := convertT_eq ho
  simp [convertK, read_ob, type_TSTypePredicate, readTSTypePredicate, get_ob, look, node, nodes, list, text, bool, boolOr, nodeOr, nodesOr, kindOf, kindText, eraseK, h0, h1, e0]

theorem rt_tsAssert {n m : Nat} (ih : Ok n m) (rng : Rng) (e : Node) (typ : Node) (hs : sizeK (.tsAssert e typ) ≤ n)
    (ho : Own rng (.tsAssert e typ)) (hm : MadeK (.tsAssert e typ)) :
    read (m + 1) (convertK rng (.tsAssert e typ)) = some (eraseK rng (.tsAssert e typ)) := by
  simp only [sizeK] at hs
  simp only [MadeK] at hm
  have h0 := ih e (by omega) hm.1
  have h1 := ih typ (by omega) hm.2
  simp only [Own] at ho
  have e0 := convertT_eq ho
  simp [convertK, read_ob, type_TSTypeAssertion, readTSTypeAssertion, get_ob, look, node, nodes, list, text, bool, boolOr, nodeOr, nodesOr, kindOf, kindText, eraseK, h0, h1, e0]

theorem rt_tsNoNull {n m : Nat} (ih : Ok n m) (rng : Rng) (e : Node) (hs : sizeK (.tsNoNull e) ≤ n)
    (ho : Own rng (.tsNoNull e)) (hm : MadeK (.tsNoNull e)) :
    read (m + 1) (convertK rng (.tsNoNull e)) = some (eraseK rng (.tsNoNull e)) := by
  simp only [sizeK] at hs
  simp only [MadeK] at hm
  have h0 := ih e (by omega) hm
  simp [convertK, read_ob, type_TSNonNullExpression, readTSNonNullExpression, get_ob, look, node, nodes, list, text, bool, boolOr, nodeOr, nodesOr, kindOf, kindText, eraseK, h0]

theorem rt_tsUnion {n m : Nat} (ih : Ok n m) (rng : Rng) (elems : Nodes) (hs : sizeK (.tsUnion elems) ≤ n)
    (ho : Own rng (.tsUnion elems)) (hm : MadeK (.tsUnion elems)) :
    read (m + 1) (convertK rng (.tsUnion elems)) = some (eraseK rng (.tsUnion elems)) := by
  simp only [sizeK] at hs
  simp only [MadeK] at hm
  have h0 := okL ih elems (by omega) hm
  simp [convertK, read_ob, type_TSUnionType, readTSUnionType, get_ob, look, node, nodes, list, text, bool, boolOr, nodeOr, nodesOr, kindOf, kindText, eraseK, h0]

theorem rt_tsIntersect {n m : Nat} (ih : Ok n m) (rng : Rng) (elems : Nodes) (hs : sizeK (.tsIntersect elems) ≤ n)
    (ho : Own rng (.tsIntersect elems)) (hm : MadeK (.tsIntersect elems)) :
    read (m + 1) (convertK rng (.tsIntersect elems)) = some (eraseK rng (.tsIntersect elems)) := by
  simp only [sizeK] at hs
  simp only [MadeK] at hm
  have h0 := okL ih elems (by omega) hm
  simp [convertK, read_ob, type_TSIntersectionType, readTSIntersectionType, get_ob, look, node, nodes, list, text, bool, boolOr, nodeOr, nodesOr, kindOf, kindText, eraseK, h0]

theorem rt_tsQName {n m : Nat} (ih : Ok n m) (rng : Rng) (lhs : Node) (rhs : Node) (hs : sizeK (.tsQName lhs rhs) ≤ n)
    (ho : Own rng (.tsQName lhs rhs)) (hm : MadeK (.tsQName lhs rhs)) :
    read (m + 1) (convertK rng (.tsQName lhs rhs)) = some (eraseK rng (.tsQName lhs rhs)) := by
  simp only [sizeK] at hs
  simp only [MadeK] at hm
  have h0 := ih lhs (by omega) hm.1
  have h1 := ih rhs (by omega) hm.2
  simp only [Own] at ho
  have e0 := convertT_eq ho.1
  have e1 := convertT_eq ho.2
  simp [convertK, read_ob, type_TSQualifiedName, readTSQualifiedName, get_ob, look, node, nodes, list, text, bool, boolOr, nodeOr, nodesOr, kindOf, kindText, eraseK, h0, h1, e0, e1]

theorem rt_tsItfBody {n m : Nat} (ih : Ok n m) (rng : Rng) (body : Nodes) (hs : sizeK (.tsItfBody body) ≤ n)
    (ho : Own rng (.tsItfBody body)) (hm : MadeK (.tsItfBody body)) :
    read (m + 1) (convertK rng (.tsItfBody body)) = some (eraseK rng (.tsItfBody body)) := by
  simp only [sizeK] at hs
  simp only [MadeK] at hm
  have h0 := okL ih body (by omega) hm
  simp [convertK, read_ob, type_TSInterfaceBody, readTSInterfaceBody, get_ob, look, node, nodes, list, text, bool, boolOr, nodeOr, nodesOr, kindOf, kindText, eraseK, h0]

theorem rt_tsEnum {n m : Nat} (ih : Ok n m) (rng : Rng) (id : Node) (members : Nodes) («const» : Bool) (declare : Bool) (hs : sizeK (.tsEnum id members «const» declare) ≤ n)
    (ho : Own rng (.tsEnum id members «const» declare)) (hm : MadeK (.tsEnum id members «const» declare)) :
    read (m + 1) (convertK rng (.tsEnum id members «const» declare)) = some (eraseK rng (.tsEnum id members «const» declare)) := by
  simp only [sizeK] at hs
  simp only [MadeK] at hm
  have h0 := ih id (by omega) hm.1
  have h1 := okL ih members (by omega) hm.2
  simp [convertK, read_ob, type_TSEnumDeclaration, readTSEnumDeclaration, get_ob, look, node, nodes, list, text, bool, boolOr, nodeOr, nodesOr, kindOf, kindText, eraseK, h0, h1]

theorem rt_tsEnumMember {n m : Nat} (ih : Ok n m) (rng : Rng) (key : Node) (val : Node) (hs : sizeK (.tsEnumMember key val) ≤ n)
    (ho : Own rng (.tsEnumMember key val)) (hm : MadeK (.tsEnumMember key val)) :
    read (m + 1) (convertK rng (.tsEnumMember key val)) = some (eraseK rng (.tsEnumMember key val)) := by
  simp only [sizeK] at hs
  simp only [MadeK] at hm
  have h0 := ih key (by omega) hm.1
  have h1 := ih val (by omega) hm.2
  simp [convertK, read_ob, type_TSEnumMember, readTSEnumMember, get_ob, look, node, nodes, list, text, bool, boolOr, nodeOr, nodesOr, kindOf, kindText, eraseK, h0, h1]

theorem rt_tsModule {n m : Nat} (ih : Ok n m) (rng : Rng) (id : Node) (body : Node) (declare : Bool) (global : Bool) (hs : sizeK (.tsModule id body declare global) ≤ n)
    (ho : Own rng (.tsModule id body declare global)) (hm : MadeK (.tsModule id body declare global)) :
    read (m + 1) (convertK rng (.tsModule id body declare global)) = some (eraseK rng (.tsModule id body declare global)) := by
  simp only [sizeK] at hs
  simp only [MadeK] at hm
  have h0 := ih id (by omega) hm.1
  have h1 := ih body (by omega) hm.2
  simp [convertK, read_ob, type_TSModuleDeclaration, readTSModuleDeclaration, get_ob, look, node, nodes, list, text, bool, boolOr, nodeOr, nodesOr, kindOf, kindText, eraseK, h0, h1]

theorem rt_tsExportAssign {n m : Nat} (ih : Ok n m) (rng : Rng) (e : Node) (hs : sizeK (.tsExportAssign e) ≤ n)
    (ho : Own rng (.tsExportAssign e)) (hm : MadeK (.tsExportAssign e)) :
    read (m + 1) (convertK rng (.tsExportAssign e)) = some (eraseK rng (.tsExportAssign e)) := by
  simp only [sizeK] at hs
  simp only [MadeK] at hm
  have h0 := ih e (by omega) hm
  simp [convertK, read_ob, type_TSExportAssignment, readTSExportAssignment, get_ob, look, node, nodes, list, text, bool, boolOr, nodeOr, nodesOr, kindOf, kindText, eraseK, h0]

theorem rt_tsLit {n m : Nat} (ih : Ok n m) (rng : Rng) (lit : Node) (hs : sizeK (.tsLit lit) ≤ n)
    (ho : Own rng (.tsLit lit)) (hm : MadeK (.tsLit lit)) :
    read (m + 1) (convertK rng (.tsLit lit)) = some (eraseK rng (.tsLit lit)) := by
  simp only [sizeK] at hs
  simp only [MadeK] at hm
  have h0 := ih lit (by omega) hm
  simp [convertK, read_ob, type_TSLiteralType, readTSLiteralType, get_ob, look, node, nodes, list, text, bool, boolOr, nodeOr, nodesOr, kindOf, kindText, eraseK, h0]

theorem rt_tsImportAlias {n m : Nat} (ih : Ok n m) (rng : Rng) (name : Node) (val : Node) («export» : Bool) (hs : sizeK (.tsImportAlias name val «export») ≤ n)
    (ho : Own rng (.tsImportAlias name val «export»)) (hm : MadeK (.tsImportAlias name val «export»)) :
    read (m + 1) (convertK rng (.tsImportAlias name val «export»)) = some (eraseK rng (.tsImportAlias name val «export»)) := by
  simp only [sizeK] at hs
  simp only [MadeK] at hm
  have h0 := ih name (by omega) hm.1
  have h1 := ih val (by omega) hm.2
  simp [convertK, read_ob, type_TSImportEqualsDeclaration, readTSImportEqualsDeclaration, get_ob, look, node, nodes, list, text, bool, boolOr, nodeOr, nodesOr, kindOf, kindText, eraseK, h0, h1]

theorem rt_tsNewSig {n m : Nat} (ih : Ok n m) (rng : Rng) (params : Nodes) (tparams : Node) (ret : Node) (abstract : Bool) (hs : sizeK (.tsNewSig params tparams ret abstract) ≤ n)
    (ho : Own rng (.tsNewSig params tparams ret abstract)) (hm : MadeK (.tsNewSig params tparams ret abstract)) :
    read (m + 1) (convertK rng (.tsNewSig params tparams ret abstract)) = some (eraseK rng (.tsNewSig params tparams ret abstract)) := by
  simp only [sizeK] at hs
  simp only [MadeK] at hm
  have h0 := okL ih params (by omega) hm.1
  have h1 := ih tparams (by omega) hm.2.1
  have h2 := ih ret (by omega) hm.2.2
  simp only [Own] at ho
  have e0 := convertT_eq ho.1
  have e1 := convertT_eq ho.2
  simp [convertK, read_ob, type_TSConstructSignatureDeclaration, readTSConstructSignatureDeclaration, get_ob, look, node, nodes, list, text, bool, boolOr, nodeOr, nodesOr, kindOf, kindText, eraseK, h0, h1, h2, e0, e1]

theorem rt_tsNew {n m : Nat} (ih : Ok n m) (rng : Rng) (params : Nodes) (tparams : Node) (ret : Node) (abstract : Bool) (hs : sizeK (.tsNew params tparams ret abstract) ≤ n)
    (ho : Own rng (.tsNew params tparams ret abstract)) (hm : MadeK (.tsNew params tparams ret abstract)) :
    read (m + 1) (convertK rng (.tsNew params tparams ret abstract)) = some (eraseK rng (.tsNew params tparams ret abstract)) := by
  simp only [sizeK] at hs
  simp only [MadeK] at hm
  have h0 := okL ih params (by omega) hm.1
  have h1 := ih tparams (by omega) hm.2.1
  have h2 := ih ret (by omega) hm.2.2
  simp only [Own] at ho
  have e0 := convertT_eq ho.1
  have e1 := convertT_eq ho.2
  simp [convertK, read_ob, type_TSConstructorType, readTSConstructorType, get_ob, look, node, nodes, list, text, bool, boolOr, nodeOr, nodesOr, kindOf, kindText, eraseK, h0, h1, h2, e0, e1]

theorem rt_tsFnTyp {n m : Nat} (ih : Ok n m) (rng : Rng) (params : Nodes) (tparams : Node) (ret : Node) (hs : sizeK (.tsFnTyp params tparams ret) ≤ n)
    (ho : Own rng (.tsFnTyp params tparams ret)) (hm : MadeK (.tsFnTyp params tparams ret)) :
    read (m + 1) (convertK rng (.tsFnTyp params tparams ret)) = some (eraseK rng (.tsFnTyp params tparams ret)) := by
  simp only [sizeK] at hs
  simp only [MadeK] at hm
  have h0 := okL ih params (by omega) hm.1
  have h1 := ih tparams (by omega) hm.2.1
  have h2 := ih ret (by omega) hm.2.2
  simp only [Own] at ho
  have e0 := convertT_eq ho.1
  have e1 := convertT_eq ho.2
  simp [convertK, read_ob, type_TSFunctionType, readTSFunctionType, get_ob, look, node, nodes, list, text, bool, boolOr, nodeOr, nodesOr, kindOf, kindText, eraseK, h0, h1, h2, e0, e1]

theorem rt_tsImportTyp {n m : Nat} (ih : Ok n m) (rng : Rng) (arg : Node) (qual : Node) (args : Node) (hs : sizeK (.tsImportTyp arg qual args) ≤ n)
    (ho : Own rng (.tsImportTyp arg qual args)) (hm : MadeK (.tsImportTyp arg qual args)) :
    read (m + 1) (convertK rng (.tsImportTyp arg qual args)) = some (eraseK rng (.tsImportTyp arg qual args)) := by
  simp only [sizeK] at hs
  simp only [MadeK] at hm
  have h0 := ih arg (by omega) hm.1
  have h1 := ih qual (by omega) hm.2.1
  have h2 := ih args (by omega) hm.2.2
  simp only [Own] at ho
  have e0 := convertT_eq ho.1
  have e1 := convertT_eq ho.2
  simp [convertK, read_ob, type_TSImportType, readTSImportType, get_ob, look, node, nodes, list, text, bool, boolOr, nodeOr, nodesOr, kindOf, kindText, eraseK, h0, h1, h2, e0, e1]

theorem rt_tsQuery {n m : Nat} (ih : Ok n m) (rng : Rng) (arg : Node) (hs : sizeK (.tsQuery arg) ≤ n)
    (ho : Own rng (.tsQuery arg)) (hm : MadeK (.tsQuery arg)) :
    read (m + 1) (convertK rng (.tsQuery arg)) = some (eraseK rng (.tsQuery arg)) := by
  simp only [sizeK] at hs
  simp only [MadeK] at hm
  have h0 := ih arg (by omega) hm
  simp [convertK, read_ob, type_TSTypeQuery, readTSTypeQuery, get_ob, look, node, nodes, list, text, bool, boolOr, nodeOr, nodesOr, kindOf, kindText, eraseK, h0]

theorem rt_tsCond {n m : Nat} (ih : Ok n m) (rng : Rng) (check : Node) (ext : Node) (yes : Node) (no : Node) (hs : sizeK (.tsCond check ext yes no) ≤ n)
    (ho : Own rng (.tsCond check ext yes no)) (hm : MadeK (.tsCond check ext yes no)) :
    read (m + 1) (convertK rng (.tsCond check ext yes no)) = some (eraseK rng (.tsCond check ext yes no)) := by
  simp only [sizeK] at hs
  simp only [MadeK] at hm
  have h0 := ih check (by omega) hm.1
  have h1 := ih ext (by omega) hm.2.1
  have h2 := ih yes (by omega) hm.2.2.1
  have h3 := ih no (by omega) hm.2.2.2
  simp [convertK, read_ob, type_TSConditionalType, readTSConditionalType, get_ob, look, node, nodes, list, text, bool, boolOr, nodeOr, nodesOr, kindOf, kindText, eraseK, h0, h1, h2, h3]

theorem rt_tsInfer {n m : Nat} (ih : Ok n m) (rng : Rng) (arg : Node) (hs : sizeK (.tsInfer arg) ≤ n)
    (ho : Own rng (.tsInfer arg)) (hm : MadeK (.tsInfer arg)) :
    read (m + 1) (convertK rng (.tsInfer arg)) = some (eraseK rng (.tsInfer arg)) := by
  simp only [sizeK] at hs
  simp only [MadeK] at hm
  have h0 := ih arg (by omega) hm
  simp only [Own] at ho
  have e0 := convertT_eq ho
  simp [convertK, read_ob, type_TSInferType, readTSInferType, get_ob, look, node, nodes, list, text, bool, boolOr, nodeOr, nodesOr, kindOf, kindText, eraseK, h0, e0]

theorem rt_tsParen {n m : Nat} (ih : Ok n m) (rng : Rng) (arg : Node) (hs : sizeK (.tsParen arg) ≤ n)
    (ho : Own rng (.tsParen arg)) (hm : MadeK (.tsParen arg)) :
    read (m + 1) (convertK rng (.tsParen arg)) = some (eraseK rng (.tsParen arg)) := by
  simp only [sizeK] at hs
  simp only [MadeK] at hm
  have h0 := ih arg (by omega) hm
  simp only [Own] at ho
  have e0 := convertT_eq ho
  simp [convertK, read_ob, type_TSParenthesizedType, readTSParenthesizedType, get_ob, look, node, nodes, list, text, bool, boolOr, nodeOr, nodesOr, kindOf, kindText, eraseK, h0, e0]

theorem rt_tsIdxAccess {n m : Nat} (ih : Ok n m) (rng : Rng) (o : Node) (idx : Node) (hs : sizeK (.tsIdxAccess o idx) ≤ n)
    (ho : Own rng (.tsIdxAccess o idx)) (hm : MadeK (.tsIdxAccess o idx)) :
    read (m + 1) (convertK rng (.tsIdxAccess o idx)) = some (eraseK rng (.tsIdxAccess o idx)) := by
  simp only [sizeK] at hs
  simp only [MadeK] at hm
  have h0 := ih o (by omega) hm.1
  have h1 := ih idx (by omega) hm.2
  simp only [Own] at ho
  have e0 := convertT_eq ho.1
  have e1 := convertT_eq ho.2
  simp [convertK, read_ob, type_TSIndexedAccessType, readTSIndexedAccessType, get_ob, look, node, nodes, list, text, bool, boolOr, nodeOr, nodesOr, kindOf, kindText, eraseK, h0, h1, e0, e1]

theorem rt_tsMapped {n m : Nat} (ih : Ok n m) (rng : Rng) (readonly : Mod) (optional : Mod) (key : Node) (name : Node) (val : Node) (hs : sizeK (.tsMapped readonly optional key name val) ≤ n)
    (ho : Own rng (.tsMapped readonly optional key name val)) (hm : MadeK (.tsMapped readonly optional key name val)) :
    read (m + 1) (convertK rng (.tsMapped readonly optional key name val)) = some (eraseK rng (.tsMapped readonly optional key name val)) := by
  simp only [sizeK] at hs
  simp only [MadeK] at hm
  have h0 := ih key (by omega) hm.1
  have h1 := ih name (by omega) hm.2.1
  have h2 := ih val (by omega) hm.2.2
  simp only [Own] at ho
  have e0 := convertT_eq ho.1
  have e1 := convertT_eq ho.2.1
  have e2 := convertT_eq ho.2.2
  cases readonly <;> cases optional
  all_goals simp [convertK, read_ob, type_TSMappedType, readTSMappedType, get_ob, look, node, nodes, list, text, bool, boolOr, nodeOr, nodesOr, kindOf, kindText, eraseK, h0, h1, h2, e0, e1, e2, modOf, Mod.json]

theorem rt_tsTypOp {n m : Nat} (ih : Ok n m) (rng : Rng) (op : String) (arg : Node) (hs : sizeK (.tsTypOp op arg) ≤ n)
    (ho : Own rng (.tsTypOp op arg)) (hm : MadeK (.tsTypOp op arg)) :
    read (m + 1) (convertK rng (.tsTypOp op arg)) = some (eraseK rng (.tsTypOp op arg)) := by
  simp only [sizeK] at hs
  simp only [MadeK] at hm
  have h0 := ih arg (by omega) hm
  simp only [Own] at ho
  have e0 := convertT_eq ho
  simp [convertK, read_ob, type_TSTypeOperator, readTSTypeOperator, get_ob, look, node, nodes, list, text, bool, boolOr, nodeOr, nodesOr, kindOf, kindText, eraseK, h0, e0]

theorem rt_tsTuple {n m : Nat} (ih : Ok n m) (rng : Rng) (elems : Nodes) (hs : sizeK (.tsTuple elems) ≤ n)
    (ho : Own rng (.tsTuple elems)) (hm : MadeK (.tsTuple elems)) :
    read (m + 1) (convertK rng (.tsTuple elems)) = some (eraseK rng (.tsTuple elems)) := by
  simp only [sizeK] at hs
  simp only [MadeK] at hm
  have h0 := okL ih elems (by omega) hm
  simp [convertK, read_ob, type_TSTupleType, readTSTupleType, get_ob, look, node, nodes, list, text, bool, boolOr, nodeOr, nodesOr, kindOf, kindText, eraseK, h0]

theorem rt_tsNamed {n m : Nat} (ih : Ok n m) (rng : Rng) (optional : Bool) (label : Node) (val : Node) (hs : sizeK (.tsNamed optional label val) ≤ n)
    (ho : Own rng (.tsNamed optional label val)) (hm : MadeK (.tsNamed optional label val)) :
    read (m + 1) (convertK rng (.tsNamed optional label val)) = some (eraseK rng (.tsNamed optional label val)) := by
  simp only [sizeK] at hs
  simp only [MadeK] at hm
  have h0 := ih label (by omega) hm.1
  have h1 := ih val (by omega) hm.2
  simp only [Own] at ho
  have e0 := convertT_eq ho
  simp [convertK, read_ob, type_TSNamedTupleMember, readTSNamedTupleMember, get_ob, look, node, nodes, list, text, bool, boolOr, nodeOr, nodesOr, kindOf, kindText, eraseK, h0, h1, e0]

theorem rt_tsRest {n m : Nat} (ih : Ok n m) (rng : Rng) (arg : Node) (hs : sizeK (.tsRest arg) ≤ n)
    (ho : Own rng (.tsRest arg)) (hm : MadeK (.tsRest arg)) :
    read (m + 1) (convertK rng (.tsRest arg)) = some (eraseK rng (.tsRest arg)) := by
  simp only [sizeK] at hs
  simp only [MadeK] at hm
  have h0 := ih arg (by omega) hm
  simp only [Own] at ho
  have e0 := convertT_eq ho
  simp [convertK, read_ob, type_TSRestType, readTSRestType, get_ob, look, node, nodes, list, text, bool, boolOr, nodeOr, nodesOr, kindOf, kindText, eraseK, h0, e0]

theorem rt_tsOpt {n m : Nat} (ih : Ok n m) (rng : Rng) (arg : Node) (hs : sizeK (.tsOpt arg) ≤ n)
    (ho : Own rng (.tsOpt arg)) (hm : MadeK (.tsOpt arg)) :
    read (m + 1) (convertK rng (.tsOpt arg)) = some (eraseK rng (.tsOpt arg)) := by
  simp only [sizeK] at hs
  simp only [MadeK] at hm
  have h0 := ih arg (by omega) hm
  simp only [Own] at ho
  have e0 := convertT_eq ho
  simp [convertK, read_ob, type_TSOptionalType, readTSOptionalType, get_ob, look, node, nodes, list, text, bool, boolOr, nodeOr, nodesOr, kindOf, kindText, eraseK, h0, e0]

theorem rt_decorator {n m : Nat} (ih : Ok n m) (rng : Rng) (e : Node) (hs : sizeK (.decorator e) ≤ n)
    (ho : Own rng (.decorator e)) (hm : MadeK (.decorator e)) :
    read (m + 1) (convertK rng (.decorator e)) = some (eraseK rng (.decorator e)) := by
  simp only [sizeK] at hs
  simp only [MadeK] at hm
  have h0 := ih e (by omega) hm
  simp [convertK, read_ob, type_Decorator, readDecorator, get_ob, look, node, nodes, list, text, bool, boolOr, nodeOr, nodesOr, kindOf, kindText, eraseK, h0]

theorem rt_identT {n m : Nat} (ih : Ok n m) (rng : Rng) (name : String) (ques : Option Rng) (annot : Node) (decs : Nodes) (targs : Node) (hs : sizeK (.identT name ques annot decs targs) ≤ n)
    (ho : Own rng (.identT name ques annot decs targs)) (hm : MadeK (.identT name ques annot decs targs)) :
    read (m + 1) (convertK rng (.identT name ques annot decs targs)) = some (eraseK rng (.identT name ques annot decs targs)) := by
  simp only [sizeK] at hs
  simp only [MadeK] at hm
  have h0 := ih annot (by omega) hm.1
  have h1 := okL ih decs (by omega) hm.2.1
  have h2 := ih targs (by omega) hm.2.2
  simp only [Own] at ho
  obtain ⟨ho, rfl⟩ := ho
  have e0 := convertT_eq ho
  cases ques
  all_goals simp [convertK, read_ob, type_Identifier, readIdentifier, get_ob, look, node, nodes, list, text, bool, boolOr, nodeOr, nodesOr, kindOf, kindText, eraseK, h0, h1, h2, e0, loc_plain, mark, seen, erase]

theorem rt_newT {n m : Nat} (ih : Ok n m) (rng : Rng) (callee : Node) (args : Nodes) (targs : Node) (hs : sizeK (.newT callee args targs) ≤ n)
    (ho : Own rng (.newT callee args targs)) (hm : MadeK (.newT callee args targs)) :
    read (m + 1) (convertK rng (.newT callee args targs)) = some (eraseK rng (.newT callee args targs)) := by
  simp only [sizeK] at hs
  simp only [MadeK] at hm
  have h0 := ih callee (by omega) hm.1
  have h1 := okL ih args (by omega) hm.2.1
  have h2 := ih targs (by omega) hm.2.2
  simp only [Own] at ho
  have e0 := typArgs_eq ho
  simp [convertK, read_ob, type_NewExpression, readNewExpression, get_ob, look, node, nodes, list, text, bool, boolOr, nodeOr, nodesOr, kindOf, kindText, eraseK, h0, h1, h2, e0]

theorem rt_callT {n m : Nat} (ih : Ok n m) (rng : Rng) (callee : Node) (args : Nodes) (optional : Bool) (targs : Node) (hs : sizeK (.callT callee args optional targs) ≤ n)
    (ho : Own rng (.callT callee args optional targs)) (hm : MadeK (.callT callee args optional targs)) :
    read (m + 1) (convertK rng (.callT callee args optional targs)) = some (eraseK rng (.callT callee args optional targs)) := by
  simp only [sizeK] at hs
  simp only [MadeK] at hm
  have h0 := ih callee (by omega) hm.1
  have h1 := okL ih args (by omega) hm.2.1
  have h2 := ih targs (by omega) hm.2.2
  simp only [Own] at ho
  have e0 := typArgs_eq ho
  simp [convertK, read_ob, type_CallExpression, readCallExpression, get_ob, look, node, nodes, list, text, bool, boolOr, nodeOr, nodesOr, kindOf, kindText, eraseK, h0, h1, h2, e0]

theorem rt_fnT {n m : Nat} (ih : Ok n m) (rng : Rng) (expr : Bool) (id : Node) (gen : Bool) (async : Bool) (params : Nodes) (body : Node) (tparams : Node) (ret : Node) (hs : sizeK (.fnT expr id gen async params body tparams ret) ≤ n)
    (ho : Own rng (.fnT expr id gen async params body tparams ret)) (hm : MadeK (.fnT expr id gen async params body tparams ret)) :
    read (m + 1) (convertK rng (.fnT expr id gen async params body tparams ret)) = some (eraseK rng (.fnT expr id gen async params body tparams ret)) := by
  simp only [sizeK] at hs
  simp only [MadeK] at hm
  have h0 := ih id (by omega) hm.1
  have h1 := okL ih params (by omega) hm.2.1
  have h2 := ih body (by omega) hm.2.2.1
  have h3 := ih tparams (by omega) hm.2.2.2.1
  have h4 := ih ret (by omega) hm.2.2.2.2
  simp only [Own] at ho
  have e0 := typParams_eq ho.1
  have e1 := convertT_eq ho.2.1
  cases expr
  · cases body with
    | nil =>
      have hg := ho.2.2 rfl rfl
      subst hg
      simp [convertK, read_ob, type_FunctionDeclaration, readFunctionDeclaration, type_FunctionExpression, readFunctionExpression, type_TSDeclareFunction, readTSDeclareFunction, get_ob, look, node, nodes, list, text, bool, boolOr, nodeOr, nodesOr, kindOf, kindText, eraseK, h0, h1, h2, h3, h4, e0, e1, Node.isNil]
    | mk rb kb => simp [convertK, read_ob, type_FunctionDeclaration, readFunctionDeclaration, type_FunctionExpression, readFunctionExpression, type_TSDeclareFunction, readTSDeclareFunction, get_ob, look, node, nodes, list, text, bool, boolOr, nodeOr, nodesOr, kindOf, kindText, eraseK, h0, h1, h2, h3, h4, e0, e1, Node.isNil]
  · simp [convertK, read_ob, type_FunctionDeclaration, readFunctionDeclaration, type_FunctionExpression, readFunctionExpression, type_TSDeclareFunction, readTSDeclareFunction, get_ob, look, node, nodes, list, text, bool, boolOr, nodeOr, nodesOr, kindOf, kindText, eraseK, h0, h1, h2, h3, h4, e0, e1, Node.isNil]

theorem rt_arrowT {n m : Nat} (ih : Ok n m) (rng : Rng) (async : Bool) (params : Nodes) (body : Node) (expr : Bool) (tparams : Node) (ret : Node) (hs : sizeK (.arrowT async params body expr tparams ret) ≤ n)
    (ho : Own rng (.arrowT async params body expr tparams ret)) (hm : MadeK (.arrowT async params body expr tparams ret)) :
    read (m + 1) (convertK rng (.arrowT async params body expr tparams ret)) = some (eraseK rng (.arrowT async params body expr tparams ret)) := by
  simp only [sizeK] at hs
  simp only [MadeK] at hm
  have h0 := okL ih params (by omega) hm.1
  have h1 := ih body (by omega) hm.2.1
  have h2 := ih tparams (by omega) hm.2.2.1
  have h3 := ih ret (by omega) hm.2.2.2
  simp only [Own] at ho
  have e0 := typParams_eq ho.1
  have e1 := convertT_eq ho.2.1
  have e2 := loc_arrow rng tparams ret ho.2.2.1 ho.2.2.2
  simp [convertK, read_ob, type_ArrowFunctionExpression, readArrowFunctionExpression, get_ob, look, node, nodes, list, text, bool, boolOr, nodeOr, nodesOr, kindOf, kindText, eraseK, h0, h1, h2, h3, e0, e1, e2]

theorem rt_arrPatT {n m : Nat} (ih : Ok n m) (rng : Rng) (elems : Nodes) (ques : Option Rng) (annot : Node) (decs : Nodes) (hs : sizeK (.arrPatT elems ques annot decs) ≤ n)
    (ho : Own rng (.arrPatT elems ques annot decs)) (hm : MadeK (.arrPatT elems ques annot decs)) :
    read (m + 1) (convertK rng (.arrPatT elems ques annot decs)) = some (eraseK rng (.arrPatT elems ques annot decs)) := by
  simp only [sizeK] at hs
  simp only [MadeK] at hm
  have h0 := okL ih elems (by omega) hm.1
  have h1 := ih annot (by omega) hm.2.1
  have h2 := okL ih decs (by omega) hm.2.2
  simp only [Own] at ho
  have e0 := convertT_eq ho.1
  obtain rfl := ho.2
  cases ques
  all_goals simp [convertK, read_ob, type_ArrayPattern, readArrayPattern, get_ob, look, node, nodes, list, text, bool, boolOr, nodeOr, nodesOr, kindOf, kindText, eraseK, h0, h1, h2, e0, loc_plain, mark, seen, eraseL]

theorem rt_restPatT {n m : Nat} (ih : Ok n m) (rng : Rng) (arg : Node) (ques : Option Rng) (annot : Node) (decs : Nodes) (hs : sizeK (.restPatT arg ques annot decs) ≤ n)
    (ho : Own rng (.restPatT arg ques annot decs)) (hm : MadeK (.restPatT arg ques annot decs)) :
    read (m + 1) (convertK rng (.restPatT arg ques annot decs)) = some (eraseK rng (.restPatT arg ques annot decs)) := by
  simp only [sizeK] at hs
  simp only [MadeK] at hm
  have h0 := ih arg (by omega) hm.1
  have h1 := ih annot (by omega) hm.2.1
  have h2 := okL ih decs (by omega) hm.2.2
  simp only [Own] at ho
  have e0 := convertT_eq ho.1
  obtain rfl := ho.2
  cases ques
  all_goals simp [convertK, read_ob, type_RestElement, readRestElement, get_ob, look, node, nodes, list, text, bool, boolOr, nodeOr, nodesOr, kindOf, kindText, eraseK, h0, h1, h2, e0, loc_plain, mark, seen, eraseL]

theorem rt_objPatT {n m : Nat} (ih : Ok n m) (rng : Rng) (props : Nodes) (ques : Option Rng) (annot : Node) (decs : Nodes) (hs : sizeK (.objPatT props ques annot decs) ≤ n)
    (ho : Own rng (.objPatT props ques annot decs)) (hm : MadeK (.objPatT props ques annot decs)) :
    read (m + 1) (convertK rng (.objPatT props ques annot decs)) = some (eraseK rng (.objPatT props ques annot decs)) := by
  simp only [sizeK] at hs
  simp only [MadeK] at hm
  have h0 := okL ih props (by omega) hm.1
  have h1 := ih annot (by omega) hm.2.1
  have h2 := okL ih decs (by omega) hm.2.2
  simp only [Own] at ho
  have e0 := convertT_eq ho.1
  obtain ⟨_, rfl, rfl⟩ := ho
  simp [convertK, read_ob, type_ObjectPattern, readObjectPattern, get_ob, look, node, nodes, list, text, bool, boolOr, nodeOr, nodesOr, kindOf, kindText, eraseK, h0, h1, h2, e0, loc_plain, mark, seen, eraseL]

theorem rt_methodT {n m : Nat} (ih : Ok n m) (rng : Rng) (key : Node) (static : Bool) (computed : Bool) (kind : PropKind) (val : Node) (ques : Option Rng) (definite : Bool) (override : Bool) (abstract : Bool) (readonly : Bool) (acc : String) (decs : Nodes) (hs : sizeK (.methodT key static computed kind val ques definite override abstract readonly acc decs) ≤ n)
    (ho : Own rng (.methodT key static computed kind val ques definite override abstract readonly acc decs)) (hm : MadeK (.methodT key static computed kind val ques definite override abstract readonly acc decs)) :
    read (m + 1) (convertK rng (.methodT key static computed kind val ques definite override abstract readonly acc decs)) = some (eraseK rng (.methodT key static computed kind val ques definite override abstract readonly acc decs)) := by
  simp only [sizeK] at hs
  simp only [MadeK] at hm
  have h0 := ih key (by omega) hm.1
  have h1 := ih val (by omega) hm.2.1
  have h2 := okL ih decs (by omega) hm.2.2
  simp only [Own] at ho
  cases kind
  all_goals first | (simp at ho; done) | skip
  all_goals cases ques
  all_goals simp [convertK, read_ob, type_MethodDefinition, readMethodDefinition, get_ob, look, node, nodes, list, text, bool, boolOr, nodeOr, nodesOr, kindOf, kindText, eraseK, h0, h1, h2, dec_eq, mark, seen, methodKind, PropKind.text]

theorem rt_fieldT {n m : Nat} (ih : Ok n m) (rng : Rng) (key : Node) (static : Bool) (computed : Bool) (val : Node) (ques : Option Rng) (definite : Bool) (override : Bool) (abstract : Bool) (readonly : Bool) (declare : Bool) (acc : String) (annot : Node) (decs : Nodes) (hs : sizeK (.fieldT key static computed val ques definite override abstract readonly declare acc annot decs) ≤ n)
    (ho : Own rng (.fieldT key static computed val ques definite override abstract readonly declare acc annot decs)) (hm : MadeK (.fieldT key static computed val ques definite override abstract readonly declare acc annot decs)) :
    read (m + 1) (convertK rng (.fieldT key static computed val ques definite override abstract readonly declare acc annot decs)) = some (eraseK rng (.fieldT key static computed val ques definite override abstract readonly declare acc annot decs)) := by
  simp only [sizeK] at hs
  simp only [MadeK] at hm
  have h0 := ih key (by omega) hm.1
  have h1 := ih val (by omega) hm.2.1
  have h2 := ih annot (by omega) hm.2.2.1
  have h3 := okL ih decs (by omega) hm.2.2.2
  simp only [Own] at ho
  have e0 := convertT_eq ho.1
  cases hk : isTsSig key computed val
  · cases ques
    all_goals simp [convertK, read_ob, type_PropertyDefinition, readPropertyDefinition, type_TSIndexSignature, readTSIndexSignature, get_ob, look, node, nodes, list, text, bool, boolOr, nodeOr, nodesOr, kindOf, kindText, eraseK, h0, h1, h2, h3, e0, dec_eq, mark, seen, hk, readAll]
  · obtain ⟨rfl, rfl⟩ := ho.2 hk
    cases ques
    all_goals simp [convertK, read_ob, type_PropertyDefinition, readPropertyDefinition, type_TSIndexSignature, readTSIndexSignature, get_ob, look, node, nodes, list, text, bool, boolOr, nodeOr, nodesOr, kindOf, kindText, eraseK, h0, h1, h2, h3, e0, dec_eq, mark, seen, hk, readAll]

theorem rt_paramProp {n m : Nat} (ih : Ok n m) (rng : Rng) (acc : String) (readonly : Bool) (override : Bool) (begin : Option Rng) (decs : Nodes) (param : Node) (hs : sizeK (.paramProp acc readonly override begin decs param) ≤ n)
    (ho : Own rng (.paramProp acc readonly override begin decs param)) (hm : MadeK (.paramProp acc readonly override begin decs param)) :
    read (m + 1) (convertK rng (.paramProp acc readonly override begin decs param)) = some (eraseK rng (.paramProp acc readonly override begin decs param)) := by
  simp only [sizeK] at hs
  simp only [MadeK] at hm
  have h0 := okL ih decs (by omega) hm.1
  have h1 := ih param (by omega) hm.2
  simp only [Own] at ho
  have hc : (readonly || override || acc != "") = true := by
    rcases ho.1 with h | h | h <;> simp [h]
  have e0 := loc_param param.rng begin (quesOf param) (annotOf param) ho.2.1 ho.2.2
  simp [convertK, read_ob, type_TSParameterProperty, readTSParameterProperty, get_ob, look, node, nodes, list, text, bool, boolOr, nodeOr, nodesOr, kindOf, kindText, eraseK, h0, h1, e0, hc]

theorem rt_jsxOpenT {n m : Nat} (ih : Ok n m) (rng : Rng) (name : Node) (attrs : Nodes) (closed : Bool) (targs : Node) (hs : sizeK (.jsxOpenT name attrs closed targs) ≤ n)
    (ho : Own rng (.jsxOpenT name attrs closed targs)) (hm : MadeK (.jsxOpenT name attrs closed targs)) :
    read (m + 1) (convertK rng (.jsxOpenT name attrs closed targs)) = some (eraseK rng (.jsxOpenT name attrs closed targs)) := by
  simp only [sizeK] at hs
  simp only [MadeK] at hm
  have h0 := ih name (by omega) hm.1
  have h1 := okL ih attrs (by omega) hm.2.1
  have h2 := ih targs (by omega) hm.2.2
  simp only [Own] at ho
  have e0 := typArgs_eq ho
  simp [convertK, read_ob, type_JSXOpeningElement, readJSXOpeningElement, get_ob, look, node, nodes, list, text, bool, boolOr, nodeOr, nodesOr, kindOf, kindText, eraseK, h0, h1, h2, e0]

theorem rt_tsKw {n m : Nat} (ih : Ok n m) (rng : Rng) (kw : TsKw) (hs : sizeK (.tsKw kw) ≤ n)
    (ho : Own rng (.tsKw kw)) (hm : MadeK (.tsKw kw)) :
    read (m + 1) (convertK rng (.tsKw kw)) = some (eraseK rng (.tsKw kw)) := by
  cases kw
  all_goals simp [convertK, TsKw.type, eraseK, read_ob, type_TSNumberKeyword, type_TSStringKeyword, type_TSAnyKeyword, type_TSBooleanKeyword, type_TSVoidKeyword, type_TSIntrinsicKeyword, type_TSNeverKeyword, type_TSSymbolKeyword, type_TSUndefinedKeyword, type_TSBigIntKeyword, type_TSNullKeyword, type_TSThisType, type_TSUnknownKeyword, type_TSObjectKeyword]

theorem key_ok {readonly : Bool} {key : Node} (h : KeyOk readonly key) : keyReadonly readonly key = .bool readonly := by
  unfold KeyOk at h
  split at h
  · rfl
  · rw [h]; rfl
  · rw [h]; rfl
  · exact h.elim

theorem rt_tsProp {n m : Nat} (ih : Ok n m) (rng : Rng) (key : Node) (val : Node) (ques : Option Rng) (kind : PropKind) (computed : Bool) (readonly : Bool) (hs : sizeK (.tsProp key val ques kind computed readonly) ≤ n)
    (ho : Own rng (.tsProp key val ques kind computed readonly)) (hm : MadeK (.tsProp key val ques kind computed readonly)) :
    read (m + 1) (convertK rng (.tsProp key val ques kind computed readonly)) = some (eraseK rng (.tsProp key val ques kind computed readonly)) := by
  simp only [sizeK] at hs
  simp only [MadeK] at hm
  have h0 := ih key (by omega) hm.1
  have h1 := ih val (by omega) hm.2
  simp only [Own] at ho
  cases hv : isCallSig val
  · simp only [hv, Bool.false_eq_true, if_false] at ho
    have e0 := convertT_eq ho.1
    have e1 := key_ok ho.2
    cases kind <;> cases ques
    all_goals simp [convertK, read_ob, type_TSMethodSignature, readTSMethodSignature, type_TSPropertySignature, readTSPropertySignature, get_ob, look, node, nodes, list, text, bool, boolOr, nodeOr, nodesOr, kindOf, kindText, eraseK, h0, h1, hv, mark, seen, memberKind, methodKind, PropKind.text, e0, e1]
  · simp only [hv, if_true] at ho
    subst ho
    have e0 : True := trivial
    have e1 : True := trivial
    cases kind <;> cases ques
    all_goals simp [convertK, read_ob, type_TSMethodSignature, readTSMethodSignature, type_TSPropertySignature, readTSPropertySignature, get_ob, look, node, nodes, list, text, bool, boolOr, nodeOr, nodesOr, kindOf, kindText, eraseK, h0, h1, hv, mark, seen, memberKind, methodKind, PropKind.text, e0, e1]

theorem rt_tsDecFn {n m : Nat} (ih : Ok n m) (rng : Rng) (id : Node) (gen : Bool) (async : Bool) (params : Nodes) (body : Node) (tparams : Node) (ret : Node) (hs : sizeK (.tsDecFn id gen async params body tparams ret) ≤ n)
    (ho : Own rng (.tsDecFn id gen async params body tparams ret)) (hm : MadeK (.tsDecFn id gen async params body tparams ret)) :
    read (m + 1) (convertK rng (.tsDecFn id gen async params body tparams ret)) = some (eraseK rng (.tsDecFn id gen async params body tparams ret)) := by
  simp only [sizeK] at hs
  simp only [MadeK] at hm
  have h0 := ih id (by omega) hm.1
  have h1 := okL ih params (by omega) hm.2.1
  have h2 := ih body (by omega) hm.2.2.1
  have h3 := ih tparams (by omega) hm.2.2.2.1
  have h4 := ih ret (by omega) hm.2.2.2.2
  simp only [Own] at ho
  have e0 := typParams_eq ho.1
  have e1 := convertT_eq ho.2.1
  obtain rfl := ho.2.2
  simp [convertK, read_ob, type_TSDeclareFunction, readTSDeclareFunction, get_ob, look, node, nodes, list, text, bool, boolOr, nodeOr, nodesOr, kindOf, kindText, eraseK, h0, h1, h2, h3, h4, e0, e1]

theorem rt_tsDecClass {n m : Nat} (ih : Ok n m) (rng : Rng) (inner : Rng) (id : Node) (tparams : Node) (sup : Node) (supArgs : Node) (impls : Nodes) (body : Node) (abstract : Bool) (decs : Nodes) (hs : sizeK (.tsDecClass inner id tparams sup supArgs impls body abstract decs) ≤ n)
    (ho : Own rng (.tsDecClass inner id tparams sup supArgs impls body abstract decs)) (hm : MadeK (.tsDecClass inner id tparams sup supArgs impls body abstract decs)) :
    read (m + 1) (convertK rng (.tsDecClass inner id tparams sup supArgs impls body abstract decs)) = some (eraseK rng (.tsDecClass inner id tparams sup supArgs impls body abstract decs)) := by
  simp only [sizeK] at hs
  simp only [MadeK] at hm
  have h0 := ih id (by omega) hm.1
  have h1 := ih tparams (by omega) hm.2.1
  have h2 := ih sup (by omega) hm.2.2.1
  have h3 := ih supArgs (by omega) hm.2.2.2.1
  have h4 := okL ih impls (by omega) hm.2.2.2.2.1
  have h5 := ih body (by omega) hm.2.2.2.2.2.1
  have h6 := okL ih decs (by omega) hm.2.2.2.2.2.2
  simp only [Own] at ho
  obtain ⟨rfl, rfl, rfl, rfl⟩ := ho
  simp [convertK, read_ob, type_ClassDeclaration, readClassDeclaration, get_ob, look, node, nodes, list, text, bool, boolOr, nodeOr, nodesOr, kindOf, kindText, eraseK, h0, h1, h2, h3, h4, h5, h6, read_null, erase, eraseL]

theorem rt_tsDecVar {n m : Nat} (ih : Ok n m) (rng : Rng) (kind : String) (decs : Nodes) (hs : sizeK (.tsDecVar kind decs) ≤ n)
    (ho : Own rng (.tsDecVar kind decs)) (hm : MadeK (.tsDecVar kind decs)) :
    read (m + 1) (convertK rng (.tsDecVar kind decs)) = some (eraseK rng (.tsDecVar kind decs)) := by
  simp only [sizeK] at hs
  simp only [MadeK] at hm
  have h0 := okL ih decs (by omega) hm
  simp only [Own] at ho
  simp [convertK, read_ob, type_VariableDeclaration, readVariableDeclaration, get_ob, look, node, nodes, list, text, bool, boolOr, nodeOr, nodesOr, kindOf, kindText, eraseK, h0]

theorem rt_tsAlias {n m : Nat} (ih : Ok n m) (rng : Rng) (id : Node) (tparams : Node) (typ : Node) (declare : Bool) (hs : sizeK (.tsAlias id tparams typ declare) ≤ n)
    (ho : Own rng (.tsAlias id tparams typ declare)) (hm : MadeK (.tsAlias id tparams typ declare)) :
    read (m + 1) (convertK rng (.tsAlias id tparams typ declare)) = some (eraseK rng (.tsAlias id tparams typ declare)) := by
  simp only [sizeK] at hs
  simp only [MadeK] at hm
  have h0 := ih id (by omega) hm.1
  have h1 := ih tparams (by omega) hm.2.1
  have h2 := ih typ (by omega) hm.2.2
  simp only [Own] at ho
  have e0 := convertT_eq ho.1
  have e1 := convertT_eq ho.2.1
  cases declare
  · simp [convertK, read_ob, type_TSTypeAliasDeclaration, readTSTypeAliasDeclaration, get_ob, look, node, nodes, list, text, bool, boolOr, nodeOr, nodesOr, kindOf, kindText, eraseK, h0, h1, h2, e0, e1, read_null, erase]
  · obtain rfl := ho.2.2 rfl
    simp [convertK, read_ob, type_TSTypeAliasDeclaration, readTSTypeAliasDeclaration, get_ob, look, node, nodes, list, text, bool, boolOr, nodeOr, nodesOr, kindOf, kindText, eraseK, h0, h1, h2, e0, e1, read_null, erase]

theorem rt_idxSig {n m : Nat} (ih : Ok n m) (rng : Rng) (static : Bool) (abstract : Bool) (ques : Option Rng) (readonly : Bool) (declare : Bool) (acc : String) (key : Node) (annot : Node) (decs : Nodes) (hs : sizeK (.idxSig static abstract ques readonly declare acc key annot decs) ≤ n)
    (ho : Own rng (.idxSig static abstract ques readonly declare acc key annot decs)) (hm : MadeK (.idxSig static abstract ques readonly declare acc key annot decs)) :
    read (m + 1) (convertK rng (.idxSig static abstract ques readonly declare acc key annot decs)) = some (eraseK rng (.idxSig static abstract ques readonly declare acc key annot decs)) := by
  simp only [sizeK] at hs
  simp only [MadeK] at hm
  have h0 := ih key (by omega) hm.1
  have h1 := ih annot (by omega) hm.2.1
  have h2 := okL ih decs (by omega) hm.2.2
  simp only [Own] at ho
  obtain ⟨rfl, rfl, rfl, rfl, rfl, rfl, ht, rfl⟩ := ho
  have e0 := convertT_eq ht
  simp [convertK, read_ob, type_TSIndexSignature, readTSIndexSignature, get_ob, look, node, nodes, list, text, bool, boolOr, nodeOr, nodesOr, kindOf, kindText, eraseK, h0, h1, h2, e0, mark, seen, readAll, eraseL]

theorem okE {n m : Nat} (ih2 : ∀ n' m', n = n' + 1 → m = m' + 1 → Ok n' m') (hnm : n ≤ m) :
    ∀ l : Nodes, sizeL l ≤ n → ExtsOk l → MadeL l → readAll (read m) (convertE l) = some (eraseE l)
  | .nil, _, _, _ => by simp [convertE, eraseE, readAll]
  | .cons (.mk r (.tsRef name args)) l, hs, he, hm => by
    simp only [sizeL, size, sizeK] at hs
    simp only [ExtsOk] at he
    simp only [MadeL, Made, MadeK] at hm
    have h2 := okE ih2 hnm l (by omega) he.2 hm.2
    have e0 := convertT_eq he.1
    obtain ⟨n', rfl⟩ : ∃ n', n = n' + 1 := ⟨n - 1, by omega⟩
    obtain ⟨m', rfl⟩ : ∃ m', m = m' + 1 := ⟨m - 1, by omega⟩
    have ih := ih2 n' m' rfl rfl
    have h0 := ih name (by omega) hm.1.2.1
    have h1 := ih args (by omega) hm.1.2.2
    simp [convertE, eraseE, readAll, read_ob m', type_TSExpressionWithTypeArguments, readTSExpressionWithTypeArguments, get_ob, look,
      node, h0, h1, h2, e0]

theorem rt_tsItf {n m : Nat} (ih : Ok n m) (ih2 : ∀ n' m', n = n' + 1 → m = m' + 1 → Ok n' m') (hnm : n ≤ m) (rng : Rng)
    (id tparams : Node) (exts : Nodes) (body : Node) (declare : Bool) (hs : sizeK (.tsItf id tparams exts body declare) ≤ n)
    (ho : Own rng (.tsItf id tparams exts body declare)) (hm : MadeK (.tsItf id tparams exts body declare)) :
    read (m + 1) (convertK rng (.tsItf id tparams exts body declare)) = some (eraseK rng (.tsItf id tparams exts body declare)) := by
  simp only [sizeK] at hs
  simp only [MadeK] at hm
  simp only [Own] at ho
  have h0 := ih id (by omega) hm.1
  have h1 := ih tparams (by omega) hm.2.1
  have h2 := okE ih2 hnm exts (by omega) ho.2 hm.2.2.1
  have h3 := ih body (by omega) hm.2.2.2
  have e0 := convertT_eq ho.1
  cases exts with
  | nil => simp [convertK, read_ob, type_TSInterfaceDeclaration, readTSInterfaceDeclaration, get_ob, look, node, nodes, list, text, bool, boolOr, nodeOr, nodesOr, kindOf, kindText, eraseK, h0, h1, h3, e0, eraseE]
  | cons x l => simp [convertK, read_ob, type_TSInterfaceDeclaration, readTSInterfaceDeclaration, get_ob, look, node, nodes, list, text, bool, boolOr, nodeOr, nodesOr, kindOf, kindText, eraseK, h0, h1, h2, h3, e0]

/-- The argument of `require`. -/
theorem required_ok {n m : Nat} (ih2 : ∀ n' m', n = n' + 1 → m = m' + 1 → Ok n' m') (hnm : n ≤ m) (rng : Rng) (args : Nodes)
    (hs : sizeL args + 1 ≤ n) (ho : OneArg args) (hm : MadeL args) :
    read m (required rng args) = some (.mk rng (.extRef (eraseHead args))) := by
  match args, ho with
  | .cons a .nil, _ =>
    simp only [sizeL] at hs
    simp only [MadeL] at hm
    obtain ⟨n', rfl⟩ : ∃ n', n = n' + 1 := ⟨n - 1, by omega⟩
    obtain ⟨m', rfl⟩ : ∃ m', m = m' + 1 := ⟨m - 1, by omega⟩
    have h0 := ih2 n' m' rfl rfl a (by omega) hm.1
    simp [required, eraseHead, read_ob m', type_TSExternalModuleReference, readTSExternalModuleReference, get_ob, look, node, h0]

theorem rt_tsImportRequire {n m : Nat} (ih : Ok n m) (ih2 : ∀ n' m', n = n' + 1 → m = m' + 1 → Ok n' m') (hnm : n ≤ m) (rng : Rng)
    (name : Node) (callRng : Rng) (args : Nodes) (hs : sizeK (.tsImportRequire name callRng args) ≤ n)
    (ho : Own rng (.tsImportRequire name callRng args)) (hm : MadeK (.tsImportRequire name callRng args)) :
    read (m + 1) (convertK rng (.tsImportRequire name callRng args)) = some (eraseK rng (.tsImportRequire name callRng args)) := by
  simp only [sizeK] at hs
  simp only [MadeK] at hm
  simp only [Own] at ho
  have h0 := ih name (by omega) hm.1
  have h1 := required_ok ih2 hnm callRng args (by omega) ho hm.2
  simp [convertK, read_ob, type_TSImportEqualsDeclaration, readTSImportEqualsDeclaration, get_ob, look, node, nodes, list, text, bool, boolOr, nodeOr, nodesOr, kindOf, kindText, eraseK, h0, h1]

theorem ok_mono {n n' m : Nat} (h : Ok n m) (hn : n' ≤ n) : Ok n' m := fun t ht hm => h t (by omega) hm

theorem conv_export (rng : Rng) (typ all deflt : Bool) (dec : Node) (specs : Nodes) (src : Node) (h : noExportForm dec) :
    convertK rng (.exportDec typ all deflt dec specs src) =
      if all then ob "ExportAllDeclaration" rng [("exported", exported specs), ("source", convert src)]
      else if deflt then ob "ExportDefaultDeclaration" rng [("declaration", convert dec)]
      else ob "ExportNamedDeclaration" rng [("declaration", convert dec), ("specifiers", .arr (convertL specs)),
          ("source", convert src), ("exportKind", .str (kindText typ))] := by
  match dec with
  | .nil => simp [convertK, convert, exportDecl]
  | .mk r k =>
    have hd : ∀ a b, exportDecl rng typ a b (.mk r k) = ob "ExportNamedDeclaration" rng [("declaration", convertK r k),
        ("specifiers", .arr a), ("source", b), ("exportKind", .str (kindText typ))] := by
      intro a b
      cases k
      all_goals first | (exact h.elim) | simp only [exportDecl]
    have hc : convert (.mk r k) = convertK r k := by simp only [convert]
    have hk : convertK rng (.exportDec typ all deflt (.mk r k) specs src) =
      if all then ob "ExportAllDeclaration" rng [("exported", exported specs), ("source", convert src)]
      else if deflt then ob "ExportDefaultDeclaration" rng [("declaration", convert (.mk r k))]
      else exportDecl rng typ (convertL specs) (convert src) (.mk r k) := by simp only [convertK]
    rw [hk, hd, hc]

theorem erase_export (rng : Rng) (typ all deflt : Bool) (dec : Node) (specs : Nodes) (src : Node) (h : noExportForm dec) :
    eraseK rng (.exportDec typ all deflt dec specs src) =
      .mk rng (.exportDec typ all deflt (erase dec) (if all then eraseSpecs specs else eraseL specs) (erase src)) := by
  match dec with
  | .nil => simp [eraseK, erase, eraseExport]
  | .mk r k =>
    cases k
    all_goals first | (exact h.elim) | simp only [eraseK, erase, eraseExport]

theorem made_dec (dec : Node) (h : noExportForm dec) (hm : MadeDec dec) : Made dec := by
  match dec with
  | .nil => simp [Made]
  | .mk r k =>
    cases k
    all_goals first | (exact h.elim) | (simp only [MadeDec] at hm; simpa only [Made] using hm)

theorem rt_exportPlain {n m : Nat} (ih : Ok n m) (rng : Rng) (typ all deflt : Bool) (dec : Node) (specs : Nodes) (src : Node)
    (hp : noExportForm dec) (hs : sizeK (.exportDec typ all deflt dec specs src) ≤ n) (ho : Own rng (.exportDec typ all deflt dec specs src))
    (hm : MadeK (.exportDec typ all deflt dec specs src)) :
    read (m + 1) (convertK rng (.exportDec typ all deflt dec specs src)) = some (eraseK rng (.exportDec typ all deflt dec specs src)) := by
  rw [conv_export _ _ _ _ _ _ _ hp, erase_export _ _ _ _ _ _ _ hp]
  simp only [sizeK] at hs
  simp only [MadeK] at hm
  simp only [Own] at ho
  have h0 := ih dec (by omega) (made_dec dec hp hm.1)
  have h2 := ih src (by omega) hm.2.2
  cases all
  · simp only [Bool.false_eq_true, if_false] at hm ho
    have h1 := okL ih specs (by omega) hm.2.1
    cases deflt
    · cases typ
      all_goals simp [read_ob, type_ExportNamedDeclaration, readExportNamedDeclaration, get_ob, look, node, nodes, list, kindOf,
        text, kindText, h0, h1, h2]
    · simp only [if_true] at ho
      simp [read_ob, type_ExportDefaultDeclaration, readExportDefaultDeclaration, get_ob, look, node,
        h0, ho.1, ho.2.1, ho.2.2.1, eraseL, erase]
  · simp only [if_true] at hm ho
    obtain ⟨rfl, rfl, rfl, ha⟩ := ho
    match specs, ha with
    | .nil, _ =>
      simp [read_ob, type_ExportAllDeclaration, readExportAllDeclaration, get_ob, look, node, exported,
        read_null, allSpecs, eraseSpecs, erase, h2]
    | .cons (.mk r (.exportSpec typ ns loc id)) .nil, ha =>
      simp only [AsClause] at ha
      obtain ⟨rfl, hl, rfl⟩ := ha
      simp only [sizeL, size, sizeK] at hs
      simp only [MadeSpecs] at hm
      have h3 := ih loc (by omega) hm.2.1.1
      have h4 : allSpecs (erase loc) = .cons (.mk (0, 0) (.exportSpec false true (erase loc) .nil)) .nil := by
        match he : erase loc with
        | .nil => exact absurd he hl
        | .mk _ _ => rfl
      simp [read_ob, type_ExportAllDeclaration, readExportAllDeclaration, get_ob, look, node, exported,
        eraseSpecs, erase, h2, h3, h4]

theorem rt_exportDec {n m : Nat} (ih : Ok n m) (ih2 : ∀ n' m', n = n' + 1 → m = m' + 1 → Ok n' m') (hnm : n ≤ m) (rng : Rng)
    (typ all deflt : Bool) (dec : Node) (specs : Nodes) (src : Node) (hs : sizeK (.exportDec typ all deflt dec specs src) ≤ n)
    (ho : Own rng (.exportDec typ all deflt dec specs src)) (hm : MadeK (.exportDec typ all deflt dec specs src)) :
    read (m + 1) (convertK rng (.exportDec typ all deflt dec specs src)) = some (eraseK rng (.exportDec typ all deflt dec specs src)) := by
  by_cases hp : noExportForm dec
  · exact rt_exportPlain ih rng typ all deflt dec specs src hp hs ho hm
  have ha : all = false ∧ deflt = false := by
    cases all
    · cases deflt
      · exact ⟨rfl, rfl⟩
      · simp only [Own, Bool.false_eq_true, if_false, if_true] at ho
        exact absurd ho.2.2.2 hp
    · simp only [Own, if_true] at ho
      rw [ho.2.2.1] at hp
      exact absurd trivial hp
  obtain ⟨rfl, rfl⟩ := ha
  unfold noExportForm at hp
  split at hp
  · rename_i r id
    simp only [sizeK, size] at hs
    simp only [MadeK, MadeDec] at hm
    simp only [Own, Bool.false_eq_true, if_false] at ho
    have h0 := ih id (by omega) hm.1
    simp [convertK, exportDecl, eraseK, eraseExport, read_ob, type_TSNamespaceExportDeclaration, readTSNamespaceExportDeclaration, get_ob, look, node, h0]
  · rename_i r name callRng args
    simp only [sizeK, size] at hs
    simp only [MadeK, MadeDec] at hm
    simp only [Own, Bool.false_eq_true, if_false] at ho
    have h0 := ih name (by omega) hm.1.2.1
    have h1 := required_ok ih2 hnm callRng args (by omega) ho.2.2.2 hm.1.2.2
    simp [convertK, exportDecl, eraseK, eraseExport, read_ob, type_TSImportEqualsDeclaration, readTSImportEqualsDeclaration, get_ob, look, node, bool, h0, h1]
  · exact absurd trivial hp

theorem rt_jsxElem {n m : Nat} (ih : Ok n m) (rng : Rng) (opening : Node) (children : Nodes) (closing : Node)
    (hs : sizeK (.jsxElem opening children closing) ≤ n) (ho : Own rng (.jsxElem opening children closing))
    (hm : MadeK (.jsxElem opening children closing)) :
    read (m + 1) (convertK rng (.jsxElem opening children closing)) = some (eraseK rng (.jsxElem opening children closing)) := by
  simp only [sizeK] at hs
  simp only [MadeK] at hm
  simp only [Own] at ho
  have h0 := ih opening (by omega) hm.1
  have h1 := okL ih children (by omega) hm.2.1
  have h2 := ih closing (by omega) hm.2.2
  cases hf : isFragment opening
  · simp [convertK, hf, read_ob, type_JSXElement, readJSXElement, get_ob, look, node, nodes, list, eraseK, h0, h1, h2]
  · obtain ⟨⟨r1, rfl⟩, ⟨r2, rfl⟩⟩ := ho hf
    simp [convertK, hf, read_ob, type_JSXFragment, readJSXFragment, get_ob, look, nodes, list, eraseK, erase, eraseL, bare, text,
      range, Node.rng, h1]

theorem erase_tag (rng rt : Rng) (k : Kind) (elems : Nodes) (h : tagArgs k = []) :
    eraseK rng (.tpl (.mk rt k) elems) =
      .mk (rt.1, rng.2) (.tpl (eraseK rt k) (.cons (.mk rng (.tpl .nil (eraseL elems))) .nil)) := by
  cases k
  all_goals first | (simp only [tagArgs, reduceCtorEq] at h; done) | simp only [eraseK, eraseTag, Node.rng]

theorem made_tag (rt : Rng) (k : Kind) (h : tagArgs k = []) (hm : MadeTag (.mk rt k)) : Made (.mk rt k) := by
  cases k
  all_goals first
    | (simp only [tagArgs, reduceCtorEq] at h; done)
    | (simp only [MadeTag] at hm; simpa only [Made] using hm)

/-- The kinds of tags with a `TypInfo`. -/
theorem tag_kinds (k : Kind) : tagArgs k = [] ∨ (∃ name ques annot decs targs, k = .identT name ques annot decs targs) ∨
    (∃ callee args targs, k = .newT callee args targs) ∨
    (∃ callee args optional targs, k = .callT callee args optional targs) ∨
    (∃ expr id gen async params body tparams ret, k = .fnT expr id gen async params body tparams ret) ∨
    ∃ async params body expr tparams ret, k = .arrowT async params body expr tparams ret := by
  cases k
  all_goals first | (left; simp only [tagArgs]; done) | (right; simp; done)

theorem read_typed (m : Nat) (r rng : Rng) (tag quasi args : J) (n q a : Node) (h0 : read m tag = some n) (h1 : read m quasi = some q)
    (h2 : read m args = some a) :
    read (m + 1) (ob "TaggedTemplateExpression" (r.1, rng.2) [("tag", tag), ("quasi", quasi), ("typeParameters", args)]) =
      some (.mk (r.1, rng.2) (.tplT n a q)) := by
  simp [read_ob, type_TaggedTemplateExpression, readTaggedTemplateExpression, get_ob, look, node, h0, h1, h2]

theorem rt_tpl {n m : Nat} (ih : Ok n m) (ih2 : ∀ n' m', n = n' + 1 → m = m' + 1 → Ok n' m') (hnm : n ≤ m) (rng : Rng)
    (tag : Node) (elems : Nodes) (hs : sizeK (.tpl tag elems) ≤ n) (ho : Own rng (.tpl tag elems)) (hm : MadeK (.tpl tag elems)) :
    read (m + 1) (convertK rng (.tpl tag elems)) = some (eraseK rng (.tpl tag elems)) := by
  simp only [sizeK] at hs
  simp only [MadeK] at hm
  simp only [Own] at ho
  obtain ⟨ho, ht⟩ := ho
  match tag with
  | .nil =>
    have h := rt_lit ih rng elems (by omega) ho hm.2
    simpa [convertK, eraseK, eraseTag] using h
  | .mk rt k =>
    obtain ⟨n', rfl⟩ : ∃ n', n = n' + 1 := ⟨n - 1, by omega⟩
    obtain ⟨m', rfl⟩ : ∃ m', m = m' + 1 := ⟨m - 1, by omega⟩
    have h := rt_lit (ih2 n' m' rfl rfl) rng elems (by omega) ho hm.2
    rcases tag_kinds k with hk | ⟨name, ques, annot, decs, targs, rfl⟩ | ⟨callee, args, targs, rfl⟩ |
      ⟨callee, args, optional, targs, rfl⟩ | ⟨expr, id, gen, async, params, body, tparams, ret, rfl⟩ |
      ⟨async, params, body, expr, tparams, ret, rfl⟩
    · have h0 := ih (.mk rt k) (by omega) (made_tag rt k hk hm.1)
      simp only [convert, erase] at h0
      rw [erase_tag _ _ _ _ hk]
      simp [convertK, hk, read_ob (m' + 1), type_TaggedTemplateExpression, readTaggedTemplateExpression, get_ob, look, node, h, h0]
    · simp only [TagOk] at ht
      simp only [MadeTag] at hm
      simp only [size, sizeK] at hs
      have h0 := ih (.mk rt (.identT name ques annot decs .nil)) (by simp only [size, sizeK]; omega)
        (by simp only [Made, MadeK]; exact ⟨hm.1.1, hm.1.2.1, hm.1.2.2.1, trivial⟩)
      have h1 := ih targs (by omega) hm.1.2.2.2
      rw [← typArgs_eq ht] at h1
      have hc : convertK rt (.identT name ques annot decs targs) = convert (.mk rt (.identT name ques annot decs .nil)) := by
        simp only [convert, convertK]
      have he : eraseK rng (.tpl (.mk rt (.identT name ques annot decs targs)) elems) = .mk (rt.1, rng.2)
          (.tplT (erase (.mk rt (.identT name ques annot decs .nil))) (erase targs) (.mk rng (.tpl .nil (eraseL elems)))) := by
        simp only [eraseK, erase, eraseTag, Node.rng]
      rw [he]
      simp only [convertK.eq_def rng (.tpl _ _), tagArgs, List.cons_append, List.nil_append, hc]
      exact read_typed _ _ _ _ _ _ _ _ _ h0 h h1
    · simp only [TagOk] at ht
      subst ht
      have h0 := ih (.mk rt (.newT callee args .nil)) (by omega) (by simpa only [Made, MadeTag] using hm.1)
      have he : eraseK rng (.tpl (.mk rt (.newT callee args .nil)) elems) = .mk (rt.1, rng.2)
          (.tplT (erase (.mk rt (.newT callee args .nil))) .nil (.mk rng (.tpl .nil (eraseL elems)))) := by
        simp only [eraseK, erase, eraseTag, Node.rng]
      rw [he]
      simp only [convertK.eq_def rng (.tpl _ _), tagArgs, typArgs, List.cons_append, List.nil_append]
      exact read_typed _ _ _ _ _ _ _ _ _ h0 h (read_null _)
    · simp only [TagOk] at ht
      subst ht
      have h0 := ih (.mk rt (.callT callee args optional .nil)) (by omega) (by simpa only [Made, MadeTag] using hm.1)
      have he : eraseK rng (.tpl (.mk rt (.callT callee args optional .nil)) elems) = .mk (rt.1, rng.2)
          (.tplT (erase (.mk rt (.callT callee args optional .nil))) .nil (.mk rng (.tpl .nil (eraseL elems)))) := by
        simp only [eraseK, erase, eraseTag, Node.rng]
      rw [he]
      simp only [convertK.eq_def rng (.tpl _ _), tagArgs, typArgs, List.cons_append, List.nil_append]
      exact read_typed _ _ _ _ _ _ _ _ _ h0 h (read_null _)
    · have h0 := ih (.mk rt (.fnT expr id gen async params body tparams ret)) (by omega)
        (by simpa only [Made, MadeTag] using hm.1)
      have he : eraseK rng (.tpl (.mk rt (.fnT expr id gen async params body tparams ret)) elems) = .mk (rt.1, rng.2)
          (.tplT (erase (.mk rt (.fnT expr id gen async params body tparams ret))) .nil (.mk rng (.tpl .nil (eraseL elems)))) := by
        simp only [eraseK, erase, eraseTag, Node.rng]
      rw [he]
      simp only [convertK.eq_def rng (.tpl _ _), tagArgs, List.cons_append, List.nil_append]
      exact read_typed _ _ _ _ _ _ _ _ _ h0 h (read_null _)
    · exact ht.elim

theorem ok (n : Nat) : ∀ m, n ≤ m → Ok n m := by
  induction n using Nat.strongRecOn with
  | _ n IH =>
    intro m hm t hs hmade
    match t with
    | .nil => simp [convert, erase, read_null]
    | .mk rng k =>
      simp only [size] at hs
      simp only [Made] at hmade
      obtain ⟨ho, hk⟩ := hmade
      obtain ⟨n, rfl⟩ : ∃ n', n = n' + 1 := ⟨n - 1, by omega⟩
      obtain ⟨m, rfl⟩ : ∃ m', m = m' + 1 := ⟨m - 1, by omega⟩
      have ih := IH n (by omega) m (by omega)
      have hs : sizeK k ≤ n := by omega
      simp only [convert, erase]
      cases k with
      | exprStmt e dir => exact rt_exprStmt ih rng e dir hs ho hk
      | empty => exact rt_empty ih rng hs ho hk
      | null => exact rt_null ih rng hs ho hk
      | bool b => exact rt_bool ih rng b hs ho hk
      | num raw => exact rt_num ih rng raw hs ho hk
      | str val raw => exact rt_str ih rng val raw hs ho hk
      | regex pat flags => simp [Own] at ho
      | arr elems => exact rt_arr ih rng elems hs ho hk
      | spread arg => exact rt_spread ih rng arg hs ho hk
      | obj props => exact rt_obj ih rng props hs ho hk
      | ident name pvt => exact rt_ident ih rng name pvt hs ho hk
      | new callee args => exact rt_new ih rng callee args hs ho hk
      | member o prop computed optional => exact rt_member ih rng o prop computed optional hs ho hk
      | call callee args optional => exact rt_call ih rng callee args optional hs ho hk
      | bin op l r => exact rt_bin ih rng op l r hs ho hk
      | unary op arg => exact rt_unary ih rng op arg hs ho hk
      | update op «prefix» arg => exact rt_update ih rng op «prefix» arg hs ho hk
      | cond test cons alt => exact rt_cond ih rng test cons alt hs ho hk
      | assign op l r => exact rt_assign ih rng op l r hs ho hk
      | this => exact rt_this ih rng hs ho hk
      | seq elems => exact rt_seq ih rng elems hs ho hk
      | paren e => 
        simp only [sizeK] at hs
        simp only [MadeK] at hk
        simpa [convertK, eraseK] using IH n (by omega) (m + 1) (by omega) e hs hk
      | tpl tag elems => exact rt_tpl ih (fun n' m' h1 h2 => IH n' (by omega) m' (by omega)) (by omega) rng tag elems hs ho hk
      | super => exact rt_super ih rng hs ho hk
      | importCall src => exact rt_importCall ih rng src hs ho hk
      | «yield» delegate arg => exact rt_yield ih rng delegate arg hs ho hk
      | arrPat elems => exact rt_arrPat ih rng elems hs ho hk
      | assignPat l r => exact rt_assignPat ih rng l r hs ho hk
      | restPat arg => exact rt_restPat ih rng arg hs ho hk
      | objPat props => exact rt_objPat ih rng props hs ho hk
      | prop key val computed method shorthand kind => exact rt_prop ih rng key val computed method shorthand kind hs ho hk
      | fn expr id gen async params body => exact rt_fn ih rng expr id gen async params body hs ho hk
      | arrow async params body expr => exact rt_arrow ih rng async params body expr hs ho hk
      | varDec kind decs => exact rt_varDec ih rng kind decs hs ho hk
      | declr id init => exact rt_declr ih rng id init hs ho hk
      | block body => exact rt_block ih rng body hs ho hk
      | doWhile test body => exact rt_doWhile ih rng test body hs ho hk
      | «while» test body => exact rt_while ih rng test body hs ho hk
      | «for» init test update body => exact rt_for ih rng init test update body hs ho hk
      | forInOf isIn await l r body => exact rt_forInOf ih rng isIn await l r body hs ho hk
      | «if» test cons alt => exact rt_if ih rng test cons alt hs ho hk
      | switch test cases => exact rt_switch ih rng test cases hs ho hk
      | case test cons => exact rt_case ih rng test cons hs ho hk
      | brk label => exact rt_brk ih rng label hs ho hk
      | cont label => exact rt_cont ih rng label hs ho hk
      | label label body => exact rt_label ih rng label body hs ho hk
      | ret arg => exact rt_ret ih rng arg hs ho hk
      | «throw» arg => exact rt_throw ih rng arg hs ho hk
      | «catch» param body => exact rt_catch ih rng param body hs ho hk
      | «try» block handler fin => exact rt_try ih rng block handler fin hs ho hk
      | debug => exact rt_debug ih rng hs ho hk
      | «with» o body => exact rt_with ih rng o body hs ho hk
      | cls expr id tparams sup supArgs impls body abstract declare decs =>
        exact rt_cls ih rng expr id tparams sup supArgs impls body abstract declare decs hs ho hk
      | classBody elems => exact rt_classBody ih rng elems hs ho hk
      | method key static computed kind val => exact rt_method ih rng key static computed kind val hs ho hk
      | field key static computed val => exact rt_field ih rng key static computed val hs ho hk
      | staticBlock body => exact rt_staticBlock ih rng body hs ho hk
      | metaProp mt prop => exact rt_metaProp ih rng mt prop hs ho hk
      | importDec typ specs src => exact rt_importDec ih rng typ specs src hs ho hk
      | importSpec typ deflt ns loc id => exact rt_importSpec ih rng typ deflt ns loc id hs ho hk
      | exportDec typ all deflt dec specs src =>
        exact rt_exportDec ih (fun n' m' h1 h2 => IH n' (by omega) m' (by omega)) (by omega) rng typ all deflt dec specs src hs ho hk
      | exportSpec typ ns loc id => exact rt_exportSpec ih rng typ ns loc id hs ho hk
      | chain e => exact rt_chain ih rng e hs ho hk
      | jsxId name => exact rt_jsxId ih rng name hs ho hk
      | jsxNs ns name => simp [Own] at ho
      | jsxMember o prop => exact rt_jsxMember ih rng o prop hs ho hk
      | jsxElem opening children closing => exact rt_jsxElem ih rng opening children closing hs ho hk
      | jsxOpen name attrs closed => exact rt_jsxOpen ih rng name attrs closed hs ho hk
      | jsxClose name => exact rt_jsxClose ih rng name hs ho hk
      | jsxText val raw => exact rt_jsxText ih rng val raw hs ho hk
      | jsxExpr e => exact rt_jsxExpr ih rng e hs ho hk
      | jsxAttr name val => exact rt_jsxAttr ih rng name val hs ho hk
      | jsxSpreadAttr arg => exact rt_jsxSpreadAttr ih rng arg hs ho hk
      | jsxSpreadChild e => exact rt_jsxSpreadChild ih rng e hs ho hk
      | jsxEmpty => exact rt_jsxEmpty ih rng hs ho hk
      | tsAnnot typ => exact rt_tsAnnot ih rng typ hs ho hk
      | tsRef name args => exact rt_tsRef ih rng name args hs ho hk
      | tsParamInst params => exact rt_tsParamInst ih rng params hs ho hk
      | tsParamDec params => exact rt_tsParamDec ih rng params hs ho hk
      | tsParam name cons deflt => exact rt_tsParam ih rng name cons deflt hs ho hk
      | tsArr arg => exact rt_tsArr ih rng arg hs ho hk
      | tsObj props => exact rt_tsObj ih rng props hs ho hk
      | tsCallSig params tparams ret => exact rt_tsCallSig ih rng params tparams ret hs ho hk
      | tsPredicate name typ asserts => exact rt_tsPredicate ih rng name typ asserts hs ho hk
      | tsAssert e typ => exact rt_tsAssert ih rng e typ hs ho hk
      | tsNoNull e => exact rt_tsNoNull ih rng e hs ho hk
      | tsUnion elems => exact rt_tsUnion ih rng elems hs ho hk
      | tsIntersect elems => exact rt_tsIntersect ih rng elems hs ho hk
      | tsQName lhs rhs => exact rt_tsQName ih rng lhs rhs hs ho hk
      | tsItfBody body => exact rt_tsItfBody ih rng body hs ho hk
      | tsEnum id members «const» declare => exact rt_tsEnum ih rng id members «const» declare hs ho hk
      | tsEnumMember key val => exact rt_tsEnumMember ih rng key val hs ho hk
      | tsModule id body declare global => exact rt_tsModule ih rng id body declare global hs ho hk
      | tsExportAssign e => exact rt_tsExportAssign ih rng e hs ho hk
      | tsLit lit => exact rt_tsLit ih rng lit hs ho hk
      | tsImportAlias name val «export» => exact rt_tsImportAlias ih rng name val «export» hs ho hk
      | tsNewSig params tparams ret abstract => exact rt_tsNewSig ih rng params tparams ret abstract hs ho hk
      | tsNew params tparams ret abstract => exact rt_tsNew ih rng params tparams ret abstract hs ho hk
      | tsFnTyp params tparams ret => exact rt_tsFnTyp ih rng params tparams ret hs ho hk
      | tsImportTyp arg qual args => exact rt_tsImportTyp ih rng arg qual args hs ho hk
      | tsQuery arg => exact rt_tsQuery ih rng arg hs ho hk
      | tsCond check ext yes no => exact rt_tsCond ih rng check ext yes no hs ho hk
      | tsInfer arg => exact rt_tsInfer ih rng arg hs ho hk
      | tsParen arg => exact rt_tsParen ih rng arg hs ho hk
      | tsIdxAccess o idx => exact rt_tsIdxAccess ih rng o idx hs ho hk
      | tsMapped readonly optional key name val => exact rt_tsMapped ih rng readonly optional key name val hs ho hk
      | tsTypOp op arg => exact rt_tsTypOp ih rng op arg hs ho hk
      | tsTuple elems => exact rt_tsTuple ih rng elems hs ho hk
      | tsNamed optional label val => exact rt_tsNamed ih rng optional label val hs ho hk
      | tsRest arg => exact rt_tsRest ih rng arg hs ho hk
      | tsOpt arg => exact rt_tsOpt ih rng arg hs ho hk
      | decorator e => exact rt_decorator ih rng e hs ho hk
      | identT name ques annot decs targs =>
        exact rt_identT ih rng name ques annot decs targs hs ho hk
      | newT callee args targs =>
        exact rt_newT ih rng callee args targs hs ho hk
      | callT callee args optional targs =>
        exact rt_callT ih rng callee args optional targs hs ho hk
      | fnT expr id gen async params body tparams ret =>
        exact rt_fnT ih rng expr id gen async params body tparams ret hs ho hk
      | arrowT async params body expr tparams ret =>
        exact rt_arrowT ih rng async params body expr tparams ret hs ho hk
      | arrPatT elems ques annot decs =>
        exact rt_arrPatT ih rng elems ques annot decs hs ho hk
      | objPatT props ques annot decs =>
        exact rt_objPatT ih rng props ques annot decs hs ho hk
      | restPatT arg ques annot decs =>
        exact rt_restPatT ih rng arg ques annot decs hs ho hk
      | methodT key static computed kind val ques definite override abstract readonly acc decs =>
        exact rt_methodT ih rng key static computed kind val ques definite override abstract readonly acc decs hs ho hk
      | fieldT key static computed val ques definite override abstract readonly declare acc annot decs =>
        exact rt_fieldT ih rng key static computed val ques definite override abstract readonly declare acc annot decs hs ho hk
      | paramProp acc readonly override begin decs param =>
        exact rt_paramProp ih rng acc readonly override begin decs param hs ho hk
      | jsxOpenT name attrs closed targs =>
        exact rt_jsxOpenT ih rng name attrs closed targs hs ho hk
      | tsProp key val ques kind computed readonly =>
        exact rt_tsProp ih rng key val ques kind computed readonly hs ho hk
      | tsDecFn id gen async params body tparams ret =>
        exact rt_tsDecFn ih rng id gen async params body tparams ret hs ho hk
      | tsDecClass inner id tparams sup supArgs impls body abstract decs =>
        exact rt_tsDecClass ih rng inner id tparams sup supArgs impls body abstract decs hs ho hk
      | tsDecVar kind decs =>
        exact rt_tsDecVar ih rng kind decs hs ho hk
      | tsItf id tparams exts body declare =>
        exact rt_tsItf ih (fun n' m' h1 h2 => IH n' (by omega) m' (by omega)) (by omega) rng id tparams exts body declare hs ho hk
      | tsAlias id tparams typ declare =>
        exact rt_tsAlias ih rng id tparams typ declare hs ho hk
      | tsImportRequire name callRng args =>
        exact rt_tsImportRequire ih (fun n' m' h1 h2 => IH n' (by omega) m' (by omega)) (by omega) rng name callRng args hs ho hk
      | nsAlias id => simp [Own] at ho
      | idxSig static abstract ques readonly declare acc key annot decs =>
        exact rt_idxSig ih rng static abstract ques readonly declare acc key annot decs hs ho hk
      | tsKw kw => exact rt_tsKw ih rng kw hs ho hk
      | tplT tag targs quasi => simp [Own] at ho
      | tsExt e args => simp [Own] at ho
      | extRef e => simp [Own] at ho

end Mole.Estree.Conv
