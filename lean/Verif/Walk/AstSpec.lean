import Verif.Walk.Spec
import Verif.Walk.Table

/-! The children of the nodes, as the node types of the parser declare them, and what it means that a tree is made of
such nodes.  This says nothing about the walker. -/

namespace Mole.Walk.Spec

open Mole.Walk

variable {α : Type}

/-- ecma/parser/typinfo.go 23-31, 106-115: the nodes kept beside a node: its type annotation, its type parameters and
arguments, its decorators, and for classes the type arguments of the super class and the interfaces. -/
def typInfo : List SlotDecl :=
  [⟨"TypInfo.TypAnnot", false⟩, ⟨"TypInfo.TypParams", false⟩, ⟨"TypInfo.TypArgs", false⟩, ⟨"TypInfo.Decorators", true⟩,
    ⟨"TypInfo.SuperTypArgs", false⟩, ⟨"TypInfo.Implements", true⟩]

/-- ecma/parser/ast.go, jsx_ast.go, ts_ast.go: the children of the nodes of each type, by the name of the accessor (of the
field, where there is no accessor) and in the order of the fields.  Fields which point to nodes elsewhere in the tree
(the returns of a function, the target of a jump, the names of a declaration) are left out.  The key of an index signature
has its type as the accessor `KeyType` of the signature. -/
def declaredRows : List (Nat × List SlotDecl) := [
  -- ast.go 61-64: EmptyStmt
  (N_STMT_EMPTY, []),
  -- ast.go 18-23: Prog
  (N_PROG, [⟨"Body", true⟩]),
  -- ast.go 38-43: ExprStmt
  (N_STMT_EXPR, [⟨"Expr", false⟩]),
  -- ast.go 1392-1398: VarDecStmt
  (N_STMT_VAR_DEC, [⟨"DecList", true⟩]),
  -- ast.go 1260-1271: FnDec
  (N_STMT_FN, [⟨"Id", false⟩, ⟨"Params", true⟩, ⟨"Body", false⟩] ++ typInfo),
  -- ast.go 1445-1450: BlockStmt
  (N_STMT_BLOCK, [⟨"Body", true⟩]),
  -- ast.go 1468-1473: DoWhileStmt
  (N_STMT_DO_WHILE, [⟨"Test", false⟩, ⟨"Body", false⟩]),
  -- ast.go 1492-1497: WhileStmt
  (N_STMT_WHILE, [⟨"Test", false⟩, ⟨"Body", false⟩]),
  -- ast.go 1516-1523: ForStmt
  (N_STMT_FOR, [⟨"Init", false⟩, ⟨"Test", false⟩, ⟨"Update", false⟩, ⟨"Body", false⟩]),
  -- ast.go 1550-1558: ForInOfStmt
  (N_STMT_FOR_IN_OF, [⟨"Left", false⟩, ⟨"Right", false⟩, ⟨"Body", false⟩]),
  -- ast.go 1589-1595: IfStmt
  (N_STMT_IF, [⟨"Test", false⟩, ⟨"Cons", false⟩, ⟨"Alt", false⟩]),
  -- ast.go 1618-1623: SwitchStmt
  (N_STMT_SWITCH, [⟨"Test", false⟩, ⟨"Cases", true⟩]),
  -- ast.go 1666-1671: BrkStmt
  (N_STMT_BRK, [⟨"Label", false⟩]),
  -- ast.go 1690-1695: ContStmt
  (N_STMT_CONT, [⟨"Label", false⟩]),
  -- ast.go 1714-1720: LabelStmt
  (N_STMT_LABEL, [⟨"Label", false⟩, ⟨"Body", false⟩]),
  -- ast.go 1743-1747: RetStmt
  (N_STMT_RET, [⟨"Arg", false⟩]),
  -- ast.go 1762-1767: ThrowStmt
  (N_STMT_THROW, [⟨"Arg", false⟩]),
  -- ast.go 1810-1816: TryStmt
  (N_STMT_TRY, [⟨"Try", false⟩, ⟨"Catch", false⟩, ⟨"Fin", false⟩]),
  -- ast.go 1838-1841: DebugStmt
  (N_STMT_DEBUG, []),
  -- ast.go 1852-1857: WithStmt
  (N_STMT_WITH, [⟨"Expr", false⟩, ⟨"Body", false⟩]),
  -- ast.go 1876-1884: ClassDec
  (N_STMT_CLASS, [⟨"Id", false⟩, ⟨"Super", false⟩, ⟨"Body", false⟩] ++ typInfo),
  -- ast.go 2094-2100: ImportDec
  (N_STMT_IMPORT, [⟨"Specs", true⟩, ⟨"Src", false⟩]),
  -- ast.go 2176-2185: ExportDec
  (N_STMT_EXPORT, [⟨"Dec", false⟩, ⟨"Specs", true⟩, ⟨"Src", false⟩]),
  -- ast.go 84-89: NullLit
  (N_LIT_NULL, typInfo),
  -- ast.go 111-117: BoolLit
  (N_LIT_BOOL, typInfo),
  -- ast.go 147-151: NumLit
  (N_LIT_NUM, []),
  -- ast.go 169-176: StrLit
  (N_LIT_STR, typInfo),
  -- ast.go 249-255: ArrLit
  (N_LIT_ARR, [⟨"Elems", true⟩] ++ typInfo),
  -- ast.go 324-330: ObjLit
  (N_LIT_OBJ, [⟨"Props", true⟩] ++ typInfo),
  -- ast.go 206-214: RegLit
  (N_LIT_REGEXP, typInfo),
  -- ast.go 443-450: NewExpr
  (N_EXPR_NEW, [⟨"Callee", false⟩, ⟨"Args", true⟩] ++ typInfo),
  -- ast.go 485-493: MemberExpr
  (N_EXPR_MEMBER, [⟨"Obj", false⟩, ⟨"Prop", false⟩]),
  -- ast.go 528-536: CallExpr
  (N_EXPR_CALL, [⟨"Callee", false⟩, ⟨"Args", true⟩] ++ typInfo),
  -- ast.go 575-583: BinExpr
  (N_EXPR_BIN, [⟨"Lhs", false⟩, ⟨"Rhs", false⟩]),
  -- ast.go 618-624: UnaryExpr
  (N_EXPR_UNARY, [⟨"Arg", false⟩]),
  -- ast.go 659-666: UpdateExpr
  (N_EXPR_UPDATE, [⟨"Arg", false⟩]),
  -- ast.go 701-708: CondExpr
  (N_EXPR_COND, [⟨"Test", false⟩, ⟨"Cons", false⟩, ⟨"Alt", false⟩]),
  -- ast.go 739-748: AssignExpr
  (N_EXPR_ASSIGN, [⟨"Lhs", false⟩, ⟨"Rhs", false⟩] ++ typInfo),
  -- ast.go 1260-1271: FnDec
  (N_EXPR_FN, [⟨"Id", false⟩, ⟨"Params", true⟩, ⟨"Body", false⟩] ++ typInfo),
  -- ast.go 790-795: ThisExpr
  (N_EXPR_THIS, typInfo),
  -- ast.go 850-855: ParenExpr
  (N_EXPR_PAREN, [⟨"Expr", false⟩]),
  -- ast.go 1330-1341: ArrowFn
  (N_EXPR_ARROW, [⟨"Params", true⟩, ⟨"Body", false⟩] ++ typInfo),
  -- ast.go 822-827: SeqExpr
  (N_EXPR_SEQ, [⟨"Elems", true⟩]),
  -- ast.go 1876-1884: ClassDec
  (N_EXPR_CLASS, [⟨"Id", false⟩, ⟨"Super", false⟩, ⟨"Body", false⟩] ++ typInfo),
  -- ast.go 892-898: TplExpr
  (N_EXPR_TPL, [⟨"Tag", false⟩, ⟨"Elems", true⟩]),
  -- ast.go 984-990: YieldExpr
  (N_EXPR_YIELD, [⟨"Arg", false⟩]),
  -- ast.go 2268-2272: ChainExpr
  (N_EXPR_CHAIN, [⟨"Expr", false⟩]),
  -- jsx_ast.go 253-259: JsxElem
  (N_JSX_ELEM, [⟨"Open", false⟩, ⟨"Close", false⟩, ⟨"Children", true⟩]),
  -- ast.go 386-404: Ident
  (N_NAME, typInfo),
  -- ast.go 956-961: ImportCall
  (N_IMPORT_CALL, [⟨"Src", false⟩]),
  -- ast.go 2070-2075: MetaProp
  (N_META_PROP, [⟨"Meta", false⟩, ⟨"Prop", false⟩]),
  -- ast.go 2287-2291: Decorator
  (N_DECORATOR, [⟨"Expr", false⟩]),
  -- ast.go 286-293: Spread
  (N_SPREAD, [⟨"Arg", false⟩] ++ typInfo),
  -- ast.go 1421-1426: VarDec
  (N_VAR_DEC, [⟨"Id", false⟩, ⟨"Init", false⟩]),
  -- ast.go 1098-1104: RestPat
  (N_PAT_REST, [⟨"Arg", false⟩] ++ typInfo),
  -- ast.go 1017-1023: ArrPat
  (N_PAT_ARRAY, [⟨"Elems", true⟩] ++ typInfo),
  -- ast.go 1054-1061: AssignPat
  (N_PAT_ASSIGN, [⟨"Lhs", false⟩, ⟨"Rhs", false⟩] ++ typInfo),
  -- ast.go 1142-1148: ObjPat
  (N_PAT_OBJ, [⟨"Props", true⟩] ++ typInfo),
  -- ast.go 1207-1221: Prop
  (N_PROP, [⟨"Key", false⟩, ⟨"Val", false⟩]),
  -- ast.go 1642-1647: SwitchCase
  (N_SWITCH_CASE, [⟨"Test", false⟩, ⟨"Cons", true⟩]),
  -- ast.go 1786-1791: Catch
  (N_CATCH, [⟨"Param", false⟩, ⟨"Body", false⟩]),
  -- ast.go 1919-1923: ClassBody
  (N_CLASS_BODY, [⟨"Elems", true⟩]),
  -- ast.go 2042-2047: StaticBlock
  (N_STATIC_BLOCK, [⟨"Body", true⟩] ++ typInfo),
  -- ast.go 1938-1947: Method
  (N_METHOD, [⟨"Key", false⟩, ⟨"Val", false⟩] ++ typInfo),
  -- ast.go 1999-2007: Field
  (N_FIELD, [⟨"Key", false⟩, ⟨"Val", false⟩] ++ typInfo),
  -- ast.go 924-929: Super
  (N_SUPER, typInfo),
  -- ast.go 2130-2138: ImportSpec
  (N_IMPORT_SPEC, [⟨"Local", false⟩, ⟨"Id", false⟩]),
  -- ast.go 2227-2234: ExportSpec
  (N_EXPORT_SPEC, [⟨"Local", false⟩, ⟨"Id", false⟩]),
  -- jsx_ast.go 7-13: JsxIdent
  (N_JSX_ID, typInfo),
  -- jsx_ast.go 67-73: JsxMember
  (N_JSX_MEMBER, [⟨"Obj", false⟩, ⟨"Prop", false⟩] ++ typInfo),
  -- jsx_ast.go 43-48: JsxNsName
  (N_JSX_NS, [⟨"ns", false⟩, ⟨"name", false⟩]),
  -- jsx_ast.go 200-204: JsxSpreadAttr
  (N_JSX_ATTR_SPREAD, [⟨"Arg", false⟩]),
  -- jsx_ast.go 219-223: JsxSpreadChild
  (N_JSX_CHILD_SPREAD, [⟨"Expr", false⟩]),
  -- jsx_ast.go 100-110: JsxOpen
  (N_JSX_OPEN, [⟨"Name", false⟩, ⟨"Attrs", true⟩]),
  -- jsx_ast.go 133-138: JsxClose
  (N_JSX_CLOSE, [⟨"Name", false⟩]),
  -- jsx_ast.go 237-240: JsxEmpty
  (N_JSX_EMPTY, []),
  -- jsx_ast.go 286-290: JsxExprSpan
  (N_JSX_EXPR_SPAN, [⟨"Expr", false⟩]),
  -- jsx_ast.go 152-156: JsxText
  (N_JSX_TXT, []),
  -- jsx_ast.go 171-177: JsxAttr
  (N_JSX_ATTR, [⟨"Name", false⟩, ⟨"Val", false⟩]),
  -- ts_ast.go 9-13: TsTypAnnot
  (N_TS_TYP_ANNOT, [⟨"TsTyp", false⟩]),
  -- ts_ast.go 31-36: TsPredef
  (N_TS_ANY, []),
  -- ts_ast.go 31-36: TsPredef
  (N_TS_NUM, []),
  -- ts_ast.go 31-36: TsPredef
  (N_TS_BOOL, []),
  -- ts_ast.go 31-36: TsPredef
  (N_TS_STR, []),
  -- ts_ast.go 31-36: TsPredef
  (N_TS_SYM, []),
  -- ts_ast.go 31-36: TsPredef
  (N_TS_OBJ, []),
  -- ts_ast.go 31-36: TsPredef
  (N_TS_VOID, []),
  -- ts_ast.go 31-36: TsPredef
  (N_TS_NEVER, []),
  -- ts_ast.go 31-36: TsPredef
  (N_TS_UNKNOWN, []),
  -- ts_ast.go 31-36: TsPredef
  (N_TS_UNDEF, []),
  -- ts_ast.go 31-36: TsPredef
  (N_TS_BIGINT, []),
  -- ts_ast.go 31-36: TsPredef
  (N_TS_INTRINSIC, []),
  -- ts_ast.go 31-36: TsPredef
  (N_TS_NULL, []),
  -- ts_ast.go 55-60: TsLit
  (N_TS_LIT, [⟨"Lit", false⟩]),
  -- ts_ast.go 139-146: TsRef
  (N_TS_REF, [⟨"Name", false⟩, ⟨"ParamsInst", false⟩]),
  -- ts_ast.go 378-383: TsObj
  (N_TS_LIT_OBJ, [⟨"Props", true⟩]),
  -- ts_ast.go 240-246: TsArr
  (N_TS_ARR, [⟨"Arg", false⟩]),
  -- ts_ast.go 269-275: TsIdxAccess
  (N_TS_IDX_ACCESS, [⟨"Obj", false⟩, ⟨"Idx", false⟩]),
  -- ts_ast.go 302-307: TsTuple
  (N_TS_TUPLE, [⟨"Args", true⟩]),
  -- ts_ast.go 330-334: TsRest
  (N_TS_REST, [⟨"Arg", false⟩]),
  -- ts_ast.go 349-355: TsTupleNamedMember
  (N_TS_TUPLE_NAMED_MEMBER, [⟨"Label", false⟩, ⟨"Val", false⟩]),
  -- ts_ast.go 1368-1372: TsOpt
  (N_TS_OPT, [⟨"Arg", false⟩]),
  -- ts_ast.go 184-189: TsTypQuery
  (N_TS_TYP_QUERY, [⟨"Arg", false⟩]),
  -- ts_ast.go 1192-1200: TsCondType
  (N_TS_COND, [⟨"CheckTyp", false⟩, ⟨"ExtTyp", false⟩, ⟨"TrueTyp", false⟩, ⟨"FalseTyp", false⟩]),
  -- ts_ast.go 1335-1341: TsTypOp
  (N_TS_TYP_OP, [⟨"Arg", false⟩]),
  -- ts_ast.go 1263-1272: TsMapped
  (N_TS_MAPPED, [⟨"Key", false⟩, ⟨"Name", false⟩, ⟨"Val", false⟩]),
  -- ts_ast.go 1235-1240: TsTypInfer
  (N_TS_TYP_INFER, [⟨"Arg", false⟩]),
  -- ts_ast.go 212-217: TsParen
  (N_TS_PAREN, [⟨"Arg", false⟩]),
  -- ts_ast.go 82-86: TsThis
  (N_TS_THIS, []),
  -- ts_ast.go 105-112: TsNsName
  (N_TS_NS_NAME, [⟨"Lhs", false⟩, ⟨"Rhs", false⟩]),
  -- ts_ast.go 617-623: TsParam
  (N_TS_PARAM, [⟨"Name", false⟩, ⟨"Cons", false⟩, ⟨"Default", false⟩]),
  -- ts_ast.go 598-602: TsParamsDec
  (N_TS_PARAM_DEC, [⟨"Params", true⟩]),
  -- ts_ast.go 579-583: TsParamsInst
  (N_TS_PARAM_INST, [⟨"Params", true⟩]),
  -- ts_ast.go 406-415: TsProp
  (N_TS_PROP, [⟨"Key", false⟩, ⟨"Val", false⟩]),
  -- ts_ast.go 467-473: TsCallSig
  (N_TS_CALL_SIG, [⟨"TypParams", false⟩, ⟨"Params", true⟩, ⟨"RetTyp", false⟩]),
  -- ts_ast.go 496-503: TsNewSig
  (N_TS_NEW_SIG, [⟨"TypParams", false⟩, ⟨"Params", true⟩, ⟨"RetTyp", false⟩]),
  -- ts_ast.go 530-536: TsIdxSig
  (N_TS_IDX_SIG, [⟨"Key", false⟩, ⟨"KeyType", false⟩, ⟨"Val", false⟩]),
  -- ts_ast.go 646-653: TsFnTyp
  (N_TS_FN_TYP, [⟨"TypParams", false⟩, ⟨"Params", true⟩, ⟨"RetTyp", false⟩]),
  -- ts_ast.go 496-503: TsNewSig
  (N_TS_NEW, [⟨"TypParams", false⟩, ⟨"Params", true⟩, ⟨"RetTyp", false⟩]),
  -- ts_ast.go 684-690: TsUnionTyp
  (N_TS_UNION_TYP, [⟨"Elems", true⟩]),
  -- ts_ast.go 713-719: TsIntersectTyp
  (N_TS_INTERSECT_TYP, [⟨"Elems", true⟩]),
  -- ts_ast.go 562-568: TsRoughParam
  (N_TS_ROUGH_PARAM, [⟨"name", false⟩] ++ typInfo),
  -- ts_ast.go 742-748: TsTypAssert
  (N_TS_TYP_ASSERT, [⟨"Typ", false⟩, ⟨"Expr", false⟩]),
  -- ts_ast.go 775-780: TsTypDec
  (N_TS_TYP_DEC, [⟨"Id", false⟩] ++ typInfo),
  -- ts_ast.go 803-810: TsInterface
  (N_TS_INTERFACE, [⟨"Id", false⟩, ⟨"TypParams", false⟩, ⟨"Supers", true⟩, ⟨"Body", false⟩]),
  -- ts_ast.go 837-841: TsInterfaceBody
  (N_TS_INTERFACE_BODY, [⟨"Body", true⟩]),
  -- ts_ast.go 856-862: TsEnum
  (N_TS_ENUM, [⟨"Id", false⟩, ⟨"Members", true⟩]),
  -- ts_ast.go 885-890: TsEnumMember
  (N_TS_ENUM_MEMBER, [⟨"Key", false⟩, ⟨"Val", false⟩]),
  -- ts_ast.go 909-915: TsImportAlias
  (N_TS_IMPORT_ALIAS, [⟨"Name", false⟩, ⟨"Val", false⟩]),
  -- ts_ast.go 938-944: TsNS
  (N_TS_NAMESPACE, [⟨"Id", false⟩, ⟨"Body", false⟩]),
  -- ts_ast.go 967-973: TsImportRequire
  (N_TS_IMPORT_REQUIRE, [⟨"Name", false⟩, ⟨"Expr", false⟩]),
  -- ts_ast.go 1113-1120: TsImportType
  (N_TS_IMPORT_TYP, [⟨"Arg", false⟩, ⟨"Qualifier", false⟩, ⟨"TypArg", false⟩]),
  -- ts_ast.go 1000-1004: TsExportAssign
  (N_TS_EXPORT_ASSIGN, [⟨"Expr", false⟩]),
  -- ts_ast.go 1019-1024: TsDec
  (N_TS_DEC_VAR_DEC, [⟨"Name", false⟩, ⟨"Inner", false⟩]),
  -- ts_ast.go 1019-1024: TsDec
  (N_TS_DEC_FN, [⟨"Name", false⟩, ⟨"Inner", false⟩]),
  -- ts_ast.go 1019-1024: TsDec
  (N_TS_DEC_ENUM, [⟨"Name", false⟩, ⟨"Inner", false⟩]),
  -- ts_ast.go 1019-1024: TsDec
  (N_TS_DEC_CLASS, [⟨"Name", false⟩, ⟨"Inner", false⟩]),
  -- ts_ast.go 1019-1024: TsDec
  (N_TS_DEC_NS, [⟨"Name", false⟩, ⟨"Inner", false⟩]),
  -- ts_ast.go 1019-1024: TsDec
  (N_TS_DEC_MODULE, [⟨"Name", false⟩, ⟨"Inner", false⟩]),
  -- ts_ast.go 1019-1024: TsDec
  (N_TS_DEC_GLOBAL, [⟨"Name", false⟩, ⟨"Inner", false⟩]),
  -- ts_ast.go 1019-1024: TsDec
  (N_TS_DEC_INTERFACE, [⟨"Name", false⟩, ⟨"Inner", false⟩]),
  -- ts_ast.go 1019-1024: TsDec
  (N_TS_DEC_TYP_DEC, [⟨"Name", false⟩, ⟨"Inner", false⟩]),
  -- ts_ast.go 1047-1054: TsTypPredicate
  (N_TS_TYP_PREDICATE, [⟨"Name", false⟩, ⟨"Typ", false⟩]),
  -- ts_ast.go 1085-1090: TsNoNull
  (N_TS_NO_NULL, [⟨"Arg", false⟩])]

/-- The children of a node of a type. -/
def declared (typ : Nat) : Option (List SlotDecl) := (declaredRows.find? (fun r => r.1 == typ)).map (·.2)

/-- The names of the slots, with whether they are lists. -/
def slotDecls : Slots α → List SlotDecl
  | .nil => []
  | .one k _ rest => ⟨k, false⟩ :: slotDecls rest
  | .many k _ rest => ⟨k, true⟩ :: slotDecls rest

/-- All nodes of a tree have the children their type declares. -/
def Declared (t : Tree α) : Prop := ∀ i s, Tree.mk i s ∈ nodes t → declared i.typ = some (slotDecls s)

/-- Nothing is in the slot `name`. -/
def emptyAt (name : String) : Slots α → Prop
  | .nil => True
  | .one k o rest => (k = name → o = .none) ∧ emptyAt name rest
  | .many k ts rest => (k = name → ts = .nil) ∧ emptyAt name rest

/-- The slots the walk does not go through: what is kept beside a node, the node around the type arguments of a type
reference, and the two parts of a namespaced name in JSX and of a parameter not yet understood. -/
def offWalk : List String :=
  ["TypInfo.TypAnnot", "TypInfo.TypParams", "TypInfo.TypArgs", "TypInfo.Decorators", "TypInfo.SuperTypArgs", "TypInfo.Implements",
    "ParamsInst", "ns", "name"]

/-- A node of the given type. -/
def isA (typ : Nat) : OTree α → Prop
  | .none => False
  | .some t => t.info.typ = typ

/-- A parenthesis directly inside: the slot `Expr` holds a parenthesised expression. -/
def parenInside : Slots α → Prop
  | .nil => False
  | .one k o rest => (k = "Expr" ∧ isA N_EXPR_PAREN o) ∨ parenInside rest
  | .many _ _ rest => parenInside rest

/-- A tree without types, decorators, namespaced names in JSX and without double parentheses. -/
def Plain (t : Tree α) : Prop :=
  ∀ i s, Tree.mk i s ∈ nodes t → (∀ name ∈ offWalk, emptyAt name s) ∧ (i.typ = N_EXPR_PAREN → ¬ parenInside s)

/-- One of the nodes is of the given type. -/
def someIsA (typ : Nat) : Trees α → Prop
  | .nil => False
  | .cons o rest => isA typ o ∨ someIsA typ rest

/-- Decorators are only in the slot for decorators. -/
def onlyDecorates : Slots α → Prop
  | .nil => True
  | .one k o rest => (isA N_DECORATOR o → k = "TypInfo.Decorators") ∧ onlyDecorates rest
  | .many k ts rest => (someIsA N_DECORATOR ts → k = "TypInfo.Decorators") ∧ onlyDecorates rest

/-- The nodes a listener can be told about: all but the empty statements. -/
def told (l : List (Info α)) : List (Info α) := l.filter (fun i => i.typ != N_STMT_EMPTY)

end Mole.Walk.Spec
