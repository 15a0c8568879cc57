/-! # The tree of the parser and its ESTree form (ecma/estree/convert.go)

The nodes of JavaScript, JSX and TypeScript as the parser makes them, what `Convert` and `ConvertTsTyp` (estree/ts_convert.go) make
of each, as the JSON it is printed as (estree/node.go, estree/jsx_node.go and estree/ts_node.go give the names of the fields).
Left out: the field `loc` (lines and columns, C03).

With TypeScript on, some nodes carry a `TypInfo` (ecma/parser/typinfo.go); such a node is a kind of its own here, with a name in `T`
and what the converter takes from its `TypInfo` as further fields. -/

namespace Mole.Estree.Conv

abbrev Rng := Nat × Nat

/-- ecma/parser/ast.go 1177-1187: the kinds of properties and methods. -/
inductive PropKind where
  | init | getter | setter | ctor | method
deriving DecidableEq, Repr

/-- ast.go 1189-1204 (ToString). -/
def PropKind.text : PropKind → String
  | .init => "init"
  | .getter => "get"
  | .setter => "set"
  | .ctor => "constructor"
  | .method => "method"

/-- The keywords among the types (ecma/parser/ts_ast.go, TsPredef), with the names of estree/ts_node.go. -/
inductive TsKw where
  | num | str | any | bool | void | intrinsic | never | sym | undef | bigint | null | this | unknown | obj
deriving DecidableEq, Repr

/-- ts_convert.go 24-121. -/
def TsKw.type : TsKw → String
  | .num => "TSNumberKeyword"
  | .str => "TSStringKeyword"
  | .any => "TSAnyKeyword"
  | .bool => "TSBooleanKeyword"
  | .void => "TSVoidKeyword"
  | .intrinsic => "TSIntrinsicKeyword"
  | .never => "TSNeverKeyword"
  | .sym => "TSSymbolKeyword"
  | .undef => "TSUndefinedKeyword"
  | .bigint => "TSBigIntKeyword"
  | .null => "TSNullKeyword"
  | .this => "TSThisType"
  | .unknown => "TSUnknownKeyword"
  | .obj => "TSObjectKeyword"

/-- How `readonly` and `?` are written in a mapped type: not at all, as such, with `+` or with `-` (ts_ast.go, TsMapped). -/
inductive Mod where
  | none | set | plus | minus
deriving DecidableEq, Repr

mutual
/-- A node (ast.go, jsx_ast.go): `nil`, or a range and what it is. -/
inductive Node where
  | nil
  | mk (rng : Rng) (k : Kind)
/-- What a node is, one constructor for each struct of ast.go and jsx_ast.go; the fields with the operator's place, the scope and
the returns are left out, a number and a string hold their text in the source (`raw`), operators and kinds of variables are given
by their name.  For TypeScript: `ques` is the range of `?`, `annot` a type annotation, `tparams` and `targs` the parameters and
arguments which are types, `decs` decorators, `acc` the text of an access modifier; a declaration with `declare` is one node with what
it declares; in `idxSig` the type of the key is the annotation of the key (ts_convert.go 298-305 puts it there); `paramProp` is a
parameter whose `TypInfo` has these modifiers. -/
inductive Kind where
  | exprStmt (e : Node) (dir : Bool)
  | empty
  | null
  | bool (b : Bool)
  | num (raw : String)
  | str (val : String) (raw : String)
  | regex (pat : String) (flags : String)
  | arr (elems : Nodes)
  | spread (arg : Node)
  | obj (props : Nodes)
  | ident (name : String) (pvt : Bool)
  | new (callee : Node) (args : Nodes)
  | member (o : Node) (prop : Node) (computed : Bool) (optional : Bool)
  | call (callee : Node) (args : Nodes) (optional : Bool)
  | bin (op : String) (l : Node) (r : Node)
  | unary (op : String) (arg : Node)
  | update (op : String) («prefix» : Bool) (arg : Node)
  | cond (test : Node) (cons : Node) (alt : Node)
  | assign (op : String) (l : Node) (r : Node)
  | this
  | seq (elems : Nodes)
  | paren (e : Node)
  | tpl (tag : Node) (elems : Nodes)
  | super
  | importCall (src : Node)
  | «yield» (delegate : Bool) (arg : Node)
  | arrPat (elems : Nodes)
  | assignPat (l : Node) (r : Node)
  | restPat (arg : Node)
  | objPat (props : Nodes)
  | prop (key : Node) (val : Node) (computed : Bool) (method : Bool) (shorthand : Bool) (kind : PropKind)
  | fn (expr : Bool) (id : Node) (gen : Bool) (async : Bool) (params : Nodes) (body : Node)
  | arrow (async : Bool) (params : Nodes) (body : Node) (expr : Bool)
  | varDec (kind : String) (decs : Nodes)
  | declr (id : Node) (init : Node)
  | block (body : Nodes)
  | doWhile (test : Node) (body : Node)
  | «while» (test : Node) (body : Node)
  | «for» (init : Node) (test : Node) (update : Node) (body : Node)
  | forInOf (isIn : Bool) (await : Bool) (l : Node) (r : Node) (body : Node)
  | «if» (test : Node) (cons : Node) (alt : Node)
  | switch (test : Node) (cases : Nodes)
  | case (test : Node) (cons : Nodes)
  | brk (label : Node)
  | cont (label : Node)
  | label (label : Node) (body : Node)
  | ret (arg : Node)
  | «throw» (arg : Node)
  | «catch» (param : Node) (body : Node)
  | «try» (block : Node) (handler : Node) (fin : Node)
  | debug
  | «with» (o : Node) (body : Node)
  | cls (expr : Bool) (id : Node) (tparams : Node) (sup : Node) (supArgs : Node) (impls : Nodes) (body : Node) (abstract : Bool)
      (declare : Bool) (decs : Nodes)
  | classBody (elems : Nodes)
  | method (key : Node) (static : Bool) (computed : Bool) (kind : PropKind) (val : Node)
  | field (key : Node) (static : Bool) (computed : Bool) (val : Node)
  | staticBlock (body : Nodes)
  | metaProp (mt : Node) (prop : Node)
  | importDec (typ : Bool) (specs : Nodes) (src : Node)
  | importSpec (typ : Bool) (deflt : Bool) (ns : Bool) (loc : Node) (id : Node)
  | exportDec (typ : Bool) (all : Bool) (deflt : Bool) (dec : Node) (specs : Nodes) (src : Node)
  | exportSpec (typ : Bool) (ns : Bool) (loc : Node) (id : Node)
  | chain (e : Node)
  | jsxId (name : String)
  | jsxNs (ns : String) (name : String)
  | jsxMember (o : Node) (prop : Node)
  | jsxElem (opening : Node) (children : Nodes) (closing : Node)
  | jsxOpen (name : Node) (attrs : Nodes) (closed : Bool)
  | jsxClose (name : Node)
  | jsxText (val : String) (raw : String)
  | jsxExpr (e : Node)
  | jsxAttr (name : Node) (val : Node)
  | jsxSpreadAttr (arg : Node)
  | jsxSpreadChild (e : Node)
  | jsxEmpty
  | identT (name : String) (ques : Option Rng) (annot : Node) (decs : Nodes) (targs : Node)
  | newT (callee : Node) (args : Nodes) (targs : Node)
  | callT (callee : Node) (args : Nodes) (optional : Bool) (targs : Node)
  | fnT (expr : Bool) (id : Node) (gen : Bool) (async : Bool) (params : Nodes) (body : Node) (tparams : Node) (ret : Node)
  | arrowT (async : Bool) (params : Nodes) (body : Node) (expr : Bool) (tparams : Node) (ret : Node)
  | arrPatT (elems : Nodes) (ques : Option Rng) (annot : Node) (decs : Nodes)
  | objPatT (props : Nodes) (ques : Option Rng) (annot : Node) (decs : Nodes)
  | restPatT (arg : Node) (ques : Option Rng) (annot : Node) (decs : Nodes)
  | methodT (key : Node) (static : Bool) (computed : Bool) (kind : PropKind) (val : Node) (ques : Option Rng) (definite : Bool)
      (override : Bool) (abstract : Bool) (readonly : Bool) (acc : String) (decs : Nodes)
  | fieldT (key : Node) (static : Bool) (computed : Bool) (val : Node) (ques : Option Rng) (definite : Bool) (override : Bool)
      (abstract : Bool) (readonly : Bool) (declare : Bool) (acc : String) (annot : Node) (decs : Nodes)
  | paramProp (acc : String) (readonly : Bool) (override : Bool) (begin : Option Rng) (decs : Nodes) (param : Node)
  | jsxOpenT (name : Node) (attrs : Nodes) (closed : Bool) (targs : Node)
  | tsKw (kw : TsKw)
  | tsAnnot (typ : Node)
  | tsRef (name : Node) (args : Node)
  | tsParamInst (params : Nodes)
  | tsParamDec (params : Nodes)
  | tsParam (name : Node) (cons : Node) (deflt : Node)
  | tsArr (arg : Node)
  | tsObj (props : Nodes)
  | tsCallSig (params : Nodes) (tparams : Node) (ret : Node)
  | tsPredicate (name : Node) (typ : Node) (asserts : Bool)
  | tsAssert (e : Node) (typ : Node)
  | tsNoNull (e : Node)
  | tsUnion (elems : Nodes)
  | tsIntersect (elems : Nodes)
  | tsQName (lhs : Node) (rhs : Node)
  | tsItfBody (body : Nodes)
  | tsEnum (id : Node) (members : Nodes) («const» : Bool) (declare : Bool)
  | tsEnumMember (key : Node) (val : Node)
  | tsModule (id : Node) (body : Node) (declare : Bool) (global : Bool)
  | tsExportAssign (e : Node)
  | tsLit (lit : Node)
  | tsImportAlias (name : Node) (val : Node) («export» : Bool)
  | tsNewSig (params : Nodes) (tparams : Node) (ret : Node) (abstract : Bool)
  | tsNew (params : Nodes) (tparams : Node) (ret : Node) (abstract : Bool)
  | tsFnTyp (params : Nodes) (tparams : Node) (ret : Node)
  | tsImportTyp (arg : Node) (qual : Node) (args : Node)
  | tsQuery (arg : Node)
  | tsCond (check : Node) (ext : Node) (yes : Node) (no : Node)
  | tsInfer (arg : Node)
  | tsParen (arg : Node)
  | tsIdxAccess (o : Node) (idx : Node)
  | tsMapped (readonly : Mod) (optional : Mod) (key : Node) (name : Node) (val : Node)
  | tsTypOp (op : String) (arg : Node)
  | tsTuple (elems : Nodes)
  | tsNamed (optional : Bool) (label : Node) (val : Node)
  | tsRest (arg : Node)
  | tsOpt (arg : Node)
  | decorator (e : Node)
  | tsProp (key : Node) (val : Node) (ques : Option Rng) (kind : PropKind) (computed : Bool) (readonly : Bool)
  | tsDecFn (id : Node) (gen : Bool) (async : Bool) (params : Nodes) (body : Node) (tparams : Node) (ret : Node)
  | tsDecClass (inner : Rng) (id : Node) (tparams : Node) (sup : Node) (supArgs : Node) (impls : Nodes) (body : Node)
      (abstract : Bool) (decs : Nodes)
  | tsDecVar (kind : String) (decs : Nodes)
  | tsItf (id : Node) (tparams : Node) (exts : Nodes) (body : Node) (declare : Bool)
  | tsAlias (id : Node) (tparams : Node) (typ : Node) (declare : Bool)
  | tsImportRequire (name : Node) (callRng : Rng) (args : Nodes)
  | nsAlias (id : Node)
  | idxSig (static : Bool) (abstract : Bool) (ques : Option Rng) (readonly : Bool) (declare : Bool) (acc : String) (key : Node)
      (annot : Node) (decs : Nodes)
  -- the parser makes none of these, they are for what the output says (ConvSpec.lean)
  | tplT (tag : Node) (targs : Node) (quasi : Node)
  | tsExt (e : Node) (args : Node)
  | extRef (e : Node)
inductive Nodes where
  | nil
  | cons (n : Node) (rest : Nodes)
end

/-- JSON; `number t` is the number written `t` (C52); a `crash` anywhere in it says that the conversion of the whole panics. -/
inductive J where
  | crash
  | null
  | bool (b : Bool)
  | nat (n : Nat)
  | number (text : String)
  | str (s : String)
  | arr (l : List J)
  | obj (fields : List (String × J))

/-- Every object has its type and range, as in convert.go 36-42. -/
def ob (type : String) (rng : Rng) (fields : List (String × J)) : J :=
  .obj (("type", .str type) :: ("start", .nat rng.1) :: ("end", .nat rng.2) :: fields)

/-- convert.go 498: the value of the string of a directive. -/
def strVal : Node → String
  | .mk _ (.str val _) => val
  | _ => ""

/-- ecma/parser/astutil.go 87-90 (NodeIsBigint). -/
def isBig (raw : String) : Bool := raw.toList.getLast? == some 'n'

/-- astutil.go 32-59 (ParseBigint): not worked out here, the text stands for the number. -/
def bigText (raw : String) : String := raw

def Node.rng : Node → Rng
  | .nil => (0, 0)
  | .mk r _ => r

/-- jsx_ast.go (IsFragment): the opening tag has no name. -/
def isFragment : Node → Bool
  | .mk _ (.jsxOpen .nil _ _) => true
  | _ => false

/-- convert.go 152: the element is a string literal (node type N_LIT_STR). -/
def isStr : Node → Bool
  | .mk _ (.str _ _) => true
  | _ => false

def Node.isNil : Node → Bool
  | .nil => true
  | .mk _ _ => false

/-- The kinds of nodes with a case in ts_convert.go 12-672 (N_NAME and N_TS_*). -/
def isTypK : Kind → Bool
  | .ident _ _ | .identT _ _ _ _ _ | .tsKw _ | .tsAnnot _ | .tsRef _ _ | .tsParamInst _ | .tsParamDec _ 
  | .tsParam _ _ _ | .tsArr _ | .tsObj _ | .tsCallSig _ _ _ | .tsPredicate _ _ _ | .tsAssert _ _ | .tsNoNull _ 
  | .tsUnion _ | .tsIntersect _ | .tsQName _ _ | .tsItfBody _ | .tsEnum _ _ _ _ | .tsEnumMember _ _ 
  | .tsModule _ _ _ _ | .tsExportAssign _ | .tsLit _ | .tsImportAlias _ _ _ | .tsNewSig _ _ _ _ | .tsNew _ _ _ _ 
  | .tsFnTyp _ _ _ | .tsImportTyp _ _ _ | .tsQuery _ | .tsCond _ _ _ _ | .tsInfer _ | .tsParen _ | .tsIdxAccess _ _ 
  | .tsMapped _ _ _ _ _ | .tsTypOp _ _ | .tsTuple _ | .tsNamed _ _ _ | .tsRest _ | .tsOpt _ | .tsProp _ _ _ _ _ _ 
  | .tsDecFn _ _ _ _ _ _ _ | .tsDecClass _ _ _ _ _ _ _ _ _ | .tsDecVar _ _ | .tsItf _ _ _ _ _ | .tsAlias _ _ _ _ 
  | .tsImportRequire _ _ _ | .nsAlias _ | .idxSig _ _ _ _ _ _ _ _ _ => true
  | _ => false

def isTyp : Node → Bool
  | .nil => true
  | .mk _ k => isTypK k

/-- ts_ast.go (TsMapped.ReadonlyFmt, OptionalFmt). -/
def Mod.json : Mod → J
  | .none => .str ""
  | .set => .bool true
  | .plus => .str "+"
  | .minus => .str "-"

/-- convert.go 303-320 (FirstLoc): the range that starts first, of two the shorter one; a range is empty if it is (0, 0). -/
def firstLoc (rngs : List Rng) : Rng :=
  let best := rngs.foldl (fun (st : Option Rng × Rng) r =>
    if r = (0, 0) then st
    else if r.1 < st.2.1 || (r.1 == st.2.1 && r.2 < st.2.2) then (some r, r) else st) (none, (4294967295, 4294967295))
  best.1.getD (rngs.headD (0, 0))

/-- convert.go 322-339 (LastLoc). -/
def lastLoc (rngs : List Rng) : Rng :=
  let best := rngs.foldl (fun (st : Option Rng × Rng) r =>
    if r = (0, 0) then st
    else if st.2.2 < r.2 || (r.2 == st.2.2 && st.2.1 < r.1) then (some r, r) else st) (none, (0, 0))
  best.1.getD (rngs.headD (0, 0))

/-- convert.go 348-385 (locWithTypeInfo): from the parameters which are types, or the modifiers of a parameter, to the annotation. -/
def locWithTypeInfo (rng : Rng) (tparams : Node) (begin : List Rng) (ques : Option Rng) (annot : Node) : Rng :=
  ((firstLoc ((if tparams.isNil then [] else [tparams.rng]) ++ [rng] ++ begin)).1,
   (lastLoc ((if annot.isNil then [] else [annot.rng]) ++ [ques.getD (0, 0), rng])).2)

/-- convert.go 422-434 (locWithDecorator). -/
def locWithDecorator (rng : Rng) : Nodes → Rng
  | .nil => rng
  | .cons d _ => (d.rng.1, rng.2)

/-- ts_ast.go (TsProp.IsMethod): the value is a call signature. -/
def isCallSig : Node → Bool
  | .mk _ (.tsCallSig _ _ _) => true
  | _ => false

/-- ts_ast.go 441-446 (TsProp.Readonly): asks the `TypInfo` of the key; names and literals have a field for one which is nil for
literals, whose `clsTyp` cannot be read then; member expressions and numbers have none. -/
def keyReadonly (readonly : Bool) : Node → J
  | .mk _ (.identT ..) => .bool readonly
  | .mk _ (.num _) | .mk _ (.member ..) => .bool false
  | _ => .crash

/-- ast.go (Field.IsTsSig): `[a: T]` without a value. -/
def isTsSig (key : Node) (computed : Bool) (val : Node) : Bool :=
  match key with
  | .mk _ (.identT _ _ annot _ _) => computed && val.isNil && !annot.isNil
  | _ => false

/-- The parameter of which one has a default. -/
def noDefault : Node → Node
  | .mk _ (.assignPat l _) => l
  | n => n

/-- typinfo.go (Ques) of a parameter; that of a parameter with a default is the one of its left side. -/
def quesOf (n : Node) : Option Rng :=
  match noDefault n with
  | .mk _ (.identT _ q _ _ _) | .mk _ (.arrPatT _ q _ _) | .mk _ (.objPatT _ q _ _) | .mk _ (.restPatT _ q _ _) => q
  | _ => none

/-- typinfo.go (TypAnnot) of a parameter. -/
def annotOf (n : Node) : Node :=
  match noDefault n with
  | .mk _ (.identT _ _ a _ _) | .mk _ (.arrPatT _ _ a _) | .mk _ (.objPatT _ _ a _) | .mk _ (.restPatT _ _ a _) => a
  | _ => .nil

/-- ast.go (ImportDec.Kind, ImportSpec.Kind, ExportDec.Kind, ExportSpec.Kind). -/
def kindText (typ : Bool) : String := if typ then "type" else "value"

def Nodes.isNil : Nodes → Bool
  | .nil => true
  | .cons _ _ => false

/-- estree/node.go (TemplateElement). -/
def quasi (rng : Rng) (tail : Bool) (cooked raw : String) : J :=
  ob "TemplateElement" rng [("tail", .bool tail), ("value", .obj [("cooked", .str cooked), ("raw", .str raw)])]

/-- convert.go 145-187 (tplLiteral): the quasis, an empty one for an expression at either end. -/
def quasis (rng : Rng) (first : Bool) : Nodes → List J
  | .nil => []
  | .cons (.mk r (.str val raw)) rest => quasi r rest.isNil val raw :: quasis rng false rest
  | .cons _ rest => (if first || rest.isNil then [quasi rng rest.isNil "" ""] else []) ++ quasis rng false rest

set_option maxHeartbeats 4000000

mutual
/-- convert.go 481-1574 (Convert), ts_convert.go 7-675 (ConvertTsTyp) and the functions they call. -/
def convert : Node → J
  | .nil => .null
  | .mk rng k => convertK rng k
def convertK (rng : Rng) : Kind → J
  -- convert.go 488-507
  | .exprStmt e dir =>
    ob "ExpressionStatement" rng (("expression", convert e) :: if dir then [("directive", .str (strVal e))] else [])
  -- convert.go 983-989
  | .empty => ob "EmptyStatement" rng []
  -- convert.go 538-544
  | .null => ob "Literal" rng [("value", .null), ("raw", .str "")]
  -- convert.go 1000-1008
  | .bool b => ob "Literal" rng [("value", .bool b), ("raw", .str "")]
  -- convert.go 545-572
  | .num raw =>
    ob "Literal" rng ([("value", .number raw), ("raw", .str raw)] ++ if isBig raw then [("bigint", .str (bigText raw))] else [])
  -- convert.go 573-582
  | .str val raw => ob "Literal" rng [("value", .str val), ("raw", .str raw)]
  -- convert.go 583-591
  | .regex pat flags => ob "Literal" rng [("value", .null), ("regexp", .obj [("pattern", .str pat), ("flags", .str flags)])]
  -- convert.go 45-58
  | .arr elems => ob "ArrayExpression" rng [("elements", .arr (convertL elems))]
  -- convert.go 789-797
  | .spread arg => ob "SpreadElement" rng [("argument", convert arg)]
  -- convert.go 60-73
  | .obj props => ob "ObjectExpression" rng [("properties", .arr (convertL props))]
  -- convert.go 387-420
  | .ident name pvt => ob (if pvt then "PrivateIdentifier" else "Identifier") rng [("name", .str name)]
  -- convert.go 508-528
  | .new callee args => ob "NewExpression" rng [("callee", convert callee), ("arguments", .arr (convertL args))]
  -- convert.go 925-936
  | .member o prop computed optional =>
    ob "MemberExpression" rng [("object", convert o), ("property", convert prop), ("computed", .bool computed),
      ("optional", .bool optional)]
  -- convert.go 882-904
  | .call callee args optional =>
    ob "CallExpression" rng [("callee", convert callee), ("arguments", .arr (convertL args)), ("optional", .bool optional)]
  -- convert.go 592-628
  | .bin op l r => if op = "as" then ob "TSAsExpression" rng [("expression", convert l), ("typeAnnotation", convert r)]
    else ob (if op = "&&" || op = "||" || op = "??" then "LogicalExpression" else "BinaryExpression") rng
      [("operator", .str op), ("left", convert l), ("right", convert r)]
  -- convert.go 957-971
  | .unary op arg => ob (if op = "await" then "AwaitExpression" else "UnaryExpression") rng
      [("operator", .str op), ("prefix", .bool true), ("argument", convert arg)]
  -- convert.go 946-956
  | .update op «prefix» arg =>
    ob "UpdateExpression" rng [("operator", .str op), ("argument", convert arg), ("prefix", .bool «prefix»)]
  -- convert.go 972-982
  | .cond test cons alt =>
    ob "ConditionalExpression" rng [("test", convert test), ("consequent", convert cons), ("alternate", convert alt)]
  -- convert.go 629-642
  | .assign op l r => ob "AssignmentExpression" rng [("operator", .str op), ("left", convert l), ("right", convert r)]
  -- convert.go 531-537
  | .this => ob "ThisExpression" rng []
  -- convert.go 937-945
  | .seq elems => ob "SequenceExpression" rng [("expressions", .arr (convertL elems))]
  -- convert.go 486-487
  | .paren e => convert e
  -- convert.go 1321-1350
  | .tpl tag elems => match tag with
    | .nil => ob "TemplateLiteral" rng [("quasis", .arr (quasis rng true elems)), ("expressions", .arr (exprs elems))]
    | .mk r k => ob "TaggedTemplateExpression" (r.1, rng.2) ([("tag", convertK r k),
        ("quasi", ob "TemplateLiteral" rng [("quasis", .arr (quasis rng true elems)), ("expressions", .arr (exprs elems))])] ++
        tagArgs k)
  -- convert.go 1313-1320
  | .super => ob "Super" rng []
  -- convert.go 1129-1137
  | .importCall src => ob "ImportExpression" rng [("source", convert src)]
  -- convert.go 770-779
  | .«yield» delegate arg => ob "YieldExpression" rng [("argument", convert arg), ("delegate", .bool delegate)]
  -- convert.go 798-819
  | .arrPat elems => ob "ArrayPattern" rng [("elements", .arr (convertL elems))]
  -- convert.go 820-829
  | .assignPat l r => ob "AssignmentPattern" rng [("left", convert l), ("right", convert r)]
  -- convert.go 851-870
  | .restPat arg => ob "RestElement" rng [("argument", convert arg)]
  -- convert.go 830-850
  | .objPat props => ob "ObjectPattern" rng [("properties", .arr (convertL props))]
  -- convert.go 647-660
  | .prop key val computed method shorthand kind =>
    ob "Property" rng [("key", convert key), ("value", convert val), ("kind", .str kind.text),
      ("method", .bool (kind == .init && method)), ("shorthand", .bool shorthand), ("computed", .bool computed)]
  -- convert.go 663-693, 726-769
  | .fn expr id gen async params body =>
    if expr then ob "FunctionExpression" rng [("id", convert id), ("params", .arr (convertL params)), ("body", convert body),
        ("generator", .bool gen), ("async", .bool async), ("expression", .bool false)]
    else ob "FunctionDeclaration" rng [("id", convert id), ("params", .arr (convertL params)), ("body", convert body),
        ("generator", .bool gen), ("async", .bool async)]
  -- convert.go 694-725
  | .arrow async params body expr =>
    ob "ArrowFunctionExpression" rng [("id", .null), ("params", .arr (convertL params)), ("body", convert body),
      ("generator", .bool false), ("async", .bool async), ("expression", .bool expr)]
  -- convert.go 915-924
  | .varDec kind decs => ob "VariableDeclaration" rng [("kind", .str kind), ("declarations", .arr (convertL decs))]
  -- convert.go 129-143
  | .declr id init => ob "VariableDeclarator" rng [("id", convert id), ("init", convert init)]
  -- convert.go 103-111
  | .block body => ob "BlockStatement" rng [("body", .arr (convertL body))]
  -- convert.go 990-999
  | .doWhile test body => ob "DoWhileStatement" rng [("test", convert test), ("body", convert body)]
  -- convert.go 1009-1018
  | .«while» test body => ob "WhileStatement" rng [("test", convert test), ("body", convert body)]
  -- convert.go 1019-1030
  | .«for» init test update body =>
    ob "ForStatement" rng [("init", convert init), ("test", convert test), ("update", convert update),
      ("body", convert body)]
  -- convert.go 1031-1053
  | .forInOf isIn await l r body =>
    if isIn then ob "ForInStatement" rng [("left", convert l), ("right", convert r), ("body", convert body)]
    else ob "ForOfStatement" rng [("left", convert l), ("right", convert r), ("body", convert body), ("await", .bool await)]
  -- convert.go 871-881
  | .«if» test cons alt =>
    ob "IfStatement" rng [("test", convert test), ("consequent", convert cons), ("alternate", convert alt)]
  -- convert.go 905-914
  | .switch test cases => ob "SwitchStatement" rng [("discriminant", convert test), ("cases", .arr (convertL cases))]
  -- convert.go 113-127
  | .case test cons => ob "SwitchCase" rng [("test", convert test), ("consequent", .arr (convertL cons))]
  -- convert.go 1063-1071
  | .brk label => ob "BreakStatement" rng [("label", convert label)]
  -- convert.go 1054-1062
  | .cont label => ob "ContinueStatement" rng [("label", convert label)]
  -- convert.go 1072-1081
  | .label label body => ob "LabeledStatement" rng [("label", convert label), ("body", convert body)]
  -- convert.go 780-788
  | .ret arg => ob "ReturnStatement" rng [("argument", convert arg)]
  -- convert.go 1082-1090
  | .«throw» arg => ob "ThrowStatement" rng [("argument", convert arg)]
  -- convert.go 1102-1111
  | .«catch» param body => ob "CatchClause" rng [("param", convert param), ("body", convert body)]
  -- convert.go 1091-1101
  | .«try» block handler fin =>
    ob "TryStatement" rng [("block", convert block), ("handler", convert handler), ("finalizer", convert fin)]
  -- convert.go 1112-1118
  | .debug => ob "DebuggerStatement" rng []
  -- convert.go 1119-1128
  | .«with» o body => ob "WithStatement" rng [("object", convert o), ("body", convert body)]
  -- convert.go 1148-1212
  | .cls expr id tparams sup supArgs impls body abstract declare decs =>
    if supArgs.isNil && tparams.isNil && impls.isNil then
      if expr then ob "ClassExpression" rng [("id", convert id), ("superClass", convert sup), ("body", convert body),
          ("abstract", .bool abstract)]
      else ob "ClassDeclaration" (locWithDecorator rng decs) [("id", convert id), ("superClass", convert sup),
          ("body", convert body), ("abstract", .bool abstract), ("declare", .bool declare), ("decorators", .arr (convertL decs))]
    else
      if expr then ob "ClassExpression" rng [("id", convert id), ("typeParameters", convertT tparams),
          ("superClass", convert sup), ("superTypeParameters", convertT supArgs), ("implements", .arr (convertL impls)),
          ("body", convert body), ("decorators", .null), ("abstract", .bool abstract)]
      else ob "ClassDeclaration" (locWithDecorator rng decs) [("id", convert id), ("typeParameters", convertT tparams),
          ("superClass", convert sup), ("superTypeParameters", convertT supArgs), ("implements", .arr (convertL impls)),
          ("body", convert body), ("declare", .bool declare), ("decorators", .arr (convertL decs)), ("abstract", .bool abstract)]
  -- convert.go 1213-1221
  | .classBody elems => ob "ClassBody" rng [("body", .arr (convertL elems))]
  -- convert.go 1222-1258
  | .method key static computed kind val =>
    ob "MethodDefinition" rng [("key", convert key), ("value", convert val), ("kind", .str kind.text),
      ("computed", .bool computed), ("static", .bool static), ("decorators", .arr [])]
  -- convert.go 1259-1312
  | .field key static computed val =>
    ob "PropertyDefinition" rng [("key", convert key), ("value", convert val), ("computed", .bool computed),
      ("static", .bool static), ("decorators", .arr [])]
  -- convert.go 1390-1398
  | .staticBlock body => ob "StaticBlock" rng [("body", .arr (convertL body))]
  -- convert.go 1138-1147
  | .metaProp mt prop => ob "MetaProperty" rng [("meta", convert mt), ("property", convert prop)]
  -- convert.go 1351-1361
  | .importDec typ specs src => ob "ImportDeclaration" rng [("specifiers", .arr (convertL specs)), ("source", convert src),
      ("importKind", .str (kindText typ))]
  -- convert.go 198-225
  | .importSpec typ deflt ns loc id => if deflt then ob "ImportDefaultSpecifier" rng [("local", convert loc)]
    else if ns then ob "ImportNamespaceSpecifier" rng [("local", convert loc)]
    else ob "ImportSpecifier" rng [("local", convert loc), ("imported", convert id), ("importKind", .str (kindText typ))]
  -- convert.go 1362-1389
  | .exportDec typ all deflt dec specs src =>
    if all then ob "ExportAllDeclaration" rng [("exported", exported specs), ("source", convert src)]
    else if deflt then ob "ExportDefaultDeclaration" rng [("declaration", convert dec)]
    else exportDecl rng typ (convertL specs) (convert src) dec
  -- convert.go 260-275
  | .exportSpec typ _ loc id =>
    ob "ExportSpecifier" rng [("local", convert loc), ("exported", convert id), ("exportKind", .str (kindText typ))]
  -- convert.go 1399-1407
  | .chain e => ob "ChainExpression" rng [("expression", convert e)]
  -- convert.go 1408-1416
  | .jsxId name => ob "JSXIdentifier" rng [("name", .str name)]
  -- convert.go 1417-1426
  | .jsxNs ns name => ob "JSXNamespacedName" rng [("namespace", .str ns), ("name", .str name)]
  -- convert.go 1427-1436
  | .jsxMember o prop => ob "JSXMemberExpression" rng [("object", convert o), ("property", convert prop)]
  -- convert.go 1437-1470
  | .jsxElem opening children closing =>
    if isFragment opening then ob "JSXFragment" rng [("openingFragment", ob "JSXOpeningFragment" opening.rng []),
        ("children", .arr (convertL children)), ("closingFragment", ob "JSXClosingFragment" closing.rng [])]
    else ob "JSXElement" rng [("openingElement", convert opening), ("children", .arr (convertL children)),
      ("closingElement", convert closing)]
  -- convert.go 1471-1496
  | .jsxOpen name attrs closed => ob "JSXOpeningElement" rng [("name", convert name), ("attributes", .arr (convertL attrs)),
      ("selfClosing", .bool closed)]
  -- convert.go 1497-1505
  | .jsxClose name => ob "JSXClosingElement" rng [("name", convert name)]
  -- convert.go 1506-1515
  | .jsxText val raw => ob "JSXText" rng [("value", .str val), ("raw", .str raw)]
  -- convert.go 1516-1524
  | .jsxExpr e => ob "JSXExpressionContainer" rng [("expression", convert e)]
  -- convert.go 1525-1534
  | .jsxAttr name val => ob "JSXAttribute" rng [("name", convert name), ("value", convert val)]
  -- convert.go 1535-1543
  | .jsxSpreadAttr arg => ob "JSXSpreadAttribute" rng [("argument", convert arg)]
  -- convert.go 1544-1552
  | .jsxSpreadChild e => ob "JSXSpreadChild" rng [("expression", convert e)]
  -- convert.go 1553-1560
  | .jsxEmpty => ob "JSXEmptyExpression" rng []
  -- convert.go 387-420
  | .identT name ques annot decs _ => ob "Identifier" (locWithTypeInfo rng .nil [] ques annot) [("name", .str name),
      ("optional", .bool ques.isSome), ("typeAnnotation", convertT annot), ("decorators", .arr (convertL decs))]
  -- convert.go 508-528
  | .newT callee args targs => ob "NewExpression" rng [("callee", convert callee), ("arguments", .arr (convertL args)),
      ("typeParameters", typArgs targs)]
  -- convert.go 882-904
  | .callT callee args optional targs => ob "CallExpression" rng [("callee", convert callee), ("arguments", .arr (convertL args)),
      ("optional", .bool optional), ("typeParameters", typArgs targs)]
  -- convert.go 663-693, 726-769: a function without a body is written without its `*`
  | .fnT expr id gen async params body tparams ret =>
    if expr then ob "FunctionExpression" rng [("id", convert id), ("params", .arr (convertL params)), ("body", convert body),
        ("generator", .bool gen), ("async", .bool async), ("expression", .bool false), ("typeParameters", typParams tparams),
        ("returnType", convertT ret)]
    else if body.isNil then ob "TSDeclareFunction" rng [("id", convert id), ("params", .arr (convertL params)),
        ("body", convert body), ("generator", .bool false), ("async", .bool async), ("typeParameters", typParams tparams),
        ("returnType", convertT ret)]
    else ob "FunctionDeclaration" rng [("id", convert id), ("params", .arr (convertL params)), ("body", convert body),
        ("generator", .bool gen), ("async", .bool async), ("typeParameters", typParams tparams), ("returnType", convertT ret)]
  -- convert.go 694-725
  | .arrowT async params body expr tparams ret =>
    ob "ArrowFunctionExpression" (locWithTypeInfo rng tparams [] none ret) [("id", .null), ("params", .arr (convertL params)),
      ("body", convert body), ("generator", .bool false), ("async", .bool async), ("expression", .bool expr),
      ("typeParameters", typParams tparams), ("returnType", convertT ret)]
  -- convert.go 798-819
  | .arrPatT elems ques annot _ => ob "ArrayPattern" (locWithTypeInfo rng .nil [] ques annot) [("elements", .arr (convertL elems)),
      ("optional", .bool ques.isSome), ("typeAnnotation", convertT annot)]
  -- convert.go 830-850: `Optional` is not set
  | .objPatT props ques annot _ => ob "ObjectPattern" (locWithTypeInfo rng .nil [] ques annot)
      [("properties", .arr (convertL props)), ("optional", .bool false), ("typeAnnotation", convertT annot)]
  -- convert.go 851-870
  | .restPatT arg ques annot _ => ob "RestElement" rng [("argument", convert arg), ("optional", .bool ques.isSome),
      ("typeAnnotation", convertT annot)]
  -- convert.go 1222-1258
  | .methodT key static computed kind val ques definite override abstract readonly acc decs =>
    ob "MethodDefinition" (locWithDecorator rng decs) [("key", convert key), ("value", convert val), ("kind", .str kind.text),
      ("computed", .bool computed), ("static", .bool static), ("optional", .bool ques.isSome), ("definite", .bool definite),
      ("override", .bool override), ("abstract", .bool abstract), ("readonly", .bool readonly), ("accessibility", .str acc),
      ("decorators", .arr (convertL decs))]
  -- convert.go 1259-1312
  | .fieldT key static computed val ques definite override abstract readonly declare acc annot decs =>
    if isTsSig key computed val then ob "TSIndexSignature" (locWithDecorator rng decs) [("static", .bool static),
      ("abstract", .bool abstract), ("optional", .bool ques.isSome), ("readonly", .bool readonly), ("declare", .bool declare),
      ("accessibility", .str acc), ("parameters", .arr [convert key]), ("typeAnnotation", convertT annot),
      ("decorators", .arr (convertL decs))]
    else ob "PropertyDefinition" (locWithDecorator rng decs) [("key", convert key), ("value", convert val),
      ("computed", .bool computed), ("static", .bool static), ("abstract", .bool abstract), ("optional", .bool ques.isSome),
      ("definite", .bool definite), ("readonly", .bool readonly), ("override", .bool override), ("declare", .bool declare),
      ("accessibility", .str acc), ("typeAnnotation", convertT annot), ("decorators", .arr (convertL decs))]
  -- convert.go 75-85 (fnParams), ts_convert.go 781-811 (tsParamProp, isTyParamProp)
  | .paramProp acc readonly override begin decs param =>
    if readonly || override || acc != "" then
      ob "TSParameterProperty" (locWithTypeInfo param.rng .nil [begin.getD (0, 0)] (quesOf param) (annotOf param))
        [("parameter", convert param), ("readonly", .bool readonly), ("accessibility", .str acc), ("override", .bool override),
        ("decorators", .arr (convertL decs))]
    else convert param
  -- convert.go 1471-1496
  | .jsxOpenT name attrs closed targs => ob "JSXOpeningElement" rng [("name", convert name), ("attributes", .arr (convertL attrs)),
      ("selfClosing", .bool closed), ("typeParameters", typArgs targs)]
  -- ts_convert.go 24-121
  | .tsKw kw => ob kw.type rng []
  -- ts_convert.go 15-23
  | .tsAnnot typ => ob "TSTypeAnnotation" rng [("typeAnnotation", convertT typ)]
  -- ts_convert.go 122-131
  | .tsRef name args => ob "TSTypeReference" rng [("typeName", convert name), ("typeParameters", convert args)]
  -- ts_convert.go 132-140
  | .tsParamInst params => ob "TSTypeParameterInstantiation" rng [("params", .arr (convertL params))]
  -- ts_convert.go 141-149
  | .tsParamDec params => ob "TSTypeParameterDeclaration" rng [("params", .arr (convertL params))]
  -- ts_convert.go 150-160
  | .tsParam name cons deflt => ob "TSTypeParameter" rng [("name", convert name), ("constraint", convert cons),
      ("default", convert deflt)]
  -- ts_convert.go 161-169
  | .tsArr arg => ob "TSArrayType" rng [("elementType", convertT arg)]
  -- ts_convert.go 170-178
  | .tsObj props => ob "TSTypeLiteral" rng [("members", .arr (convertL props))]
  -- ts_convert.go 179-189
  | .tsCallSig params tparams ret => ob "TSCallSignatureDeclaration" rng [("id", .null), ("params", .arr (convertL params)),
      ("generator", .bool false), ("async", .bool false), ("typeParameters", convertT tparams), ("returnType", convertT ret)]
  -- ts_convert.go 217-227
  | .tsPredicate name typ asserts => ob "TSTypePredicate" rng [("parameterName", convert name),
      ("typeAnnotation", convertT typ), ("asserts", .bool asserts)]
  -- ts_convert.go 245-254
  | .tsAssert e typ => ob "TSTypeAssertion" rng [("expression", convert e), ("typeAnnotation", convertT typ)]
  -- ts_convert.go 255-263
  | .tsNoNull e => ob "TSNonNullExpression" rng [("expression", convert e)]
  -- ts_convert.go 264-272
  | .tsUnion elems => ob "TSUnionType" rng [("types", .arr (convertL elems))]
  -- ts_convert.go 273-281
  | .tsIntersect elems => ob "TSIntersectionType" rng [("types", .arr (convertL elems))]
  -- ts_convert.go 314-323
  | .tsQName lhs rhs => ob "TSQualifiedName" rng [("left", convertT lhs), ("right", convertT rhs)]
  -- ts_convert.go 350-362
  | .tsItfBody body => ob "TSInterfaceBody" rng [("body", .arr (convertL body))]
  -- ts_convert.go 376-399
  | .tsEnum id members «const» declare => ob "TSEnumDeclaration" rng [("id", convert id), ("members", .arr (convertL members)),
      ("const", .bool «const»), ("declare", .bool declare)]
  -- ts_convert.go 400-409
  | .tsEnumMember key val => ob "TSEnumMember" rng [("id", convert key), ("initializer", convert val)]
  -- ts_convert.go 434-468
  | .tsModule id body declare global => ob "TSModuleDeclaration" rng [("id", convert id), ("body", convert body),
      ("declare", .bool declare), ("global", .bool global)]
  -- ts_convert.go 469-477
  | .tsExportAssign e => ob "TSExportAssignment" rng [("expression", convert e)]
  -- ts_convert.go 478-486
  | .tsLit lit => ob "TSLiteralType" rng [("literal", convert lit)]
  -- ts_convert.go 487-497
  | .tsImportAlias name val «export» => ob "TSImportEqualsDeclaration" rng [("id", convert name),
      ("moduleReference", convert val), ("isExport", .bool «export»)]
  -- ts_convert.go 516-527
  | .tsNewSig params tparams ret abstract => ob "TSConstructSignatureDeclaration" rng [("id", .null),
      ("params", .arr (convertL params)), ("generator", .bool false), ("async", .bool false),
      ("typeParameters", convertT tparams), ("returnType", convertT ret), ("abstract", .bool abstract)]
  -- ts_convert.go 528-539
  | .tsNew params tparams ret abstract => ob "TSConstructorType" rng [("id", .null), ("params", .arr (convertL params)),
      ("generator", .bool false), ("async", .bool false), ("typeParameters", convertT tparams), ("returnType", convertT ret),
      ("abstract", .bool abstract)]
  -- ts_convert.go 540-550
  | .tsFnTyp params tparams ret => ob "TSFunctionType" rng [("id", .null), ("params", .arr (convertL params)),
      ("generator", .bool false), ("async", .bool false), ("typeParameters", convertT tparams), ("returnType", convertT ret)]
  -- ts_convert.go 551-561
  | .tsImportTyp arg qual args => ob "TSImportType" rng [("argument", convert arg), ("qualifier", convertT qual),
      ("typeParameters", convertT args)]
  -- ts_convert.go 562-570
  | .tsQuery arg => ob "TSTypeQuery" rng [("exprName", convert arg)]
  -- ts_convert.go 571-582
  | .tsCond check ext yes no => ob "TSConditionalType" rng [("checkType", convert check), ("extendsType", convert ext),
      ("trueType", convert yes), ("falseType", convert no)]
  -- ts_convert.go 583-591
  | .tsInfer arg => ob "TSInferType" rng [("typeParameter", convertT arg)]
  -- ts_convert.go 592-600
  | .tsParen arg => ob "TSParenthesizedType" rng [("typeAnnotation", convertT arg)]
  -- ts_convert.go 601-610
  | .tsIdxAccess o idx => ob "TSIndexedAccessType" rng [("objectType", convertT o), ("indexType", convertT idx)]
  -- ts_convert.go 611-623
  | .tsMapped readonly optional key name val => ob "TSMappedType" rng [("readonly", readonly.json),
      ("optional", optional.json), ("typeParameter", convertT key), ("nameType", convertT name),
      ("typeAnnotation", convertT val)]
  -- ts_convert.go 624-633
  | .tsTypOp op arg => ob "TSTypeOperator" rng [("operator", .str op), ("typeAnnotation", convertT arg)]
  -- ts_convert.go 634-642
  | .tsTuple elems => ob "TSTupleType" rng [("elementTypes", .arr (convertL elems))]
  -- ts_convert.go 643-653
  | .tsNamed optional label val => ob "TSNamedTupleMember" rng [("optional", .bool optional), ("label", convert label),
      ("elementType", convertT val)]
  -- ts_convert.go 654-662
  | .tsRest arg => ob "TSRestType" rng [("typeAnnotation", convertT arg)]
  -- ts_convert.go 663-671
  | .tsOpt arg => ob "TSOptionalType" rng [("typeAnnotation", convertT arg)]
  -- convert.go 1561-1569
  | .decorator e => ob "Decorator" rng [("expression", convert e)]
  -- ts_convert.go 190-216
  | .tsProp key val ques kind computed readonly =>
    if isCallSig val then ob "TSMethodSignature" rng [("key", convert key), ("value", convert val), ("computed", .bool computed),
        ("optional", .bool ques.isSome), ("kind", .str kind.text)]
    else ob "TSPropertySignature" rng [("key", convert key), ("computed", .bool computed), ("optional", .bool ques.isSome),
        ("typeAnnotation", convertT val), ("kind", .str kind.text), ("readonly", keyReadonly readonly key)]
  -- ts_convert.go 228-244
  | .tsDecFn id _ async params body tparams ret => ob "TSDeclareFunction" rng [("id", convert id), ("params", .arr (convertL params)),
      ("body", convert body), ("generator", .bool false), ("async", .bool async), ("typeParameters", typParams tparams),
      ("returnType", convertT ret)]
  -- ts_convert.go 282-295: from the start of `declare` to the end of the class
  | .tsDecClass inner id _ sup _ _ body abstract _ => ob "ClassDeclaration" (rng.1, inner.2) [("id", convert id),
      ("typeParameters", .null), ("superClass", convert sup), ("superTypeParameters", .null), ("implements", .null),
      ("body", convert body), ("declare", .bool true), ("decorators", .null), ("abstract", .bool abstract)]
  -- ts_convert.go 324-335
  | .tsDecVar kind decs => ob "VariableDeclaration" rng [("kind", .str kind), ("declarations", .arr (convertL decs)),
      ("declare", .bool true)]
  -- ts_convert.go 336-349, 363-375
  | .tsItf id tparams exts body declare => ob "TSInterfaceDeclaration" rng [("id", convert id), ("typeParameters", convertT tparams),
      ("extends", match exts with
        | .nil => .null
        | .cons n l => .arr (convertE (.cons n l))),
      ("body", convert body), ("declare", .bool declare)]
  -- ts_convert.go 410-433: with `declare` the parameters are not written
  | .tsAlias id tparams typ declare => ob "TSTypeAliasDeclaration" rng [("id", convert id),
      ("typeParameters", if declare then .null else convertT tparams), ("typeAnnotation", convertT typ), ("declare", .bool declare)]
  -- ts_convert.go 498-515
  | .tsImportRequire name callRng args => ob "TSImportEqualsDeclaration" rng [("id", convert name),
      ("moduleReference", required callRng args), ("isExport", .bool false)]
  -- ts_convert.go 458-468
  | .nsAlias id => ob "TSModuleDeclaration" rng [("id", convert id), ("body", .null), ("declare", .bool false),
      ("global", .bool false)]
  -- ts_convert.go 296-313: a TsIdxSig has no modifiers
  | .idxSig _ _ _ _ _ _ key annot _ => ob "TSIndexSignature" rng [("static", .bool false), ("abstract", .bool false),
      ("optional", .bool false), ("readonly", .bool false), ("declare", .bool false), ("accessibility", .str ""),
      ("parameters", .arr [convert key]), ("typeAnnotation", convertT annot), ("decorators", .null)]
  | .tplT _ _ _ | .tsExt _ _ | .extRef _ => .null
/-- ts_convert.go 7-675 (ConvertTsTyp): a node of any other kind is nothing. -/
def convertT : Node → J
  | .nil => .null
  | .mk rng k => if isTypK k then convertK rng k else .null
def convertTL : Nodes → List J
  | .nil => []
  | .cons n rest => convertT n :: convertTL rest
/-- ts_convert.go 727-752 (typParams). -/
def typParams : Node → J
  | .nil => .null
  | .mk _ (.tsParamDec .nil) => .null
  | .mk r (.tsParamDec (.cons p ps)) => ob "TSTypeParameterDeclaration" r [("params", .arr (convertT p :: convertTL ps))]
  | _ => .crash
/-- ts_convert.go 754-779 (typArgs). -/
def typArgs : Node → J
  | .nil => .null
  | .mk _ (.tsParamInst .nil) => .null
  | .mk r (.tsParamInst (.cons p ps)) => ob "TSTypeParameterInstantiation" r [("params", .arr (convertT p :: convertTL ps))]
  | _ => .crash
/-- convert.go 1329-1342: the arguments of a tagged template are those in the `TypInfo` of the tag. -/
def tagArgs : Kind → List (String × J)
  | .identT _ _ _ _ targs | .newT _ _ targs | .callT _ _ _ targs => [("typeParameters", typArgs targs)]
  | .fnT _ _ _ _ _ _ _ _ | .arrowT _ _ _ _ _ _ => [("typeParameters", .null)]
  | _ => []
/-- convert.go 1371-1388, 277-290 (exportNamed): what is exported by name, with the converted names and source. -/
def exportDecl (rng : Rng) (typ : Bool) (specs : List J) (src : J) : Node → J
  | .mk _ (.nsAlias id) => ob "TSNamespaceExportDeclaration" rng [("id", convert id)]
  | .mk r (.tsImportRequire name callRng args) => ob "TSImportEqualsDeclaration" r [("id", convert name),
      ("moduleReference", required callRng args), ("isExport", .bool true)]
  | .nil => ob "ExportNamedDeclaration" rng [("declaration", .null), ("specifiers", .arr specs), ("source", src),
      ("exportKind", .str (kindText typ))]
  | .mk r k => ob "ExportNamedDeclaration" rng [("declaration", convertK r k), ("specifiers", .arr specs), ("source", src),
      ("exportKind", .str (kindText typ))]
/-- ts_convert.go 677-710 (extends, exprWithTypArg): the parser makes a TsRef of each. -/
def convertE : Nodes → List J
  | .nil => []
  | .cons (.mk r (.tsRef name args)) rest =>
    ob "TSExpressionWithTypeArguments" r [("expression", convert name), ("typeParameters", convertT args)] :: convertE rest
  | .cons _ rest => .crash :: convertE rest
/-- ts_convert.go 505-512: of the arguments of `require` the first one. -/
def required (callRng : Rng) : Nodes → J
  | .nil => .crash
  | .cons a _ => ob "TSExternalModuleReference" callRng [("expression", convert a)]
def convertL : Nodes → List J
  | .nil => []
  | .cons n rest => convert n :: convertL rest
/-- convert.go 152, 172: the expressions of a template are the elements which are no string literals. -/
def exprs : Nodes → List J
  | .nil => []
  | .cons n rest => if isStr n then exprs rest else convert n :: exprs rest
/-- convert.go 235-248 (exportAll): the name after `as`. -/
def exported : Nodes → J
  | .cons (.mk _ (.exportSpec _ _ loc _)) .nil => convert loc
  | _ => .null
end

theorem convertK_empty (rng : Rng) : convertK rng .empty = ob "EmptyStatement" rng [] := by simp only [convertK]

/-- convert.go 30-43 (ConvertProg): `SourceType` is never set. -/
def convertProg (rng : Rng) (body : Nodes) : J := ob "Program" rng [("sourceType", .str ""), ("body", .arr (convertL body))]

end Mole.Estree.Conv
