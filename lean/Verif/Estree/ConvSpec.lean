import Verif.Estree.Conv
/-! # How a consumer reads ESTree

A reader of the JSON of a program which follows the ESTree standard (github.com/estree/estree, es5.md to es2022.md, and
github.com/facebook/jsx) and knows nothing of how it is made: each type of object is read by the names the standard gives to
its fields.  What it reads is compared with the tree of the parser without its parentheses (`erase` below), for ESTree has none.

For TypeScript there is no standard; the types of objects are those of @typescript-eslint and Babel (which estree/ts_node.go follows),
read by the names of their fields. -/

namespace Mole.Estree.Conv

/-- The field of that name. -/
def look (k : String) : List (String × J) → Option J
  | [] => none
  | (f, v) :: rest => if f = k then some v else look k rest

def J.get (j : J) (k : String) : Option J :=
  match j with
  | .obj fields => look k fields
  | _ => none

abbrev Reader := J → Option Node

def readAll (d : Reader) : List J → Option Nodes
  | [] => some .nil
  | j :: rest => do
    let n ← d j
    let l ← readAll d rest
    some (.cons n l)

def node (d : Reader) (j : J) (k : String) : Option Node := (j.get k).bind d

def list (j : J) (k : String) : Option (List J) :=
  match j.get k with
  | some (.arr l) => some l
  | _ => none

def nodes (d : Reader) (j : J) (k : String) : Option Nodes := (list j k).bind (readAll d)

/-- A list which may be absent or null. -/
def nodesOr (d : Reader) (j : J) (k : String) : Option Nodes :=
  match j.get k with
  | none | some .null => some .nil
  | some (.arr l) => readAll d l
  | some _ => none

def text (j : J) (k : String) : Option String :=
  match j.get k with
  | some (.str s) => some s
  | _ => none

def bool (j : J) (k : String) : Option Bool :=
  match j.get k with
  | some (.bool b) => some b
  | _ => none

/-- A flag which may be absent. -/
def boolOr (j : J) (k : String) : Option Bool :=
  match j.get k with
  | none => some false
  | some (.bool b) => some b
  | some _ => none

/-- A node which may be absent. -/
def nodeOr (d : Reader) (j : J) (k : String) : Option Node :=
  match j.get k with
  | none => some .nil
  | some x => d x

/-- Only whether there is a `?` is known, not its place. -/
def mark (o : Bool) : Option Rng := if o then some (0, 0) else none

/-- `importKind` and `exportKind`: `"type"` or `"value"`. -/
def kindOf (j : J) (k : String) : Option Bool :=
  match text j k with
  | some s => if s = "type" then some true else if s = "value" then some false else none
  | none => none

/-- `readonly` and `optional` of a mapped type. -/
def modOf (j : J) (k : String) : Option Mod :=
  match j.get k with
  | some (.bool true) => some .set
  | some (.str s) => if s = "" then some .none else if s = "+" then some .plus else if s = "-" then some .minus else none
  | _ => none

def range (j : J) : Option Rng :=
  match j.get "start", j.get "end" with
  | some (.nat lo), some (.nat hi) => some (lo, hi)
  | _, _ => none

/-- An object of which only the type and the range matter. -/
def bare (t : String) (j : J) : Option Rng := if text j "type" = some t then range j else none

/-- es5.md, Property: `kind: "init" | "get" | "set"`. -/
def propKind (s : String) : Option PropKind :=
  if s = "init" then some .init else if s = "get" then some .getter else if s = "set" then some .setter else none

/-- es2015.md, MethodDefinition: `kind: "constructor" | "method" | "get" | "set"`. -/
def methodKind (s : String) : Option PropKind :=
  if s = "constructor" then some .ctor else if s = "method" then some .method
  else if s = "get" then some .getter else if s = "set" then some .setter else none

/-- The kind of a member of an interface. -/
def memberKind (s : String) : Option PropKind :=
  if s = "init" then some .init else methodKind s

/-- A literal without its quotes. -/
def unquote (raw : String) : String := String.ofList (raw.toList.drop 1).dropLast

/-- es5.md, Directive: "the raw string source of the directive without quotes". -/
def directiveText : Node → Option String
  | .mk _ (.str _ raw) => some (unquote raw)
  | _ => none

/-- es2015.md, TemplateElement. -/
def readQuasi (tail : Bool) (j : J) : Option Node := do
  let r ← range j
  let v ← j.get "value"
  let cooked ← text v "cooked"
  let raw ← text v "raw"
  if text j "type" = some "TemplateElement" ∧ bool j "tail" = some tail then some (.mk r (.str cooked raw)) else none

/-- es2015.md, TemplateLiteral: one quasi more than expressions, in turn; the last one is the tail. -/
def weave (d : Reader) : List J → List J → Option Nodes
  | [q], [] => (readQuasi true q).map fun q => .cons q .nil
  | q :: qs, e :: es => do
    let q ← readQuasi false q
    let e ← d e
    let l ← weave d qs es
    some (.cons q (.cons e l))
  | _, _ => none

/-- The name after `export * as`. -/
def allSpecs : Node → Nodes
  | .nil => .nil
  | n => .cons (.mk (0, 0) (.exportSpec false true n .nil)) .nil

def jsxName : Node → String
  | .mk _ (.jsxId name) => name
  | _ => ""

/-! The types of objects. -/

def readExpressionStatement (d : Reader) (r : Rng) (j : J) : Option Node := do
  let e ← node d j "expression"
  match j.get "directive" with
  | none => some (.mk r (.exprStmt e false))
  | some (.str s) => if directiveText e = some s then some (.mk r (.exprStmt e true)) else none
  | some _ => none

def readLiteral (_ : Reader) (r : Rng) (j : J) : Option Node := do
  match j.get "value", j.get "regex" with
  | some .null, none => some (.mk r .null)
  | some .null, some x => do
    let pat ← text x "pattern"
    let flags ← text x "flags"
    some (.mk r (.regex pat flags))
  | some (.bool b), none => some (.mk r (.bool b))
  | some (.str val), none => (text j "raw").map fun raw => .mk r (.str val raw)
  | some (.number _), none => do
    let raw ← text j "raw"
    if (j.get "bigint").isSome ↔ raw.toList.getLast? = some 'n' then some (.mk r (.num raw)) else none
  | _, _ => none

def readBinaryExpression (d : Reader) (r : Rng) (j : J) : Option Node := do
  let op ← text j "operator"
  let l ← node d j "left"
  let rt ← node d j "right"
  if op = "&&" ∨ op = "||" ∨ op = "??" then none else some (.mk r (.bin op l rt))

def readLogicalExpression (d : Reader) (r : Rng) (j : J) : Option Node := do
  let op ← text j "operator"
  let l ← node d j "left"
  let rt ← node d j "right"
  if op = "&&" ∨ op = "||" ∨ op = "??" then some (.mk r (.bin op l rt)) else none

def readUnaryExpression (d : Reader) (r : Rng) (j : J) : Option Node := do
  let op ← text j "operator"
  let pre ← bool j "prefix"
  let arg ← node d j "argument"
  if pre = true ∧ op ≠ "await" then some (.mk r (.unary op arg)) else none

def readTemplateLiteral (d : Reader) (r : Rng) (j : J) : Option Node := do
  let qs ← list j "quasis"
  let es ← list j "expressions"
  let elems ← weave d qs es
  some (.mk r (.tpl .nil elems))

def readArrayExpression (d : Reader) (r : Rng) (j : J) : Option Node := do
  let elems ← nodes d j "elements"
  some (.mk r (.arr elems))

def readSpreadElement (d : Reader) (r : Rng) (j : J) : Option Node := do
  let arg ← node d j "argument"
  some (.mk r (.spread arg))

def readObjectExpression (d : Reader) (r : Rng) (j : J) : Option Node := do
  let props ← nodes d j "properties"
  some (.mk r (.obj props))

def readIdentifier (d : Reader) (r : Rng) (j : J) : Option Node := do
  let name ← text j "name"
  match j.get "optional" with
  | none => some (.mk r (.ident name false))
  | some _ => do
    let optional ← bool j "optional"
    let annot ← node d j "typeAnnotation"
    let decs ← nodes d j "decorators"
    some (.mk r (.identT name (mark optional) annot decs .nil))

def readPrivateIdentifier (_ : Reader) (r : Rng) (j : J) : Option Node := do
  let name ← text j "name"
  some (.mk r (.ident name true))

def readNewExpression (d : Reader) (r : Rng) (j : J) : Option Node := do
  let callee ← node d j "callee"
  let args ← nodes d j "arguments"
  match j.get "typeParameters" with
  | none => some (.mk r (.new callee args))
  | some t => (d t).map fun t => .mk r (.newT callee args t)

def readMemberExpression (d : Reader) (r : Rng) (j : J) : Option Node := do
  let o ← node d j "object"
  let prop ← node d j "property"
  let computed ← bool j "computed"
  let optional ← bool j "optional"
  some (.mk r (.member o prop computed optional))

def readCallExpression (d : Reader) (r : Rng) (j : J) : Option Node := do
  let callee ← node d j "callee"
  let args ← nodes d j "arguments"
  let optional ← bool j "optional"
  match j.get "typeParameters" with
  | none => some (.mk r (.call callee args optional))
  | some t => (d t).map fun t => .mk r (.callT callee args optional t)

def readUpdateExpression (d : Reader) (r : Rng) (j : J) : Option Node := do
  let op ← text j "operator"
  let pre ← bool j "prefix"
  let arg ← node d j "argument"
  some (.mk r (.update op pre arg))

def readAwaitExpression (d : Reader) (r : Rng) (j : J) : Option Node := do
  let arg ← node d j "argument"
  some (.mk r (.unary "await" arg))

def readConditionalExpression (d : Reader) (r : Rng) (j : J) : Option Node := do
  let test ← node d j "test"
  let cons ← node d j "consequent"
  let alt ← node d j "alternate"
  some (.mk r (.cond test cons alt))

def readAssignmentExpression (d : Reader) (r : Rng) (j : J) : Option Node := do
  let op ← text j "operator"
  let l ← node d j "left"
  let rt ← node d j "right"
  some (.mk r (.assign op l rt))

def readThisExpression (_ : Reader) (r : Rng) (_ : J) : Option Node := some (.mk r .this)

def readSequenceExpression (d : Reader) (r : Rng) (j : J) : Option Node := do
  let elems ← nodes d j "expressions"
  some (.mk r (.seq elems))

def readSuper (_ : Reader) (r : Rng) (_ : J) : Option Node := some (.mk r .super)

def readImportExpression (d : Reader) (r : Rng) (j : J) : Option Node := do
  let src ← node d j "source"
  some (.mk r (.importCall src))

def readYieldExpression (d : Reader) (r : Rng) (j : J) : Option Node := do
  let delegate ← bool j "delegate"
  let arg ← node d j "argument"
  some (.mk r (.«yield» delegate arg))

def readArrayPattern (d : Reader) (r : Rng) (j : J) : Option Node := do
  let elems ← nodes d j "elements"
  match j.get "optional" with
  | none => some (.mk r (.arrPat elems))
  | some _ => do
    let optional ← bool j "optional"
    let annot ← node d j "typeAnnotation"
    let decs ← nodesOr d j "decorators"
    some (.mk r (.arrPatT elems (mark optional) annot decs))

def readAssignmentPattern (d : Reader) (r : Rng) (j : J) : Option Node := do
  let l ← node d j "left"
  let rt ← node d j "right"
  some (.mk r (.assignPat l rt))

def readRestElement (d : Reader) (r : Rng) (j : J) : Option Node := do
  let arg ← node d j "argument"
  match j.get "optional" with
  | none => some (.mk r (.restPat arg))
  | some _ => do
    let optional ← bool j "optional"
    let annot ← node d j "typeAnnotation"
    let decs ← nodesOr d j "decorators"
    some (.mk r (.restPatT arg (mark optional) annot decs))

def readObjectPattern (d : Reader) (r : Rng) (j : J) : Option Node := do
  let props ← nodes d j "properties"
  match j.get "optional" with
  | none => some (.mk r (.objPat props))
  | some _ => do
    let optional ← bool j "optional"
    let annot ← node d j "typeAnnotation"
    let decs ← nodesOr d j "decorators"
    some (.mk r (.objPatT props (mark optional) annot decs))

def readProperty (d : Reader) (r : Rng) (j : J) : Option Node := do
  let key ← node d j "key"
  let val ← node d j "value"
  let kind ← text j "kind"
  let computed ← bool j "computed"
  let method ← bool j "method"
  let shorthand ← bool j "shorthand"
  let pk ← propKind kind
  some (.mk r (.prop key val computed method shorthand pk))

def readFunctionDeclaration (d : Reader) (r : Rng) (j : J) : Option Node := do
  let id ← node d j "id"
  let params ← nodes d j "params"
  let body ← node d j "body"
  let gen ← bool j "generator"
  let async ← bool j "async"
  match j.get "typeParameters" with
  | none => some (.mk r (.fn false id gen async params body))
  | some t => do
    let tparams ← d t
    let ret ← node d j "returnType"
    some (.mk r (.fnT false id gen async params body tparams ret))

def readFunctionExpression (d : Reader) (r : Rng) (j : J) : Option Node := do
  let id ← node d j "id"
  let params ← nodes d j "params"
  let body ← node d j "body"
  let gen ← bool j "generator"
  let async ← bool j "async"
  match j.get "typeParameters" with
  | none => some (.mk r (.fn true id gen async params body))
  | some t => do
    let tparams ← d t
    let ret ← node d j "returnType"
    some (.mk r (.fnT true id gen async params body tparams ret))

def readArrowFunctionExpression (d : Reader) (r : Rng) (j : J) : Option Node := do
  let params ← nodes d j "params"
  let body ← node d j "body"
  let async ← bool j "async"
  let expr ← bool j "expression"
  match j.get "typeParameters" with
  | none => some (.mk r (.arrow async params body expr))
  | some t => do
    let tparams ← d t
    let ret ← node d j "returnType"
    some (.mk r (.arrowT async params body expr tparams ret))

def readVariableDeclaration (d : Reader) (r : Rng) (j : J) : Option Node := do
  let kind ← text j "kind"
  let decs ← nodes d j "declarations"
  let declare ← boolOr j "declare"
  some (.mk r (if declare then .tsDecVar kind decs else .varDec kind decs))

def readVariableDeclarator (d : Reader) (r : Rng) (j : J) : Option Node := do
  let id ← node d j "id"
  let init ← node d j "init"
  some (.mk r (.declr id init))

def readBlockStatement (d : Reader) (r : Rng) (j : J) : Option Node := do
  let body ← nodes d j "body"
  some (.mk r (.block body))

def readEmptyStatement (_ : Reader) (r : Rng) (_ : J) : Option Node := some (.mk r .empty)

def readDoWhileStatement (d : Reader) (r : Rng) (j : J) : Option Node := do
  let body ← node d j "body"
  let test ← node d j "test"
  some (.mk r (.doWhile test body))

def readWhileStatement (d : Reader) (r : Rng) (j : J) : Option Node := do
  let test ← node d j "test"
  let body ← node d j "body"
  some (.mk r (.«while» test body))

def readForStatement (d : Reader) (r : Rng) (j : J) : Option Node := do
  let init ← node d j "init"
  let test ← node d j "test"
  let update ← node d j "update"
  let body ← node d j "body"
  some (.mk r (.«for» init test update body))

def readForInStatement (d : Reader) (r : Rng) (j : J) : Option Node := do
  let l ← node d j "left"
  let rt ← node d j "right"
  let body ← node d j "body"
  some (.mk r (.forInOf true false l rt body))

def readForOfStatement (d : Reader) (r : Rng) (j : J) : Option Node := do
  let await ← bool j "await"
  let l ← node d j "left"
  let rt ← node d j "right"
  let body ← node d j "body"
  some (.mk r (.forInOf false await l rt body))

def readIfStatement (d : Reader) (r : Rng) (j : J) : Option Node := do
  let test ← node d j "test"
  let cons ← node d j "consequent"
  let alt ← node d j "alternate"
  some (.mk r (.«if» test cons alt))

def readSwitchStatement (d : Reader) (r : Rng) (j : J) : Option Node := do
  let test ← node d j "discriminant"
  let cases ← nodes d j "cases"
  some (.mk r (.switch test cases))

def readSwitchCase (d : Reader) (r : Rng) (j : J) : Option Node := do
  let test ← node d j "test"
  let cons ← nodes d j "consequent"
  some (.mk r (.case test cons))

def readBreakStatement (d : Reader) (r : Rng) (j : J) : Option Node := do
  let label ← node d j "label"
  some (.mk r (.brk label))

def readContinueStatement (d : Reader) (r : Rng) (j : J) : Option Node := do
  let label ← node d j "label"
  some (.mk r (.cont label))

def readLabeledStatement (d : Reader) (r : Rng) (j : J) : Option Node := do
  let label ← node d j "label"
  let body ← node d j "body"
  some (.mk r (.label label body))

def readReturnStatement (d : Reader) (r : Rng) (j : J) : Option Node := do
  let arg ← node d j "argument"
  some (.mk r (.ret arg))

def readThrowStatement (d : Reader) (r : Rng) (j : J) : Option Node := do
  let arg ← node d j "argument"
  some (.mk r (.«throw» arg))

def readCatchClause (d : Reader) (r : Rng) (j : J) : Option Node := do
  let param ← node d j "param"
  let body ← node d j "body"
  some (.mk r (.«catch» param body))

def readTryStatement (d : Reader) (r : Rng) (j : J) : Option Node := do
  let block ← node d j "block"
  let handler ← node d j "handler"
  let fin ← node d j "finalizer"
  some (.mk r (.«try» block handler fin))

def readDebuggerStatement (_ : Reader) (r : Rng) (_ : J) : Option Node := some (.mk r .debug)

def readWithStatement (d : Reader) (r : Rng) (j : J) : Option Node := do
  let o ← node d j "object"
  let body ← node d j "body"
  some (.mk r (.«with» o body))

def readClassDeclaration (d : Reader) (r : Rng) (j : J) : Option Node := do
  let id ← node d j "id"
  let tparams ← nodeOr d j "typeParameters"
  let sup ← node d j "superClass"
  let supArgs ← nodeOr d j "superTypeParameters"
  let impls ← nodesOr d j "implements"
  let body ← node d j "body"
  let abstract ← boolOr j "abstract"
  let declare ← boolOr j "declare"
  let decs ← nodesOr d j "decorators"
  some (.mk r (.cls false id tparams sup supArgs impls body abstract declare decs))

def readClassExpression (d : Reader) (r : Rng) (j : J) : Option Node := do
  let id ← node d j "id"
  let tparams ← nodeOr d j "typeParameters"
  let sup ← node d j "superClass"
  let supArgs ← nodeOr d j "superTypeParameters"
  let impls ← nodesOr d j "implements"
  let body ← node d j "body"
  let abstract ← boolOr j "abstract"
  let declare ← boolOr j "declare"
  let decs ← nodesOr d j "decorators"
  some (.mk r (.cls true id tparams sup supArgs impls body abstract declare decs))

def readClassBody (d : Reader) (r : Rng) (j : J) : Option Node := do
  let elems ← nodes d j "body"
  some (.mk r (.classBody elems))

def readMethodDefinition (d : Reader) (r : Rng) (j : J) : Option Node := do
  let key ← node d j "key"
  let val ← node d j "value"
  let kind ← text j "kind"
  let computed ← bool j "computed"
  let static ← bool j "static"
  let mk ← methodKind kind
  match j.get "optional" with
  | none => some (.mk r (.method key static computed mk val))
  | some _ => do
    let optional ← bool j "optional"
    let definite ← bool j "definite"
    let override ← bool j "override"
    let abstract ← bool j "abstract"
    let readonly ← bool j "readonly"
    let acc ← text j "accessibility"
    let decs ← nodes d j "decorators"
    some (.mk r (.methodT key static computed mk val (mark optional) definite override abstract readonly acc decs))

def readPropertyDefinition (d : Reader) (r : Rng) (j : J) : Option Node := do
  let key ← node d j "key"
  let val ← node d j "value"
  let computed ← bool j "computed"
  let static ← bool j "static"
  match j.get "optional" with
  | none => some (.mk r (.field key static computed val))
  | some _ => do
    let optional ← bool j "optional"
    let definite ← bool j "definite"
    let override ← bool j "override"
    let abstract ← bool j "abstract"
    let readonly ← bool j "readonly"
    let declare ← bool j "declare"
    let acc ← text j "accessibility"
    let annot ← node d j "typeAnnotation"
    let decs ← nodes d j "decorators"
    some (.mk r (.fieldT key static computed val (mark optional) definite override abstract readonly declare acc annot decs))

def readStaticBlock (d : Reader) (r : Rng) (j : J) : Option Node := do
  let body ← nodes d j "body"
  some (.mk r (.staticBlock body))

def readMetaProperty (d : Reader) (r : Rng) (j : J) : Option Node := do
  let mt ← node d j "meta"
  let prop ← node d j "property"
  some (.mk r (.metaProp mt prop))

def readImportDeclaration (d : Reader) (r : Rng) (j : J) : Option Node := do
  let specs ← nodes d j "specifiers"
  let src ← node d j "source"
  let typ ← kindOf j "importKind"
  some (.mk r (.importDec typ specs src))

def readImportDefaultSpecifier (d : Reader) (r : Rng) (j : J) : Option Node := do
  let loc ← node d j "local"
  some (.mk r (.importSpec false true false loc .nil))

def readImportNamespaceSpecifier (d : Reader) (r : Rng) (j : J) : Option Node := do
  let loc ← node d j "local"
  some (.mk r (.importSpec false false true loc .nil))

def readImportSpecifier (d : Reader) (r : Rng) (j : J) : Option Node := do
  let loc ← node d j "local"
  let id ← node d j "imported"
  let typ ← kindOf j "importKind"
  some (.mk r (.importSpec typ false false loc id))

def readExportNamedDeclaration (d : Reader) (r : Rng) (j : J) : Option Node := do
  let dec ← node d j "declaration"
  let specs ← nodes d j "specifiers"
  let src ← node d j "source"
  let typ ← kindOf j "exportKind"
  some (.mk r (.exportDec typ false false dec specs src))

def readExportDefaultDeclaration (d : Reader) (r : Rng) (j : J) : Option Node := do
  let dec ← node d j "declaration"
  some (.mk r (.exportDec false false true dec .nil .nil))

def readExportAllDeclaration (d : Reader) (r : Rng) (j : J) : Option Node := do
  let loc ← node d j "exported"
  let src ← node d j "source"
  some (.mk r (.exportDec false true false .nil (allSpecs loc) src))

def readExportSpecifier (d : Reader) (r : Rng) (j : J) : Option Node := do
  let loc ← node d j "local"
  let id ← node d j "exported"
  let typ ← kindOf j "exportKind"
  some (.mk r (.exportSpec typ false loc id))

def readChainExpression (d : Reader) (r : Rng) (j : J) : Option Node := do
  let e ← node d j "expression"
  some (.mk r (.chain e))

def readJSXIdentifier (_ : Reader) (r : Rng) (j : J) : Option Node := do
  let name ← text j "name"
  some (.mk r (.jsxId name))

def readJSXNamespacedName (d : Reader) (r : Rng) (j : J) : Option Node := do
  let ns ← node d j "namespace"
  let name ← node d j "name"
  some (.mk r (.jsxNs (jsxName ns) (jsxName name)))

def readJSXMemberExpression (d : Reader) (r : Rng) (j : J) : Option Node := do
  let o ← node d j "object"
  let prop ← node d j "property"
  some (.mk r (.jsxMember o prop))

def readJSXElement (d : Reader) (r : Rng) (j : J) : Option Node := do
  let o ← node d j "openingElement"
  let cs ← nodes d j "children"
  let c ← node d j "closingElement"
  some (.mk r (.jsxElem o cs c))

def readJSXFragment (d : Reader) (r : Rng) (j : J) : Option Node := do
  let o ← (j.get "openingFragment").bind (bare "JSXOpeningFragment")
  let cs ← nodes d j "children"
  let c ← (j.get "closingFragment").bind (bare "JSXClosingFragment")
  some (.mk r (.jsxElem (.mk o (.jsxOpen .nil .nil false)) cs (.mk c (.jsxClose .nil))))

def readJSXOpeningElement (d : Reader) (r : Rng) (j : J) : Option Node := do
  let name ← node d j "name"
  let attrs ← nodes d j "attributes"
  let closed ← bool j "selfClosing"
  match j.get "typeParameters" with
  | none => some (.mk r (.jsxOpen name attrs closed))
  | some t => (d t).map fun t => .mk r (.jsxOpenT name attrs closed t)

def readJSXClosingElement (d : Reader) (r : Rng) (j : J) : Option Node := do
  let name ← node d j "name"
  some (.mk r (.jsxClose name))

def readJSXText (_ : Reader) (r : Rng) (j : J) : Option Node := do
  let val ← text j "value"
  let raw ← text j "raw"
  some (.mk r (.jsxText val raw))

def readJSXExpressionContainer (d : Reader) (r : Rng) (j : J) : Option Node := do
  let e ← node d j "expression"
  some (.mk r (.jsxExpr e))

def readJSXAttribute (d : Reader) (r : Rng) (j : J) : Option Node := do
  let name ← node d j "name"
  let val ← node d j "value"
  some (.mk r (.jsxAttr name val))

def readJSXSpreadAttribute (d : Reader) (r : Rng) (j : J) : Option Node := do
  let arg ← node d j "argument"
  some (.mk r (.jsxSpreadAttr arg))

def readJSXSpreadChild (d : Reader) (r : Rng) (j : J) : Option Node := do
  let e ← node d j "expression"
  some (.mk r (.jsxSpreadChild e))

def readJSXEmptyExpression (_ : Reader) (r : Rng) (_ : J) : Option Node := some (.mk r .jsxEmpty)

def readTaggedTemplateExpression (d : Reader) (r : Rng) (j : J) : Option Node := do
  let tag ← node d j "tag"
  let quasi ← node d j "quasi"
  match j.get "typeParameters" with
  | none => some (.mk r (.tpl tag (.cons quasi .nil)))
  | some t => (d t).map fun t => .mk r (.tplT tag t quasi)

/-! TypeScript. -/

def readTSTypeAnnotation (d : Reader) (r : Rng) (j : J) : Option Node := do
  let typ ← node d j "typeAnnotation"
  some (.mk r (.tsAnnot typ))

def readTSTypeReference (d : Reader) (r : Rng) (j : J) : Option Node := do
  let name ← node d j "typeName"
  let args ← node d j "typeParameters"
  some (.mk r (.tsRef name args))

def readTSTypeParameterInstantiation (d : Reader) (r : Rng) (j : J) : Option Node := do
  let params ← nodes d j "params"
  some (.mk r (.tsParamInst params))

def readTSTypeParameterDeclaration (d : Reader) (r : Rng) (j : J) : Option Node := do
  let params ← nodes d j "params"
  some (.mk r (.tsParamDec params))

def readTSTypeParameter (d : Reader) (r : Rng) (j : J) : Option Node := do
  let name ← node d j "name"
  let cons ← node d j "constraint"
  let deflt ← node d j "default"
  some (.mk r (.tsParam name cons deflt))

def readTSArrayType (d : Reader) (r : Rng) (j : J) : Option Node := do
  let arg ← node d j "elementType"
  some (.mk r (.tsArr arg))

def readTSTypeLiteral (d : Reader) (r : Rng) (j : J) : Option Node := do
  let props ← nodes d j "members"
  some (.mk r (.tsObj props))

def readTSCallSignatureDeclaration (d : Reader) (r : Rng) (j : J) : Option Node := do
  let params ← nodes d j "params"
  let tparams ← node d j "typeParameters"
  let ret ← node d j "returnType"
  some (.mk r (.tsCallSig params tparams ret))

def readTSTypePredicate (d : Reader) (r : Rng) (j : J) : Option Node := do
  let name ← node d j "parameterName"
  let typ ← node d j "typeAnnotation"
  let asserts ← bool j "asserts"
  some (.mk r (.tsPredicate name typ asserts))

def readTSTypeAssertion (d : Reader) (r : Rng) (j : J) : Option Node := do
  let e ← node d j "expression"
  let typ ← node d j "typeAnnotation"
  some (.mk r (.tsAssert e typ))

def readTSNonNullExpression (d : Reader) (r : Rng) (j : J) : Option Node := do
  let e ← node d j "expression"
  some (.mk r (.tsNoNull e))

def readTSUnionType (d : Reader) (r : Rng) (j : J) : Option Node := do
  let elems ← nodes d j "types"
  some (.mk r (.tsUnion elems))

def readTSIntersectionType (d : Reader) (r : Rng) (j : J) : Option Node := do
  let elems ← nodes d j "types"
  some (.mk r (.tsIntersect elems))

def readTSQualifiedName (d : Reader) (r : Rng) (j : J) : Option Node := do
  let lhs ← node d j "left"
  let rhs ← node d j "right"
  some (.mk r (.tsQName lhs rhs))

def readTSInterfaceBody (d : Reader) (r : Rng) (j : J) : Option Node := do
  let body ← nodes d j "body"
  some (.mk r (.tsItfBody body))

def readTSEnumDeclaration (d : Reader) (r : Rng) (j : J) : Option Node := do
  let id ← node d j "id"
  let members ← nodes d j "members"
  let «const» ← bool j "const"
  let declare ← bool j "declare"
  some (.mk r (.tsEnum id members «const» declare))

def readTSEnumMember (d : Reader) (r : Rng) (j : J) : Option Node := do
  let key ← node d j "id"
  let val ← node d j "initializer"
  some (.mk r (.tsEnumMember key val))

def readTSModuleDeclaration (d : Reader) (r : Rng) (j : J) : Option Node := do
  let id ← node d j "id"
  let body ← node d j "body"
  let declare ← bool j "declare"
  let global ← bool j "global"
  some (.mk r (.tsModule id body declare global))

def readTSExportAssignment (d : Reader) (r : Rng) (j : J) : Option Node := do
  let e ← node d j "expression"
  some (.mk r (.tsExportAssign e))

def readTSLiteralType (d : Reader) (r : Rng) (j : J) : Option Node := do
  let lit ← node d j "literal"
  some (.mk r (.tsLit lit))

def readTSImportEqualsDeclaration (d : Reader) (r : Rng) (j : J) : Option Node := do
  let name ← node d j "id"
  let val ← node d j "moduleReference"
  let «export» ← bool j "isExport"
  some (.mk r (.tsImportAlias name val «export»))

def readTSConstructSignatureDeclaration (d : Reader) (r : Rng) (j : J) : Option Node := do
  let params ← nodes d j "params"
  let tparams ← node d j "typeParameters"
  let ret ← node d j "returnType"
  let abstract ← bool j "abstract"
  some (.mk r (.tsNewSig params tparams ret abstract))

def readTSConstructorType (d : Reader) (r : Rng) (j : J) : Option Node := do
  let params ← nodes d j "params"
  let tparams ← node d j "typeParameters"
  let ret ← node d j "returnType"
  let abstract ← bool j "abstract"
  some (.mk r (.tsNew params tparams ret abstract))

def readTSFunctionType (d : Reader) (r : Rng) (j : J) : Option Node := do
  let params ← nodes d j "params"
  let tparams ← node d j "typeParameters"
  let ret ← node d j "returnType"
  some (.mk r (.tsFnTyp params tparams ret))

def readTSImportType (d : Reader) (r : Rng) (j : J) : Option Node := do
  let arg ← node d j "argument"
  let qual ← node d j "qualifier"
  let args ← node d j "typeParameters"
  some (.mk r (.tsImportTyp arg qual args))

def readTSTypeQuery (d : Reader) (r : Rng) (j : J) : Option Node := do
  let arg ← node d j "exprName"
  some (.mk r (.tsQuery arg))

def readTSConditionalType (d : Reader) (r : Rng) (j : J) : Option Node := do
  let check ← node d j "checkType"
  let ext ← node d j "extendsType"
  let yes ← node d j "trueType"
  let no ← node d j "falseType"
  some (.mk r (.tsCond check ext yes no))

def readTSInferType (d : Reader) (r : Rng) (j : J) : Option Node := do
  let arg ← node d j "typeParameter"
  some (.mk r (.tsInfer arg))

def readTSParenthesizedType (d : Reader) (r : Rng) (j : J) : Option Node := do
  let arg ← node d j "typeAnnotation"
  some (.mk r (.tsParen arg))

def readTSIndexedAccessType (d : Reader) (r : Rng) (j : J) : Option Node := do
  let o ← node d j "objectType"
  let idx ← node d j "indexType"
  some (.mk r (.tsIdxAccess o idx))

def readTSMappedType (d : Reader) (r : Rng) (j : J) : Option Node := do
  let readonly ← modOf j "readonly"
  let optional ← modOf j "optional"
  let key ← node d j "typeParameter"
  let name ← node d j "nameType"
  let val ← node d j "typeAnnotation"
  some (.mk r (.tsMapped readonly optional key name val))

def readTSTypeOperator (d : Reader) (r : Rng) (j : J) : Option Node := do
  let op ← text j "operator"
  let arg ← node d j "typeAnnotation"
  some (.mk r (.tsTypOp op arg))

def readTSTupleType (d : Reader) (r : Rng) (j : J) : Option Node := do
  let elems ← nodes d j "elementTypes"
  some (.mk r (.tsTuple elems))

def readTSNamedTupleMember (d : Reader) (r : Rng) (j : J) : Option Node := do
  let optional ← bool j "optional"
  let label ← node d j "label"
  let val ← node d j "elementType"
  some (.mk r (.tsNamed optional label val))

def readTSRestType (d : Reader) (r : Rng) (j : J) : Option Node := do
  let arg ← node d j "typeAnnotation"
  some (.mk r (.tsRest arg))

def readTSOptionalType (d : Reader) (r : Rng) (j : J) : Option Node := do
  let arg ← node d j "typeAnnotation"
  some (.mk r (.tsOpt arg))

def readDecorator (d : Reader) (r : Rng) (j : J) : Option Node := do
  let e ← node d j "expression"
  some (.mk r (.decorator e))

def readTSAsExpression (d : Reader) (r : Rng) (j : J) : Option Node := do
  let e ← node d j "expression"
  let typ ← node d j "typeAnnotation"
  some (.mk r (.bin "as" e typ))

def readTSMethodSignature (d : Reader) (r : Rng) (j : J) : Option Node := do
  let key ← node d j "key"
  let val ← node d j "value"
  let computed ← bool j "computed"
  let optional ← bool j "optional"
  let kind ← text j "kind"
  let mk ← memberKind kind
  some (.mk r (.tsProp key val (mark optional) mk computed false))

def readTSPropertySignature (d : Reader) (r : Rng) (j : J) : Option Node := do
  let key ← node d j "key"
  let val ← node d j "typeAnnotation"
  let computed ← bool j "computed"
  let optional ← bool j "optional"
  let kind ← text j "kind"
  let readonly ← bool j "readonly"
  let mk ← memberKind kind
  some (.mk r (.tsProp key val (mark optional) mk computed readonly))

def readTSDeclareFunction (d : Reader) (r : Rng) (j : J) : Option Node := do
  let id ← node d j "id"
  let params ← nodes d j "params"
  let body ← node d j "body"
  let gen ← bool j "generator"
  let async ← bool j "async"
  let tparams ← node d j "typeParameters"
  let ret ← node d j "returnType"
  some (.mk r (.fnT false id gen async params body tparams ret))

def readTSIndexSignature (d : Reader) (r : Rng) (j : J) : Option Node := do
  let static ← bool j "static"
  let abstract ← bool j "abstract"
  let optional ← bool j "optional"
  let readonly ← bool j "readonly"
  let declare ← bool j "declare"
  let acc ← text j "accessibility"
  let params ← nodes d j "parameters"
  let annot ← node d j "typeAnnotation"
  let decs ← nodesOr d j "decorators"
  match params with
  | .cons key .nil => some (.mk r (.idxSig static abstract (mark optional) readonly declare acc key annot decs))
  | _ => none

def readTSParameterProperty (d : Reader) (r : Rng) (j : J) : Option Node := do
  let param ← node d j "parameter"
  let readonly ← bool j "readonly"
  let acc ← text j "accessibility"
  let override ← bool j "override"
  let decs ← nodes d j "decorators"
  some (.mk r (.paramProp acc readonly override none decs param))

def readTSInterfaceDeclaration (d : Reader) (r : Rng) (j : J) : Option Node := do
  let id ← node d j "id"
  let tparams ← node d j "typeParameters"
  let exts ← nodesOr d j "extends"
  let body ← node d j "body"
  let declare ← bool j "declare"
  some (.mk r (.tsItf id tparams exts body declare))

def readTSExpressionWithTypeArguments (d : Reader) (r : Rng) (j : J) : Option Node := do
  let e ← node d j "expression"
  let args ← node d j "typeParameters"
  some (.mk r (.tsExt e args))

def readTSTypeAliasDeclaration (d : Reader) (r : Rng) (j : J) : Option Node := do
  let id ← node d j "id"
  let tparams ← node d j "typeParameters"
  let typ ← node d j "typeAnnotation"
  let declare ← bool j "declare"
  some (.mk r (.tsAlias id tparams typ declare))

def readTSExternalModuleReference (d : Reader) (r : Rng) (j : J) : Option Node := do
  let e ← node d j "expression"
  some (.mk r (.extRef e))

def readTSNamespaceExportDeclaration (d : Reader) (r : Rng) (j : J) : Option Node := do
  let id ← node d j "id"
  some (.mk r (.exportDec false false false (.mk r (.nsAlias id)) .nil .nil))

/-- The keywords among the types. -/
def keyword (t : String) : Option TsKw :=
  if t = "TSNumberKeyword" then some .num
  else if t = "TSStringKeyword" then some .str
  else if t = "TSAnyKeyword" then some .any
  else if t = "TSBooleanKeyword" then some .bool
  else if t = "TSVoidKeyword" then some .void
  else if t = "TSIntrinsicKeyword" then some .intrinsic
  else if t = "TSNeverKeyword" then some .never
  else if t = "TSSymbolKeyword" then some .sym
  else if t = "TSUndefinedKeyword" then some .undef
  else if t = "TSBigIntKeyword" then some .bigint
  else if t = "TSNullKeyword" then some .null
  else if t = "TSThisType" then some .this
  else if t = "TSUnknownKeyword" then some .unknown
  else if t = "TSObjectKeyword" then some .obj
  else none

/-- The types of objects of TypeScript. -/
def readTypeTs (d : Reader) (t : String) (r : Rng) (j : J) : Option Node :=
  if t = "TSTypeAnnotation" then readTSTypeAnnotation d r j
  else if t = "TSTypeReference" then readTSTypeReference d r j
  else if t = "TSTypeParameterInstantiation" then readTSTypeParameterInstantiation d r j
  else if t = "TSTypeParameterDeclaration" then readTSTypeParameterDeclaration d r j
  else if t = "TSTypeParameter" then readTSTypeParameter d r j
  else if t = "TSArrayType" then readTSArrayType d r j
  else if t = "TSTypeLiteral" then readTSTypeLiteral d r j
  else if t = "TSCallSignatureDeclaration" then readTSCallSignatureDeclaration d r j
  else if t = "TSTypePredicate" then readTSTypePredicate d r j
  else if t = "TSTypeAssertion" then readTSTypeAssertion d r j
  else if t = "TSNonNullExpression" then readTSNonNullExpression d r j
  else if t = "TSUnionType" then readTSUnionType d r j
  else if t = "TSIntersectionType" then readTSIntersectionType d r j
  else if t = "TSQualifiedName" then readTSQualifiedName d r j
  else if t = "TSInterfaceBody" then readTSInterfaceBody d r j
  else if t = "TSEnumDeclaration" then readTSEnumDeclaration d r j
  else if t = "TSEnumMember" then readTSEnumMember d r j
  else if t = "TSModuleDeclaration" then readTSModuleDeclaration d r j
  else if t = "TSExportAssignment" then readTSExportAssignment d r j
  else if t = "TSLiteralType" then readTSLiteralType d r j
  else if t = "TSImportEqualsDeclaration" then readTSImportEqualsDeclaration d r j
  else if t = "TSConstructSignatureDeclaration" then readTSConstructSignatureDeclaration d r j
  else if t = "TSConstructorType" then readTSConstructorType d r j
  else if t = "TSFunctionType" then readTSFunctionType d r j
  else if t = "TSImportType" then readTSImportType d r j
  else if t = "TSTypeQuery" then readTSTypeQuery d r j
  else if t = "TSConditionalType" then readTSConditionalType d r j
  else if t = "TSInferType" then readTSInferType d r j
  else if t = "TSParenthesizedType" then readTSParenthesizedType d r j
  else if t = "TSIndexedAccessType" then readTSIndexedAccessType d r j
  else if t = "TSMappedType" then readTSMappedType d r j
  else if t = "TSTypeOperator" then readTSTypeOperator d r j
  else if t = "TSTupleType" then readTSTupleType d r j
  else if t = "TSNamedTupleMember" then readTSNamedTupleMember d r j
  else if t = "TSRestType" then readTSRestType d r j
  else if t = "TSOptionalType" then readTSOptionalType d r j
  else if t = "Decorator" then readDecorator d r j
  else if t = "TSAsExpression" then readTSAsExpression d r j
  else if t = "TSMethodSignature" then readTSMethodSignature d r j
  else if t = "TSPropertySignature" then readTSPropertySignature d r j
  else if t = "TSDeclareFunction" then readTSDeclareFunction d r j
  else if t = "TSIndexSignature" then readTSIndexSignature d r j
  else if t = "TSParameterProperty" then readTSParameterProperty d r j
  else if t = "TSInterfaceDeclaration" then readTSInterfaceDeclaration d r j
  else if t = "TSExpressionWithTypeArguments" then readTSExpressionWithTypeArguments d r j
  else if t = "TSTypeAliasDeclaration" then readTSTypeAliasDeclaration d r j
  else if t = "TSExternalModuleReference" then readTSExternalModuleReference d r j
  else if t = "TSNamespaceExportDeclaration" then readTSNamespaceExportDeclaration d r j
  else (keyword t).map fun kw => .mk r (.tsKw kw)

/-- By its type. -/
def readType (d : Reader) (t : String) (r : Rng) (j : J) : Option Node :=
  if t = "ExpressionStatement" then readExpressionStatement d r j
  else if t = "Literal" then readLiteral d r j
  else if t = "BinaryExpression" then readBinaryExpression d r j
  else if t = "LogicalExpression" then readLogicalExpression d r j
  else if t = "UnaryExpression" then readUnaryExpression d r j
  else if t = "TemplateLiteral" then readTemplateLiteral d r j
  else if t = "ArrayExpression" then readArrayExpression d r j
  else if t = "SpreadElement" then readSpreadElement d r j
  else if t = "ObjectExpression" then readObjectExpression d r j
  else if t = "Identifier" then readIdentifier d r j
  else if t = "PrivateIdentifier" then readPrivateIdentifier d r j
  else if t = "NewExpression" then readNewExpression d r j
  else if t = "MemberExpression" then readMemberExpression d r j
  else if t = "CallExpression" then readCallExpression d r j
  else if t = "UpdateExpression" then readUpdateExpression d r j
  else if t = "AwaitExpression" then readAwaitExpression d r j
  else if t = "ConditionalExpression" then readConditionalExpression d r j
  else if t = "AssignmentExpression" then readAssignmentExpression d r j
  else if t = "ThisExpression" then readThisExpression d r j
  else if t = "SequenceExpression" then readSequenceExpression d r j
  else if t = "Super" then readSuper d r j
  else if t = "ImportExpression" then readImportExpression d r j
  else if t = "YieldExpression" then readYieldExpression d r j
  else if t = "ArrayPattern" then readArrayPattern d r j
  else if t = "AssignmentPattern" then readAssignmentPattern d r j
  else if t = "RestElement" then readRestElement d r j
  else if t = "ObjectPattern" then readObjectPattern d r j
  else if t = "Property" then readProperty d r j
  else if t = "FunctionDeclaration" then readFunctionDeclaration d r j
  else if t = "FunctionExpression" then readFunctionExpression d r j
  else if t = "ArrowFunctionExpression" then readArrowFunctionExpression d r j
  else if t = "VariableDeclaration" then readVariableDeclaration d r j
  else if t = "VariableDeclarator" then readVariableDeclarator d r j
  else if t = "BlockStatement" then readBlockStatement d r j
  else if t = "EmptyStatement" then readEmptyStatement d r j
  else if t = "DoWhileStatement" then readDoWhileStatement d r j
  else if t = "WhileStatement" then readWhileStatement d r j
  else if t = "ForStatement" then readForStatement d r j
  else if t = "ForInStatement" then readForInStatement d r j
  else if t = "ForOfStatement" then readForOfStatement d r j
  else if t = "IfStatement" then readIfStatement d r j
  else if t = "SwitchStatement" then readSwitchStatement d r j
  else if t = "SwitchCase" then readSwitchCase d r j
  else if t = "BreakStatement" then readBreakStatement d r j
  else if t = "ContinueStatement" then readContinueStatement d r j
  else if t = "LabeledStatement" then readLabeledStatement d r j
  else if t = "ReturnStatement" then readReturnStatement d r j
  else if t = "ThrowStatement" then readThrowStatement d r j
  else if t = "CatchClause" then readCatchClause d r j
  else if t = "TryStatement" then readTryStatement d r j
  else if t = "DebuggerStatement" then readDebuggerStatement d r j
  else if t = "WithStatement" then readWithStatement d r j
  else if t = "ClassDeclaration" then readClassDeclaration d r j
  else if t = "ClassExpression" then readClassExpression d r j
  else if t = "ClassBody" then readClassBody d r j
  else if t = "MethodDefinition" then readMethodDefinition d r j
  else if t = "PropertyDefinition" then readPropertyDefinition d r j
  else if t = "StaticBlock" then readStaticBlock d r j
  else if t = "MetaProperty" then readMetaProperty d r j
  else if t = "ImportDeclaration" then readImportDeclaration d r j
  else if t = "ImportDefaultSpecifier" then readImportDefaultSpecifier d r j
  else if t = "ImportNamespaceSpecifier" then readImportNamespaceSpecifier d r j
  else if t = "ImportSpecifier" then readImportSpecifier d r j
  else if t = "ExportNamedDeclaration" then readExportNamedDeclaration d r j
  else if t = "ExportDefaultDeclaration" then readExportDefaultDeclaration d r j
  else if t = "ExportAllDeclaration" then readExportAllDeclaration d r j
  else if t = "ExportSpecifier" then readExportSpecifier d r j
  else if t = "ChainExpression" then readChainExpression d r j
  else if t = "JSXIdentifier" then readJSXIdentifier d r j
  else if t = "JSXNamespacedName" then readJSXNamespacedName d r j
  else if t = "JSXMemberExpression" then readJSXMemberExpression d r j
  else if t = "JSXElement" then readJSXElement d r j
  else if t = "JSXFragment" then readJSXFragment d r j
  else if t = "JSXOpeningElement" then readJSXOpeningElement d r j
  else if t = "JSXClosingElement" then readJSXClosingElement d r j
  else if t = "JSXText" then readJSXText d r j
  else if t = "JSXExpressionContainer" then readJSXExpressionContainer d r j
  else if t = "JSXAttribute" then readJSXAttribute d r j
  else if t = "JSXSpreadAttribute" then readJSXSpreadAttribute d r j
  else if t = "JSXSpreadChild" then readJSXSpreadChild d r j
  else if t = "JSXEmptyExpression" then readJSXEmptyExpression d r j
  else if t = "TaggedTemplateExpression" then readTaggedTemplateExpression d r j
  else readTypeTs d t r j

/-- `read n` reads what is nested at most `n` deep. -/
def read : Nat → Reader
  | _, .null => some .nil
  | n + 1, .obj fields =>
    match text (.obj fields) "type", range (.obj fields) with
    | some t, some r => readType (read n) t r (.obj fields)
    | _, _ => none
  | _, _ => none

/-- es5.md, Program. -/
def readProg (n : Nat) (j : J) : Option (Rng × Nodes) :=
  match bare "Program" j, nodes (read n) j "body" with
  | some r, some body => some (r, body)
  | _, _ => none

set_option maxHeartbeats 4000000

/-! ## What the tree means, apart from its parentheses -/

/-- Of a `?` only that it is there. -/
def seen (ques : Option Rng) : Option Rng := ques.map fun _ => (0, 0)

/-- The end of what has a `?` and an annotation after it. -/
def endOf (rng : Rng) (ques : Option Rng) (annot : Node) : Nat :=
  max rng.2 (max (ques.getD (0, 0)).2 annot.rng.2)

def rngOf : Node → Option Rng
  | .nil => none
  | .mk r _ => some r

/-- The start of what has something before it. -/
def startOf (rng : Rng) : Option Rng → Nat
  | none => rng.1
  | some r => min rng.1 r.1

/-- From the first decorator on. -/
def afterDecs (rng : Rng) : Nodes → Rng
  | .nil => rng
  | .cons d _ => (d.rng.1, rng.2)

mutual
/-- The tree without parentheses; the name of a default import is dropped (it is `default`); a tagged template is the tag and the
template, each with its range; the range of what follows `export *` is dropped; only an `init` property can be a method.

For TypeScript: the range of a name, a pattern, an arrow function or a parameter reaches from its modifiers or its type parameters to
its annotation, that of a declaration starts at its decorators; the place of `?` is dropped; `declare function f()` is a signature of
`f`; `declare class` is a class with that flag; `export import a = require("b")` is the import with a flag; an index signature of a
class is one of its members of that kind; whether one of the imported names is a type is told by the declaration if it is imported as a
whole or by default. -/
def erase : Node → Node
  | .nil => .nil
  | .mk r k => eraseK r k
def eraseK (rng : Rng) : Kind → Node
  | .exprStmt e dir => .mk rng (.exprStmt (erase e) dir)
  | .empty => .mk rng .empty
  | .null => .mk rng .null
  | .bool b => .mk rng (.bool b)
  | .num raw => .mk rng (.num raw)
  | .str val raw => .mk rng (.str val raw)
  | .regex pat flags => .mk rng (.regex pat flags)
  | .arr elems => .mk rng (.arr (eraseL elems))
  | .spread arg => .mk rng (.spread (erase arg))
  | .obj props => .mk rng (.obj (eraseL props))
  | .ident name pvt => .mk rng (.ident name pvt)
  | .new callee args => .mk rng (.new (erase callee) (eraseL args))
  | .member o prop computed optional => .mk rng (.member (erase o) (erase prop) computed optional)
  | .call callee args optional => .mk rng (.call (erase callee) (eraseL args) optional)
  | .bin op l r => .mk rng (.bin op (erase l) (erase r))
  | .unary op arg => .mk rng (.unary op (erase arg))
  | .update op «prefix» arg => .mk rng (.update op «prefix» (erase arg))
  | .cond test cons alt => .mk rng (.cond (erase test) (erase cons) (erase alt))
  | .assign op l r => .mk rng (.assign op (erase l) (erase r))
  | .this => .mk rng .this
  | .seq elems => .mk rng (.seq (eraseL elems))
  | .paren e => erase e
  | .tpl tag elems => eraseTag (.mk rng (.tpl .nil (eraseL elems))) tag
  | .super => .mk rng .super
  | .importCall src => .mk rng (.importCall (erase src))
  | .«yield» delegate arg => .mk rng (.«yield» delegate (erase arg))
  | .arrPat elems => .mk rng (.arrPat (eraseL elems))
  | .assignPat l r => .mk rng (.assignPat (erase l) (erase r))
  | .restPat arg => .mk rng (.restPat (erase arg))
  | .objPat props => .mk rng (.objPat (eraseL props))
  | .prop key val computed method shorthand kind =>
    .mk rng (.prop (erase key) (erase val) computed (method && kind == .init) shorthand kind)
  | .fn expr id gen async params body => .mk rng (.fn expr (erase id) gen async (eraseL params) (erase body))
  | .arrow async params body expr => .mk rng (.arrow async (eraseL params) (erase body) expr)
  | .varDec kind decs => .mk rng (.varDec kind (eraseL decs))
  | .declr id init => .mk rng (.declr (erase id) (erase init))
  | .block body => .mk rng (.block (eraseL body))
  | .doWhile test body => .mk rng (.doWhile (erase test) (erase body))
  | .«while» test body => .mk rng (.«while» (erase test) (erase body))
  | .«for» init test update body => .mk rng (.«for» (erase init) (erase test) (erase update) (erase body))
  | .forInOf isIn await l r body => .mk rng (.forInOf isIn await (erase l) (erase r) (erase body))
  | .«if» test cons alt => .mk rng (.«if» (erase test) (erase cons) (erase alt))
  | .switch test cases => .mk rng (.switch (erase test) (eraseL cases))
  | .case test cons => .mk rng (.case (erase test) (eraseL cons))
  | .brk label => .mk rng (.brk (erase label))
  | .cont label => .mk rng (.cont (erase label))
  | .label label body => .mk rng (.label (erase label) (erase body))
  | .ret arg => .mk rng (.ret (erase arg))
  | .«throw» arg => .mk rng (.«throw» (erase arg))
  | .«catch» param body => .mk rng (.«catch» (erase param) (erase body))
  | .«try» block handler fin => .mk rng (.«try» (erase block) (erase handler) (erase fin))
  | .debug => .mk rng .debug
  | .«with» o body => .mk rng (.«with» (erase o) (erase body))
  | .cls expr id tparams sup supArgs impls body abstract declare decs => .mk (afterDecs rng decs)
      (.cls expr (erase id) (erase tparams) (erase sup) (erase supArgs) (eraseL impls) (erase body) abstract declare (eraseL decs))
  | .classBody elems => .mk rng (.classBody (eraseL elems))
  | .method key static computed kind val => .mk rng (.method (erase key) static computed kind (erase val))
  | .field key static computed val => .mk rng (.field (erase key) static computed (erase val))
  | .staticBlock body => .mk rng (.staticBlock (eraseL body))
  | .metaProp mt prop => .mk rng (.metaProp (erase mt) (erase prop))
  | .importDec typ specs src => .mk rng (.importDec typ (eraseL specs) (erase src))
  | .importSpec typ deflt ns loc id =>
    .mk rng (.importSpec (typ && !deflt && !ns) deflt ns (erase loc) (if deflt then .nil else erase id))
  | .exportDec typ all deflt dec specs src =>
    eraseExport rng typ all deflt (if all then eraseSpecs specs else eraseL specs) (erase src) dec
  | .exportSpec typ ns loc id => .mk rng (.exportSpec typ ns (erase loc) (erase id))
  | .chain e => .mk rng (.chain (erase e))
  | .jsxId name => .mk rng (.jsxId name)
  | .jsxNs ns name => .mk rng (.jsxNs ns name)
  | .jsxMember o prop => .mk rng (.jsxMember (erase o) (erase prop))
  | .jsxElem opening children closing => .mk rng (.jsxElem (erase opening) (eraseL children) (erase closing))
  | .jsxOpen name attrs closed => .mk rng (.jsxOpen (erase name) (eraseL attrs) closed)
  | .jsxClose name => .mk rng (.jsxClose (erase name))
  | .jsxText val raw => .mk rng (.jsxText val raw)
  | .jsxExpr e => .mk rng (.jsxExpr (erase e))
  | .jsxAttr name val => .mk rng (.jsxAttr (erase name) (erase val))
  | .jsxSpreadAttr arg => .mk rng (.jsxSpreadAttr (erase arg))
  | .jsxSpreadChild e => .mk rng (.jsxSpreadChild (erase e))
  | .jsxEmpty => .mk rng .jsxEmpty
  | .identT name ques annot decs targs =>
    .mk (rng.1, endOf rng ques annot) (.identT name (seen ques) (erase annot) (eraseL decs) (erase targs))
  | .newT callee args targs => .mk rng (.newT (erase callee) (eraseL args) (erase targs))
  | .callT callee args optional targs => .mk rng (.callT (erase callee) (eraseL args) optional (erase targs))
  | .fnT expr id gen async params body tparams ret =>
    .mk rng (.fnT expr (erase id) gen async (eraseL params) (erase body) (erase tparams) (erase ret))
  | .arrowT async params body expr tparams ret => .mk (startOf rng (rngOf tparams), endOf rng none ret)
      (.arrowT async (eraseL params) (erase body) expr (erase tparams) (erase ret))
  | .arrPatT elems ques annot decs =>
    .mk (rng.1, endOf rng ques annot) (.arrPatT (eraseL elems) (seen ques) (erase annot) (eraseL decs))
  | .objPatT props ques annot decs =>
    .mk (rng.1, endOf rng ques annot) (.objPatT (eraseL props) (seen ques) (erase annot) (eraseL decs))
  | .restPatT arg ques annot decs => .mk rng (.restPatT (erase arg) (seen ques) (erase annot) (eraseL decs))
  | .methodT key static computed kind val ques definite override abstract readonly acc decs => .mk (afterDecs rng decs)
      (.methodT (erase key) static computed kind (erase val) (seen ques) definite override abstract readonly acc (eraseL decs))
  | .fieldT key static computed val ques definite override abstract readonly declare acc annot decs => .mk (afterDecs rng decs)
      (if isTsSig key computed val then
        .idxSig static abstract (seen ques) readonly declare acc (erase key) (erase annot) (eraseL decs)
      else .fieldT (erase key) static computed (erase val) (seen ques) definite override abstract readonly declare acc (erase annot)
        (eraseL decs))
  | .paramProp acc readonly override begin decs param =>
    .mk (startOf param.rng begin, endOf param.rng (quesOf param) (annotOf param))
      (.paramProp acc readonly override none (eraseL decs) (erase param))
  | .jsxOpenT name attrs closed targs => .mk rng (.jsxOpenT (erase name) (eraseL attrs) closed (erase targs))
  | .tsKw kw => .mk rng (.tsKw kw)
  | .tsAnnot typ => .mk rng (.tsAnnot (erase typ))
  | .tsRef name args => .mk rng (.tsRef (erase name) (erase args))
  | .tsParamInst params => .mk rng (.tsParamInst (eraseL params))
  | .tsParamDec params => .mk rng (.tsParamDec (eraseL params))
  | .tsParam name cons deflt => .mk rng (.tsParam (erase name) (erase cons) (erase deflt))
  | .tsArr arg => .mk rng (.tsArr (erase arg))
  | .tsObj props => .mk rng (.tsObj (eraseL props))
  | .tsCallSig params tparams ret => .mk rng (.tsCallSig (eraseL params) (erase tparams) (erase ret))
  | .tsPredicate name typ asserts => .mk rng (.tsPredicate (erase name) (erase typ) asserts)
  | .tsAssert e typ => .mk rng (.tsAssert (erase e) (erase typ))
  | .tsNoNull e => .mk rng (.tsNoNull (erase e))
  | .tsUnion elems => .mk rng (.tsUnion (eraseL elems))
  | .tsIntersect elems => .mk rng (.tsIntersect (eraseL elems))
  | .tsQName lhs rhs => .mk rng (.tsQName (erase lhs) (erase rhs))
  | .tsItfBody body => .mk rng (.tsItfBody (eraseL body))
  | .tsEnum id members «const» declare => .mk rng (.tsEnum (erase id) (eraseL members) «const» declare)
  | .tsEnumMember key val => .mk rng (.tsEnumMember (erase key) (erase val))
  | .tsModule id body declare global => .mk rng (.tsModule (erase id) (erase body) declare global)
  | .tsExportAssign e => .mk rng (.tsExportAssign (erase e))
  | .tsLit lit => .mk rng (.tsLit (erase lit))
  | .tsImportAlias name val «export» => .mk rng (.tsImportAlias (erase name) (erase val) «export»)
  | .tsNewSig params tparams ret abstract => .mk rng (.tsNewSig (eraseL params) (erase tparams) (erase ret) abstract)
  | .tsNew params tparams ret abstract => .mk rng (.tsNew (eraseL params) (erase tparams) (erase ret) abstract)
  | .tsFnTyp params tparams ret => .mk rng (.tsFnTyp (eraseL params) (erase tparams) (erase ret))
  | .tsImportTyp arg qual args => .mk rng (.tsImportTyp (erase arg) (erase qual) (erase args))
  | .tsQuery arg => .mk rng (.tsQuery (erase arg))
  | .tsCond check ext yes no => .mk rng (.tsCond (erase check) (erase ext) (erase yes) (erase no))
  | .tsInfer arg => .mk rng (.tsInfer (erase arg))
  | .tsParen arg => .mk rng (.tsParen (erase arg))
  | .tsIdxAccess o idx => .mk rng (.tsIdxAccess (erase o) (erase idx))
  | .tsMapped readonly optional key name val => .mk rng (.tsMapped readonly optional (erase key) (erase name) (erase val))
  | .tsTypOp op arg => .mk rng (.tsTypOp op (erase arg))
  | .tsTuple elems => .mk rng (.tsTuple (eraseL elems))
  | .tsNamed optional label val => .mk rng (.tsNamed optional (erase label) (erase val))
  | .tsRest arg => .mk rng (.tsRest (erase arg))
  | .tsOpt arg => .mk rng (.tsOpt (erase arg))
  | .decorator e => .mk rng (.decorator (erase e))
  | .tsProp key val ques kind computed readonly =>
    .mk rng (.tsProp (erase key) (erase val) (seen ques) kind computed readonly)
  | .tsDecFn id gen async params body tparams ret =>
    .mk rng (.fnT false (erase id) gen async (eraseL params) (erase body) (erase tparams) (erase ret))
  | .tsDecClass inner id tparams sup supArgs impls body abstract decs => .mk (rng.1, inner.2)
      (.cls false (erase id) (erase tparams) (erase sup) (erase supArgs) (eraseL impls) (erase body) abstract true (eraseL decs))
  | .tsDecVar kind decs => .mk rng (.tsDecVar kind (eraseL decs))
  | .tsItf id tparams exts body declare => .mk rng (.tsItf (erase id) (erase tparams) (eraseE exts) (erase body) declare)
  | .tsAlias id tparams typ declare => .mk rng (.tsAlias (erase id) (erase tparams) (erase typ) declare)
  | .tsImportRequire name callRng args => .mk rng (.tsImportAlias (erase name) (.mk callRng (.extRef (eraseHead args))) false)
  | .nsAlias id => .mk rng (.nsAlias (erase id))
  | .idxSig static abstract ques readonly declare acc key annot decs =>
    .mk rng (.idxSig static abstract (seen ques) readonly declare acc (erase key) (erase annot) (eraseL decs))
  | .tplT tag targs quasi => .mk rng (.tplT (erase tag) (erase targs) (erase quasi))
  | .tsExt e args => .mk rng (.tsExt (erase e) (erase args))
  | .extRef e => .mk rng (.extRef (erase e))
/-- A template with its tag, if it has one: a tag with a `TypInfo` gives the template the types for its arguments. -/
def eraseTag (quasi : Node) : Node → Node
  | .nil => quasi
  | .mk rt (.identT name ques annot decs targs) => .mk (rt.1, quasi.rng.2)
      (.tplT (.mk (rt.1, endOf rt ques annot) (.identT name (seen ques) (erase annot) (eraseL decs) .nil)) (erase targs) quasi)
  | .mk rt (.fnT expr id gen async params body tparams ret) => .mk (rt.1, quasi.rng.2)
      (.tplT (.mk rt (.fnT expr (erase id) gen async (eraseL params) (erase body) (erase tparams) (erase ret))) .nil quasi)
  | .mk rt (.newT callee args targs) => .mk (rt.1, quasi.rng.2)
      (.tplT (.mk rt (.newT (erase callee) (eraseL args) (erase targs))) .nil quasi)
  | .mk rt (.callT callee args optional targs) => .mk (rt.1, quasi.rng.2)
      (.tplT (.mk rt (.callT (erase callee) (eraseL args) optional (erase targs))) .nil quasi)
  | .mk rt k => .mk (rt.1, quasi.rng.2) (.tpl (eraseK rt k) (.cons quasi .nil))
/-- An export; `export as namespace A` and `export import a = require("b")` are nodes of their own. -/
def eraseExport (rng : Rng) (typ all deflt : Bool) (specs : Nodes) (src : Node) : Node → Node
  | .mk _ (.nsAlias id) => .mk rng (.exportDec false false false (.mk rng (.nsAlias (erase id))) .nil .nil)
  | .mk r (.tsImportRequire name callRng args) => .mk r (.tsImportAlias (erase name) (.mk callRng (.extRef (eraseHead args))) true)
  | .nil => .mk rng (.exportDec typ all deflt .nil specs src)
  | .mk r k => .mk rng (.exportDec typ all deflt (eraseK r k) specs src)
/-- What an interface extends: an expression with types for arguments. -/
def eraseE : Nodes → Nodes
  | .nil => .nil
  | .cons (.mk r (.tsRef name args)) l => .cons (.mk r (.tsExt (erase name) (erase args))) (eraseE l)
  | .cons n l => .cons (erase n) (eraseE l)
def eraseHead : Nodes → Node
  | .nil => .nil
  | .cons n _ => erase n
def eraseL : Nodes → Nodes
  | .nil => .nil
  | .cons n l => .cons (erase n) (eraseL l)
def eraseSpecs : Nodes → Nodes
  | .nil => .nil
  | .cons (.mk _ (.exportSpec _ ns loc id)) l => .cons (.mk (0, 0) (.exportSpec false ns (erase loc) (erase id))) (eraseSpecs l)
  | .cons n l => .cons (erase n) (eraseSpecs l)
end

/-! ## Trees as the parser makes them -/

/-- Strings and expressions in turn, a string at both ends. -/
def Woven : Nodes → Prop
  | .cons s .nil => isStr s = true
  | .cons s (.cons e l) => isStr s = true ∧ isStr e = false ∧ Woven l
  | .nil => False

/-- The clause `as x`, if there is one. -/
def AsClause : Nodes → Prop
  | .nil => True
  | .cons (.mk _ (.exportSpec _ ns loc id)) .nil => ns = true ∧ erase loc ≠ .nil ∧ id = .nil
  | _ => False

def allTyp : Nodes → Bool
  | .nil => true
  | .cons n l => isTyp n && allTyp l

/-- Parameters which are types: none, or a list that is not empty. -/
def ParamsOk : Node → Prop
  | .nil => True
  | .mk _ (.tsParamDec (.cons p ps)) => allTyp (.cons p ps) = true
  | _ => False

/-- Arguments which are types. -/
def ArgsOk : Node → Prop
  | .nil => True
  | .mk _ (.tsParamInst (.cons p ps)) => allTyp (.cons p ps) = true
  | _ => False

/-- A range that is not empty and below 2^32 - 1. -/
def Real (r : Rng) : Prop := r.1 < r.2 ∧ r.1 < 4294967295

def RealOr : Option Rng → Prop
  | none => True
  | some r => Real r

/-- The key of a property of a type: a name, or a number or member expression without `readonly`. -/
def KeyOk (readonly : Bool) : Node → Prop
  | .mk _ (.identT ..) => True
  | .mk _ (.num _) | .mk _ (.member ..) => readonly = false
  | _ => False

/-- What an interface extends. -/
def ExtsOk : Nodes → Prop
  | .nil => True
  | .cons (.mk _ (.tsRef _ args)) l => isTyp args = true ∧ ExtsOk l
  | _ => False

/-- One argument for `require`. -/
def OneArg : Nodes → Prop
  | .cons _ .nil => True
  | _ => False

/-- What may be the tag of a template: anything, but calls and functions with a `TypInfo` have no arguments that are types and a name
has them if the template has. -/
def TagOk : Node → Prop
  | .mk _ (.identT _ _ _ _ targs) => ArgsOk targs
  | .mk _ (.newT _ _ targs) | .mk _ (.callT _ _ _ targs) => targs = .nil
  | .mk _ (.arrowT ..) => False
  | .mk _ (.fnT expr ..) => expr = true
  | _ => True

/-- Not one of the two declarations which only follow `export` itself. -/
def noExportForm : Node → Prop
  | .mk _ (.nsAlias _) | .mk _ (.tsImportRequire ..) => False
  | _ => True

/-- What holds of one node. -/
def Own (rng : Rng) : Kind → Prop
  | .exprStmt e dir => dir = true → ∃ r raw, e = .mk r (.str (unquote raw) raw)
  | .regex _ _ => False
  | .jsxNs _ _ => False
  | .prop _ _ _ _ _ kind => kind = .init ∨ kind = .getter ∨ kind = .setter
  | .method _ _ _ kind _ => kind ≠ .init
  | .forInOf isIn await _ _ _ => isIn = true → await = false
  | .tpl tag elems => Woven elems ∧ TagOk tag
  | .cls expr _ tparams _ supArgs _ _ _ declare decs =>
    isTyp tparams = true ∧ isTyp supArgs = true ∧ (expr = true → declare = false ∧ decs = .nil)
  | .importSpec _ deflt ns _ id => (deflt = true → ns = false) ∧ (ns = true → id = .nil)
  | .exportSpec _ ns _ _ => ns = false
  | .exportDec typ all deflt dec specs src =>
    if all then typ = false ∧ deflt = false ∧ dec = .nil ∧ AsClause specs
    else if deflt then typ = false ∧ specs = .nil ∧ src = .nil ∧ noExportForm dec
    else match dec with
      | .mk _ (.nsAlias _) => typ = false ∧ specs = .nil ∧ src = .nil
      | .mk _ (.tsImportRequire _ _ args) => typ = false ∧ specs = .nil ∧ src = .nil ∧ OneArg args
      | _ => True
  | .jsxElem opening _ closing => isFragment opening = true →
    (∃ r, opening = .mk r (.jsxOpen .nil .nil false)) ∧ ∃ r, closing = .mk r (.jsxClose .nil)
  | .identT _ _ annot _ targs => isTyp annot = true ∧ targs = .nil
  | .newT _ _ targs => ArgsOk targs
  | .callT _ _ _ targs => ArgsOk targs
  | .fnT expr _ gen _ _ body tparams ret =>
    ParamsOk tparams ∧ isTyp ret = true ∧ (expr = false → body = .nil → gen = false)
  | .arrowT _ _ _ _ tparams ret => ParamsOk tparams ∧ isTyp ret = true ∧ Real rng ∧ RealOr (rngOf tparams)
  | .arrPatT _ _ annot decs => isTyp annot = true ∧ decs = .nil
  | .objPatT _ ques annot decs => isTyp annot = true ∧ ques = none ∧ decs = .nil
  | .restPatT _ _ annot decs => isTyp annot = true ∧ decs = .nil
  | .methodT _ _ _ kind _ _ _ _ _ _ _ _ => kind ≠ .init
  | .fieldT key _ computed val _ definite override _ _ _ _ annot _ =>
    isTyp annot = true ∧ (isTsSig key computed val = true → definite = false ∧ override = false)
  | .paramProp acc readonly override begin _ param =>
    (readonly = true ∨ override = true ∨ acc ≠ "") ∧ Real param.rng ∧ RealOr begin
  | .jsxOpenT _ _ _ targs => ArgsOk targs
  | .tsAnnot typ => isTyp typ = true
  | .tsArr arg => isTyp arg = true
  | .tsCallSig _ tparams ret => isTyp tparams = true ∧ isTyp ret = true
  | .tsPredicate _ typ _ => isTyp typ = true
  | .tsAssert _ typ => isTyp typ = true
  | .tsQName lhs rhs => isTyp lhs = true ∧ isTyp rhs = true
  | .tsNewSig _ tparams ret _ => isTyp tparams = true ∧ isTyp ret = true
  | .tsNew _ tparams ret _ => isTyp tparams = true ∧ isTyp ret = true
  | .tsFnTyp _ tparams ret => isTyp tparams = true ∧ isTyp ret = true
  | .tsImportTyp _ qual args => isTyp qual = true ∧ isTyp args = true
  | .tsInfer arg => isTyp arg = true
  | .tsParen arg => isTyp arg = true
  | .tsIdxAccess o idx => isTyp o = true ∧ isTyp idx = true
  | .tsMapped _ _ key name val => isTyp key = true ∧ isTyp name = true ∧ isTyp val = true
  | .tsTypOp _ arg => isTyp arg = true
  | .tsNamed _ _ val => isTyp val = true
  | .tsRest arg => isTyp arg = true
  | .tsOpt arg => isTyp arg = true
  | .tsProp key val _ _ _ readonly =>
    if isCallSig val then readonly = false else isTyp val = true ∧ KeyOk readonly key
  | .tsDecFn _ gen _ _ _ tparams ret => ParamsOk tparams ∧ isTyp ret = true ∧ gen = false
  | .tsDecClass _ _ tparams _ supArgs impls _ _ decs => tparams = .nil ∧ supArgs = .nil ∧ impls = .nil ∧ decs = .nil
  | .tsItf _ tparams exts _ _ => isTyp tparams = true ∧ ExtsOk exts
  | .tsAlias _ tparams typ declare => isTyp tparams = true ∧ isTyp typ = true ∧ (declare = true → tparams = .nil)
  | .tsImportRequire _ _ args => OneArg args
  | .nsAlias _ => False
  | .idxSig static abstract ques readonly declare acc _ annot decs => static = false ∧ abstract = false ∧ ques = none ∧
    readonly = false ∧ declare = false ∧ acc = "" ∧ isTyp annot = true ∧ decs = .nil
  | .tplT _ _ _ => False
  | .tsExt _ _ => False
  | .extRef _ => False
  | _ => True

mutual
/-- It holds of every node. -/
def Made : Node → Prop
  | .nil => True
  | .mk r k => Own r k ∧ MadeK k
def MadeK : Kind → Prop
  | .exprStmt e _ => Made e
  | .arr elems => MadeL elems
  | .spread arg => Made arg
  | .obj props => MadeL props
  | .new callee args => Made callee ∧ MadeL args
  | .member o prop _ _ => Made o ∧ Made prop
  | .call callee args _ => Made callee ∧ MadeL args
  | .bin _ l r => Made l ∧ Made r
  | .unary _ arg => Made arg
  | .update _ _ arg => Made arg
  | .cond test cons alt => Made test ∧ Made cons ∧ Made alt
  | .assign _ l r => Made l ∧ Made r
  | .seq elems => MadeL elems
  | .paren e => Made e
  | .tpl tag elems => MadeTag tag ∧ MadeL elems
  | .importCall src => Made src
  | .«yield» _ arg => Made arg
  | .arrPat elems => MadeL elems
  | .assignPat l r => Made l ∧ Made r
  | .restPat arg => Made arg
  | .objPat props => MadeL props
  | .prop key val _ _ _ _ => Made key ∧ Made val
  | .fn _ id _ _ params body => Made id ∧ MadeL params ∧ Made body
  | .arrow _ params body _ => MadeL params ∧ Made body
  | .varDec _ decs => MadeL decs
  | .declr id init => Made id ∧ Made init
  | .block body => MadeL body
  | .doWhile test body => Made test ∧ Made body
  | .«while» test body => Made test ∧ Made body
  | .«for» init test update body => Made init ∧ Made test ∧ Made update ∧ Made body
  | .forInOf _ _ l r body => Made l ∧ Made r ∧ Made body
  | .«if» test cons alt => Made test ∧ Made cons ∧ Made alt
  | .switch test cases => Made test ∧ MadeL cases
  | .case test cons => Made test ∧ MadeL cons
  | .brk label => Made label
  | .cont label => Made label
  | .label label body => Made label ∧ Made body
  | .ret arg => Made arg
  | .«throw» arg => Made arg
  | .«catch» param body => Made param ∧ Made body
  | .«try» block handler fin => Made block ∧ Made handler ∧ Made fin
  | .«with» o body => Made o ∧ Made body
  | .cls _ id tparams sup supArgs impls body _ _ decs =>
    Made id ∧ Made tparams ∧ Made sup ∧ Made supArgs ∧ MadeL impls ∧ Made body ∧ MadeL decs
  | .classBody elems => MadeL elems
  | .method key _ _ _ val => Made key ∧ Made val
  | .field key _ _ val => Made key ∧ Made val
  | .staticBlock body => MadeL body
  | .metaProp mt prop => Made mt ∧ Made prop
  | .importDec _ specs src => MadeL specs ∧ Made src
  | .importSpec _ _ _ loc id => Made loc ∧ Made id
  | .exportDec _ all _ dec specs src => MadeDec dec ∧ (if all then MadeSpecs specs else MadeL specs) ∧ Made src
  | .exportSpec _ _ loc id => Made loc ∧ Made id
  | .chain e => Made e
  | .jsxMember o prop => Made o ∧ Made prop
  | .jsxElem opening children closing => Made opening ∧ MadeL children ∧ Made closing
  | .jsxOpen name attrs _ => Made name ∧ MadeL attrs
  | .jsxClose name => Made name
  | .jsxExpr e => Made e
  | .jsxAttr name val => Made name ∧ Made val
  | .jsxSpreadAttr arg => Made arg
  | .jsxSpreadChild e => Made e
  | .identT _ _ annot decs targs => Made annot ∧ MadeL decs ∧ Made targs
  | .newT callee args targs => Made callee ∧ MadeL args ∧ Made targs
  | .callT callee args _ targs => Made callee ∧ MadeL args ∧ Made targs
  | .fnT _ id _ _ params body tparams ret => Made id ∧ MadeL params ∧ Made body ∧ Made tparams ∧ Made ret
  | .arrowT _ params body _ tparams ret => MadeL params ∧ Made body ∧ Made tparams ∧ Made ret
  | .arrPatT elems _ annot decs => MadeL elems ∧ Made annot ∧ MadeL decs
  | .objPatT props _ annot decs => MadeL props ∧ Made annot ∧ MadeL decs
  | .restPatT arg _ annot decs => Made arg ∧ Made annot ∧ MadeL decs
  | .methodT key _ _ _ val _ _ _ _ _ _ decs => Made key ∧ Made val ∧ MadeL decs
  | .fieldT key _ _ val _ _ _ _ _ _ _ annot decs => Made key ∧ Made val ∧ Made annot ∧ MadeL decs
  | .paramProp _ _ _ _ decs param => MadeL decs ∧ Made param
  | .jsxOpenT name attrs _ targs => Made name ∧ MadeL attrs ∧ Made targs
  | .tsProp key val _ _ _ _ => Made key ∧ Made val
  | .tsDecFn id _ _ params body tparams ret => Made id ∧ MadeL params ∧ Made body ∧ Made tparams ∧ Made ret
  | .tsDecClass _ id tparams sup supArgs impls body _ decs => Made id ∧ Made tparams ∧ Made sup ∧ Made supArgs ∧ MadeL impls ∧ Made body ∧ MadeL decs
  | .tsDecVar _ decs => MadeL decs
  | .tsItf id tparams exts body _ => Made id ∧ Made tparams ∧ MadeL exts ∧ Made body
  | .tsAlias id tparams typ _ => Made id ∧ Made tparams ∧ Made typ
  | .tsImportRequire name _ args => Made name ∧ MadeL args
  | .nsAlias id => Made id
  | .idxSig _ _ _ _ _ _ key annot decs => Made key ∧ Made annot ∧ MadeL decs
  | .tsAnnot typ => Made typ
  | .tsRef name args => Made name ∧ Made args
  | .tsParamInst params => MadeL params
  | .tsParamDec params => MadeL params
  | .tsParam name cons deflt => Made name ∧ Made cons ∧ Made deflt
  | .tsArr arg => Made arg
  | .tsObj props => MadeL props
  | .tsCallSig params tparams ret => MadeL params ∧ Made tparams ∧ Made ret
  | .tsPredicate name typ _ => Made name ∧ Made typ
  | .tsAssert e typ => Made e ∧ Made typ
  | .tsNoNull e => Made e
  | .tsUnion elems => MadeL elems
  | .tsIntersect elems => MadeL elems
  | .tsQName lhs rhs => Made lhs ∧ Made rhs
  | .tsItfBody body => MadeL body
  | .tsEnum id members _ _ => Made id ∧ MadeL members
  | .tsEnumMember key val => Made key ∧ Made val
  | .tsModule id body _ _ => Made id ∧ Made body
  | .tsExportAssign e => Made e
  | .tsLit lit => Made lit
  | .tsImportAlias name val _ => Made name ∧ Made val
  | .tsNewSig params tparams ret _ => MadeL params ∧ Made tparams ∧ Made ret
  | .tsNew params tparams ret _ => MadeL params ∧ Made tparams ∧ Made ret
  | .tsFnTyp params tparams ret => MadeL params ∧ Made tparams ∧ Made ret
  | .tsImportTyp arg qual args => Made arg ∧ Made qual ∧ Made args
  | .tsQuery arg => Made arg
  | .tsCond check ext yes no => Made check ∧ Made ext ∧ Made yes ∧ Made no
  | .tsInfer arg => Made arg
  | .tsParen arg => Made arg
  | .tsIdxAccess o idx => Made o ∧ Made idx
  | .tsMapped _ _ key name val => Made key ∧ Made name ∧ Made val
  | .tsTypOp _ arg => Made arg
  | .tsTuple elems => MadeL elems
  | .tsNamed _ label val => Made label ∧ Made val
  | .tsRest arg => Made arg
  | .tsOpt arg => Made arg
  | .decorator e => Made e
  | _ => True
/-- The types a template has for arguments are with its tag. -/
def MadeTag : Node → Prop
  | .mk r (.identT name ques annot decs targs) =>
    Own r (.identT name ques annot decs .nil) ∧ Made annot ∧ MadeL decs ∧ Made targs
  | .nil => True
  | .mk r k => Own r k ∧ MadeK k
/-- `as namespace A` only follows `export`. -/
def MadeDec : Node → Prop
  | .mk _ (.nsAlias id) => Made id
  | .nil => True
  | .mk r k => Own r k ∧ MadeK k
def MadeL : Nodes → Prop
  | .nil => True
  | .cons n l => Made n ∧ MadeL l
def MadeSpecs : Nodes → Prop
  | .nil => True
  | .cons (.mk _ (.exportSpec _ _ loc id)) l => Made loc ∧ Made id ∧ MadeSpecs l
  | .cons n l => Made n ∧ MadeSpecs l
end

theorem eraseK_empty (rng : Rng) : eraseK rng .empty = .mk rng .empty := by simp only [eraseK]
theorem own_regex (rng : Rng) (p f : String) : ¬ Own rng (.regex p f) := by simp only [Own, not_false_eq_true]
theorem madeK_spread (n : Node) : MadeK (.spread n) = Made n := by simp only [MadeK]

end Mole.Estree.Conv
