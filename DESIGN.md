# Formal model of hsiaosiyuan0/mole in Lean 4

## Method

The Go source in `/repo` is read as text and transcribed, function by function, into
total computable Lean definitions under `lean/Verif/`.  Every definition cites the file and
lines it models and states its simplifications.  For each component there are (up to) three
kinds of module:

* `Verif/<Area>/Model.lean` (or `<Name>.lean`) – the transcription of the Go code, including
  its defects;
* `Verif/<Area>/Spec.lean` – a small specification written from the English property or the
  language standard, not from the code;
* `Verif/<Area>/Props.lean` – the property theorems, each with the property id in its doc
  comment and with a concrete `example` showing that its hypotheses can be met.  Lemmas live
  in separate `Lemmas.lean` files.

Where the code does *not* have the property, the negation is proved on a concrete witness
(theorem names ending in `_violated`), and the part that does hold is proved with the suffix
`_partial`, with the full statement kept in the doc comment.

## Trusted base

* Lean 4.33.0's kernel.  No axioms are added; the theorems depend at most on `propext`,
  `Classical.choice` and `Quot.sound` (see the axiom table at the end of this file).
  No `sorry`, `admit`, `native_decide`, `bv_decide`, `implemented_by` or `unsafe`.
* The transcription: that the Lean definitions compute what the cited Go lines compute.
* The Go runtime and standard library, as far as modelled: slices and strings as lists,
  maps as finite partial functions / association lists (iteration order explicit where it
  matters), `container/list` as a list with element identities, channels and mutexes as
  explicit transition systems, `utf8.DecodeRuneInString`, `unicode.IsSpace`, `strings.*`
  re-implemented in Lean.
* Machine integers are modelled by `Nat`/`Int` unless a definition says otherwise: byte
  offsets (`uint32`) are assumed not to wrap, i.e. sources are shorter than 4 GiB.

## Plan per property

* **C01 Reading a source consumes it exactly, byte for byte** – Model `Source` with the byte list as code; operations as an inductive `Op`; invariant `rest = code.drop ofst`, `pos = #decoded runes of code.take ofst` proved by induction over op sequences, also for saved states.
* **C02 Looking ahead never moves the reader, and rewinding restores it** – Purity is by type for look-ahead (functions of the state), prediction stated against the decoded rune list; balanced op sequences as an inductive relation; induction.
* **C03 Offsets convert to the right line and column** – Regex search modelled as a scan for the leftmost `\r\n?|\n`; spec: count of line feeds ending at or before o, defined by recursion over the text; induction on the loop.
* **C04 Skipping white space stops at the first other character and remembers line feeds** – `SkipSpace` loop on decoded runes; spec `takeWhile isSpace`; well-founded recursion on bytes left.
* **C05 The lookahead buffer is a faithful FIFO** – Ring buffer of size 5 with cursors; refinement to a list queue by an abstraction function; simulation for each operation and for histories.
* **C06 Rewinding the lexer restores what it was doing** – Mode stack as a heap of arrays with slice headers (aliasing explicit); violation witness (AddMode after PushState); partial: restoration when no AddMode/EraseMode/PopMode+PushMode overwrites a shared slot.
* **C07 Mode push and pop are balanced and inherit only strictness, async and TypeScript** – Same model, single owner; algebraic laws for push/pop and flag inheritance.
* **C08 Escape sequences decode to the code point the language defines** – Escape reader as a function on rune lists; spec by the ECMAScript escape grammar; totality over all continuations.
* **C09 A string literal ends at its matching unescaped quote and its value is the decoded content** – String reader; spec: relation `StrBody`; round trip encode/read.
* **C10 Reading a template always terminates** – Template reader as a step function; violation: from any state at U+FFFD the step does not advance (infinite run); partial: on texts without U+FFFD/ill-formed bytes it terminates and reads the expected span.
* **C11 Numeric literals are accepted exactly when the grammar allows them** – Numeric scanners; spec by grammar predicates; both directions.
* **C12 Punctuators are read by maximal munch** – Decision tree transcribed; spec: longest match over the punctuator table filtered by features; proof by case analysis on the next (at most four) runes, all others arbitrary.
* **C13 Identifiers are scanned completely and classified by the reserved-word tables** – Name scanner; takeWhile spec; keyword tables.
* **C14 A regular-expression literal ends at the first slash outside a class and not escaped** – Regexp scanner as state machine; spec by independent automaton.
* **C15 Comments end where the language says and line feeds inside them count** – Comment scanners; spec by first occurrence.
* **C16 HTML entities in JSX text decode independently** – JSX text decoder with its buffer; violation witnesses; partial for texts with at most one entity.
* **C17 Binary operators group by precedence and associativity** – `binExpr` on token lists; reference: the grammar's layered (stratified) parse; violation witness `a || b == c && d`; partial: correct whenever ... (characterised).
* **C18 Parsing a binary chain loses, duplicates and reorders nothing** – Same model; in-order yield by induction.
* **C19 ?? never mixes with && or || without parentheses** – Same model; rejection iff mixed.
* **C20 Statements end by semicolon, closing brace, end of file or line break only** – Decision function on next token; stated outright.
* **C21 Redeclarations are reported exactly when the language forbids them** – `CheckRefDup` bit logic over BitVec/Nat flags; decision table; declaration sequences by induction.
* **C22 A name resolves to its innermost declaration** – Scope tree as parent chain; recursion.
* **C23 Scopes are entered and left in balance with unique identities** – `EnterScope`/`LeaveScope` over op sequences.
* **C24 break and continue are accepted exactly where they have a target** – Scope kinds along nesting paths; spec by path predicate; violation via SPK_TRY inheritance if confirmed.
* **C25 Duplicate parameter names are found** – `checkParams` on pattern trees; spec: Nodup of bound names.
* **C26 A module exports a name at most once and only names it declares** – `checkExp` on lists; iff.
* **C27 A switch has at most one default clause** – `switchStmt` clause loop; violation `default, case, default`; partial.
* **C28 Imported names are declared once** – `importDec` specifier loop; violation.
* **C29 Assignment and conditional expressions group to the right** – Expression parser core on tokens.
* **C30 Arrow parameters are converted without loss** – `argToParam` on a core expression type; bound names preserved.
* **C31 Parser features are independent switches** – Feature bit set as BitVec 64; algebraic laws; Setup decision logic.
* **C32 The constant evaluator computes what JavaScript computes** – Evaluator as a recursive walk with explicit stack, generic in the number type; spec semantics of JavaScript on the same fragment; violations (`/`, `&&`, `?:`) and partial.
* **C33 The evaluator's stack discipline is sound** – Stack height invariant by induction on expressions; violation for operators without listener; partial.
* **C34 Branch selection picks the branches whose conditions hold** – Branch list and selection; spec by filter.
* **C35 Function dependency queries answer reachability** – BFS over finite graph; iff reachability; termination by visited set.
* **C36 The LRU cache stays within its capacity** – List with element identities and dict; violations; partial (capacity bound for never re-set evicted keys, clear ≥ 1).
* **C37 Get returns the last value set** – Same model; refinement to a partial function by induction over histories.
* **C38 The ordered map keeps one entry per key in order of last insertion** – Refinement of OrderedMap to an association list without duplicates.
* **C39 Comment removal leaves JSON without comments unchanged and strings alone** – State machine transcribed; spec scanner; violation on `"\\\\"`; partial on well-escaped strings.
* **C40 Comment removal keeps offsets and lines** – Same model; length facts, violations for multi-byte and line breaks in block comments; partial.
* **C41 Map merging is a right-biased deep union** – Maps as finite association; induction on nesting.
* **C42 Path lookup and flattening agree** – Same value type; walk as recursion; dotted-key collision violation.
* **C43 Slice helpers do what they say** – List lemmas.
* **C44 A directory walk visits every file once** – Transition system of Walk, workers and senders; safety invariants over all interleavings and trees (any worker count).
* **C45 A directory walk always finishes** – Same system; deadlock witness states reachable (violation); partial: progress without errors/Stop.
* **C46 Concurrent parses of one file share the work and all get the result** – Transition system of callers; violations; partial (safety of first caller).
* **C47 The walker visits every node once, parents around children** – Rose-tree walk with listener trace; trace equals pre/post order spec.
* **C48 Stopping the walk stops it** – Same with stop flag; after-listener behaviour checked.
* **C49 Scope numbers during a walk match the parser's** – Seeded numbering; spec: preorder index of scope-opening nodes.
* **C50 Graph iteration visits each reachable block once** – Worklist iteration with arbitrary order; exactly the reachable set, each once.
* **C51 Control flow edges are recorded at both ends** – Heap of blocks, edges and maps with the operations of graph.go; region invariants carried through every handler; violation by `a && b;`, partial for incoming edges of reachable blocks.
* **C52 Number literals evaluate to their mathematical value** – Digit-string conversion; violations (32-bit, leading zero); partial.
* **C53 Range helpers pick the true extremes** – Fold over ranges; extremum spec.
* **C54 Template literals convert to alternating quasis and expressions** – `tplLiteral` on part lists; violation/partial depending on adjacency.
* **C55 Reading a parenthesised expression never panics** – Pattern model with an explicit panic outcome for nil nodes; violation, partial on default values without holes.
* **C56 A parenthesised expression keeps its tree** – `residue`: what argToParam leaves of its argument; violation, partial, and equality up to labels in general.
* **C57 Declaring names never panics** – Symbol table model with explicit nil `Scope` pointers; invariant that every stored reference has one; violation by class/var merging.
* **C58 return is accepted exactly inside functions** – Same model as C24 (`Stmt` tree over the symbol table).
* **C59 A listener is called for the node types it was added for** – The event numbering as functions; the table of visitors, generated from visitor.go, checked by the kernel.
* **C60 Evaluating an expression never panics** – Same evaluator model as C32, with panics explicit; violation by a huge index, partial.
* **C61 The function dependency graph records captured names for the right function** – The builder as a fold over a tree of functions with an explicit current function; spec by structural recursion; violations and partial.
* **C62 Searching a tree for a node is exact** – The walker model with one listener on every before event that stops the walk; spec: membership in the list of the tree's nodes.
* **C63 A directory walk reports a directory before its files and these in order** – Same system as C44; for each directory an invariant on where it is (queue, worker, done) and that the calls made so far for it form a prefix in order.
* **C64 Every run of a program is a path of its control flow graph** – The heap model of graph.go and the handlers of ctrlflow.go as functions on it, for every order of map visits; spec: runs of the syntax tree, defined without graphs; induction over the tree with separated fragments of the heap; violations by `if (a ?? b)`, `for` with logical operations in its head and `for (a of b)`, with a checked criterion that no path passes a given list of nodes; partial for the statements modelled.
* **C65 Member, call and new expressions are grouped as the language defines** – The loops of callExpr, memberExpr and newExpr as mutually recursive functions on tokens, with fuel proved sufficient; spec: the grammar of ECMA-262 13.3 as inductive relations, proved unambiguous; violations by templates and nested new, partial outside these.
* **C66 Declarations of one name in TypeScript clash or merge as the language says** – The flags each declaration form passes to the symbol table, on the existing model of AddLocal and CheckRefDup; spec: value and type meanings and the merging pairs of the TypeScript handbook; decision theorem for two declarations in any scope, lists by induction, the disagreeing pairs listed and each proved wrong.
* **C67 Uses of private names mean the innermost class that declares them** – The scopes as a heap with parent pointers, the private declarations of class bodies, the list of uses and their resolution at the end of the program; spec: recursive links from uses to the innermost declaring class over an inductive syntax of items and class elements; refinement by induction over that syntax.
* **C68 Class bodies are checked for the early errors of the language** – The checks of method, field and classBody on class elements and the decision what an element is from the token after its first name; spec: the early errors of ECMA-262 15.7.1; loop invariant for lists, violations by computed, escaped, private and static special names, partial outside these.
* **C69 The tokens tile the source** – The dispatch among the scanners already modelled, the skipping of white space and comments before a token, and a run of calls; spec: an inductive tiling of the source by trivia and lexemes, each given by the grammar of its kind; equivalence by induction over the calls, progress and termination.
* **C70 A walk reaches every node of the tree** – The children of each node type as declared in the syntax tree, the accessors through which the visitors get them, and the walk of C47; spec: a table of the fields; a permutation of all nodes by induction on the tree, violations where fields have no visitor.
* **C71 Braces, octals and await are read by where they are** – The stack of modes, the events of the lexer and the parser on it in their order, the events of every nesting of constructs; spec: the place of each token by the grammar; induction on the program with the stack as invariant, violations as concrete programs.
* **C72 Directives and what they make strict** – The loop over statements with its counter and flags; spec: the longest prefix of string statements; invariant of the counter over the prologue, induction over the rest; violations where the counter is not reset.
* **C73 The ESTree output says what the tree says** – All node types of JavaScript, JSX and TypeScript as one inductive type, Convert on it into JSON with the field names of the structs. Spec: a reader of JSON by the ESTree standard, one small function per type of object. Round trip by induction over the size of the tree; injectivity follows. Violations: the regexp field, names with a namespace, escaped directives, sourceType, and what is not written of TypeScript. The ranges of nodes with types are worked out by the code from the ranges of the types; the specification says where they start and end.
* **C74 A slash divides after an operand and begins a regular expression before one** – The column BeforeExpr of the token table, the decision, and the buffer of tokens read ahead with the token remembered; spec: an automaton of what may come next in a program; invariant of the buffer over all calls: the token remembered is the last one read unless one taken is followed by one waiting.
* **C75 A token stays what it was read as while the parser uses it** – The ring of tokens of C05 with pointers to its cells, and the calls by which updateExpr reads a member chain; invariant over the calls: where the next token goes, relative to the cell kept.
* **C76 An accepted program is the program that was written** – The recursive descent of parser.go for JavaScript, with classes and modules, as one model: a state monad over the list of tokens, the stack of scopes and the loops, 28 mutually recursive functions closed by a fuel argument. The specification is a set of inductive rules, one for each kind of node, how a tree is written. For each function: what it takes is a way to write what it returns, by induction on the fuel. Brackets and leaves follow by induction over the rules.
* **C77 Jumps, yield and await are only accepted where the language has them, and no program stops the parser** – On the model of C76. Each of its functions is shown to leave the scopes and the stack of loops as it found them (a Hoare triple over the stack), not to panic, and to return a tree whose parts are in their places, by induction on the fuel; a loop around is on the stack, and so is a list for return statements, except in static blocks, where the tokens account for the panic. The specification is a function over trees that carries what is around. The exceptions of the parser are written into it and marked, and a second function has the rules of the language only; both agree on trees without these exceptions.
* **C78 Parsing ends, and the calls are not deeper than the source is long** – On the model of C76, whose functions take one from a supply at each call, so that it ends by construction. To say something about the code, the functions at the end of the supply are replaced by arbitrary ones: if the outcome does not depend on them, they have not been called. Each function gets a rank, such that a call before a token is taken is of a function with a lower rank, and each function is shown to take tokens; by induction on the supply 16 times the number of tokens plus the rank is enough.
* **C79 JSX elements are read by the rules of JSX** – Lexer and parser in one model, from characters to the tree, with the stack of modes and the token read ahead; the readers of expressions are parameters. The rules are relations between a text and the text after it, with a flag for what is accepted and not JSX. One induction on the depth of calls shows that what is taken follows the rules, where reading can go on for ever and how deep the calls are; a second one that a text that follows the rules is read.
* **C80 Types of TypeScript are read by their rules** – The functions that read types, as written, over lists of tokens; objects, templates, parameters after the first and type parameters are parameters of the model. The rules are a relation between the tokens and the tokens after the type, with a flag for what is accepted and not TypeScript or read as another type. One induction on the depth of calls shows that what is taken follows the rules and how deep the calls are; one on the rules that a type that follows them is read; one more that nothing crashes without the word const.
* **C81 The ranges of nodes are those of their tokens, and they are nested** – The recursive descent once more, as a state machine over the place in the list of tokens and the number of tokens read ahead, that makes nodes with ranges; the checks that do not depend on tokens are an oracle. The specification is an inductive relation between a node and the tokens it is located at. One induction on the depth of calls shows that every function returns a located node; from being located, nesting and exact ends follow by induction on the relation.
* **C82 Each comment is reported for one node** – The lexer's two lists, the comments held while a statement or an object is parsed, and the two maps are a state; lexing, holding, reporting, saving and restoring are its operations. An invariant over all sequences of operations without restoring says that the comments read are a permutation of those that are somewhere. The operations of programs of a small language are given and the invariant is used for them.
* **C83 super and new.target are accepted where the language has them** – A program is a tree of the constructs that have scopes or flags of their own, with the uses as leaves. The parser's walk over it keeps the flags of the current scope, with EnterScope as in the model of the symbol table. The language is a set of rules on what is known at each place. The parser is shown to lie between two other sets of rules by induction over the tree, and to agree with the language on programs without the forms in the counterexamples.
* **C84 reserved words cannot be bound, and all other names can** – The checks are functions of the place and the name, built on the model of the lexer's classification of names (C13). The rules of the language are a separate predicate. The two are compared for all names, by a proof that only the class of a name matters, and for all places. The wrongly accepted names are listed by place, and each item of the list has a counterexample.
* **C85 a function knows its return statements, and a throw statement where it is caught** – What matters of a program here is a tree of functions, classes, blocks, try statements, return and throw statements. The code is a function over it that pushes and pops as the parser does. The specification is three functions over the tree that know no stack. They are shown to agree by induction, with the stacks left as they were found. Calls of async, return in static blocks and throw in functions in try blocks are left out, and each has a counterexample.
* **C86 Object literals and patterns are told apart** – checkArg with its second-`__proto__` test, and where it is run (assignments, parentheses, statements, arguments, defaults, the head of `for`), on the trees of C30 and C56; the specification says of an expression as written which of its objects are patterns. Violations: initializers, behind a comma, operands, values of parenthesised objects, defaults in patterns, keys, compound assignments in arguments, `for`; partial theorems in both directions.
* **C87 Class members get the modifiers written before them** – modifiers, tsModifierOrder, classElem, isField, the beginning of field and the checks in classBody, on tokens; the specification splits the tokens into modifiers and name by the token behind each word, as TypeScript does, and has a table of which modifier may be before which. The two readings are shown to agree by induction on the tokens; that the check of neighbours is as good as the check of all pairs is proved for every list of distinct modifiers. Violations: orders not checked, members named by a modifier, line breaks, keys that are no names.
* **C88 Overload signatures are followed by their implementation** – tsIsFnSigValid, tsIsFnImplValid and the places in fnDec and method where they are called and the signature is kept, on trees of functions; the specification looks at each list of statements or members by itself. Exactly what is accepted is proved (by where the functions end), and what follows of it. Violations: the signature is never forgotten, not even for what is inside the implementation or behind an ambient one; it may be missing or be replaced; three panics.
* **C89 Decorators belong to what they are written before** – the places in stmt, classDec, classBody, field and method where decorators wait and are taken, on trees of statements, classes and members. The specification gives the decorators to what is right behind them. Proved by induction over trees: equality with it outside the exceptions; for all programs, that none is invented or given twice, that class declarations get theirs, and no panic in TypeScript. Violations: the field panic without TypeScript, the method with a statement in it, and seven more.
* **C90 In TypeScript a `<` behind an expression is read as what it is** – callExpr, argList, tsTryTypArgs, tsTypArgs and the types in them, with the stack of saved states, the set of `<` known to be operators and the place in the shared error. Proved by induction over expressions: two classes are read as written, whatever the trials leave behind; by induction over the steps, that what is accepted without `?.` is written as the tree says, that JavaScript reads the same tree, and that the stack is never empty when a state is taken back. Violations: comparisons behind `?.`, with subscripts, with `>` and with generic calls.

## What is modelled

Every definition cites the lines it models.  Collected from these citations, the lines of each Go file that are modelled, and
where.  Everything else is not modelled (next section).

| Go file | lines of the file | lines cited by the model | modules |
|---|---|---|---|
| `ecma/analysis/ctrlflow.go` | 1711 | 13-21, 23-35, 71-81, 111-128, 157-163, 182-190, 202-245, 280-319, 321-331, 333-353, 355-365, 367-375, 377-393, 426-442, 444-454, 456-482, 484-510, 512-534, 536-553, 612-623, 625-645, 782-793, 795-818, 820-830, 832-838, 840-844, 846-970, 972-1008, 1010-1048, 1050-1072 | `Graph/Cfg`, `Graph/CfgBuild`, `Graph/CfgFork`, `Graph/CfgGrp`, `Graph/CfgHandle2`, `Graph/CfgHandle3`, `Graph/CfgLoop`, `Graph/CfgSeq` |
| `ecma/analysis/graph.go` | 997 | 13-19, 21-41, 79-85, 113-120, 122-130, 171-174, 176-183, 194-201, 220-229, 266-276, 292-294, 296-302, 351-360, 362-371, 373-386, 388-396, 398-406, 417-424, 427-442, 454-477, 479-487, 489-498, 500-506, 508-510, 512-519, 521-543, 568-571, 637-650, 692-726, 728-738, 805-813, 878-885, 887-941, 943-973, 978-996 | `Graph/Cfg`, `Graph/CfgBuild`, `Graph/Iter` |
| `ecma/astutil/astutil.go` | 510 | 32-59, 129-201, 233-250, 335-499 | `Astutil/BuildDep`, `Astutil/Contains`, `Astutil/FnDep`, `Estree/Conv`, `Exec/Branch` |
| `ecma/estree/convert.go` | 1575 | 30-43, 45-58, 60-73, 75-85, 103-111, 113-127, 129-143, 145-225, 235-248, 260-275, 277-290, 298-339, 348-385, 387-420, 422-434, 481-1574 | `Estree/Conv`, `Estree/Loc`, `Estree/Tpl` |
| `ecma/estree/ts_convert.go` | 812 | 7-675, 677-710, 727-752, 754-779, 781-811 | `Estree/Conv` |
| `ecma/exec/vm.go` | 407 | 31-40, 44-56, 71-80, 82-245, 247-255, 263-265, 267-275, 277-287, 289-302, 304-318, 320-334, 351-371, 395-402 | `Exec/Vm` |
| `ecma/parser/ast.go` | 2304 | 18-23, 27, 38-43, 61-64, 84-89, 111-117, 147-151, 169-176, 206-214, 249-255, 286-293, 324-330, 386-404, 443-450, 485-493, 528-536, 575-583, 618-624, 659-666, 701-708, 739-748, 790-795, 822-827, 850-855, 865-875, 892-898, 924-929, 956-961, 984-990, 1017-1023, 1054-1061, 1098-1104, 1142-1148, 1177-1187, 1189-1204, 1207-1221, 1260-1271, 1286-1288, 1290-1292, 1330-1341, 1392-1398, 1421-1426, 1445-1450, 1463, 1468-1473, 1492-1497, 1516-1523, 1550-1558, 1589-1595, 1618-1623, 1642-1647, 1666-1671, 1690-1695, 1714-1720, 1743-1747, 1762-1767, 1786-1791, 1810-1816, 1838-1841, 1852-1857, 1876-1884, 1919-1923, 1938-1947, 1999-2007, 2042-2047, 2070-2075, 2094-2100, 2130-2138, 2176-2185, 2227-2234, 2268-2272, 2287-2291 | `Estree/Conv`, `Parser/TsType`, `Walk/Access`, `Walk/AstSpec`, `Walk/Walker` |
| `ecma/parser/astutil.go` | 138 | 32-83, 87-90, 114-133 | `Estree/Conv`, `Lexer/NumValue`, `Lexer/Str` |
| `ecma/parser/feature.go` | 75 | 3, 5-58, 60-62, 64-66, 68-73 | `Parser/Feature` |
| `ecma/parser/jsx.go` | 372 | 9-26, 36, 39-48, 50-89, 91-140, 142-157, 159-183, 185-222, 224-244, 246-253, 255-267, 271-371 | `Parser/Jsx` |
| `ecma/parser/jsx_ast.go` | 303 | 7-13, 43-48, 67-73, 100-110, 133-138, 152-156, 171-177, 200-204, 219-223, 237-240, 253-259, 286-290 | `Walk/AstSpec` |
| `ecma/parser/lexer.go` | 1845 | 10-38, 40-99, 112-133, 143-144, 147-148, 150-151, 175-227, 229-240, 242-249, 259-406, 408-429, 451-473, 475-591, 594-655, 657-679, 706-948, 950-982, 989-1095, 1097-1192, 1194-1281, 1283-1300, 1303-1564, 1571-1612, 1614-1667, 1669-1716, 1731-1734, 1737-1743, 1753, 1797-1827, 1829-1831, 1833-1835, 1837-1839 | `Lexer/Alias`, `Lexer/Buf`, `Lexer/Comment`, `Lexer/Escape`, `Lexer/Ident`, `Lexer/Jsx`, `Lexer/Mode`, `Lexer/ModeUse`, `Lexer/Name`, `Lexer/Num`, `Lexer/Punct`, `Lexer/Regexp`, `Lexer/Runes`, `Lexer/Scan`, `Lexer/Slash`, `Lexer/Str`, `Parser/Bind`, `Parser/Cmts`, `Parser/Jsx`, `Parser/Prog`, `Parser/Rng`, `Parser/TsType` |
| `ecma/parser/nodetype.go` | 186 | 7-172 | `Walk/Table`, `Walk/Walker` |
| `ecma/parser/parser.go` | 6534 | 25-148, 150-152, 154-156, 158-160, 162-164, 173-175, 177-181, 183-187, 193-199, 212-282, 285-333, 336-625, 629-697, 699-731, 733-741, 743-797, 800-939, 941-950, 952-1008, 1011-1038, 1059-1331, 1333-1444, 1446-1575, 1577-1597, 1599-1706, 1708-1710, 1712-1713, 1728-1757, 1772-1862, 1865-1893, 1896-1928, 1931-1937, 1940-1972, 1975-2051, 2054-2110, 2112-2145, 2148-2194, 2197-2244, 2247-2289, 2292-2483, 2485-2512, 2514-2845, 2851-2853, 2865-2897, 2900-2957, 2959-2961, 2967-3062, 3064-3095, 3097-3136, 3138-3151, 3153-3221, 3223-3255, 3258-3324, 3350-3400, 3402-3500, 3504-3601, 3603-3627, 3629-3670, 3672-3753, 3755-3829, 3831-3864, 3879-3926, 3928-3969, 3971-3986, 3989-4029, 4031-4069, 4072-4138, 4145-4196, 4198-4242, 4245-4444, 4446-4555, 4564-4567, 4588-4591, 4593-4596, 4598-4601, 4624-4712, 4715-4772, 4775-4827, 4829-4842, 4845-4923, 4925-5220, 5243-5325, 5358-5415, 5421-5426, 5446-5532, 5535-5630, 5632-5661, 5663-5860, 5862-5955, 5969-5999, 6005-6045, 6049-6366, 6399-6426, 6428-6441, 6443-6453, 6455-6461, 6495-6497, 6511-6513 | `Estree/Tpl`, `Lexer/Alias`, `Lexer/ModeUse`, `Lexer/SlashProps`, `Parser/Bind`, `Parser/ClassBody`, `Parser/Cmts`, `Parser/DeclKind`, `Parser/Deco`, `Parser/Directive`, `Parser/Export`, `Parser/Expr`, `Parser/Feature`, `Parser/Jsx`, `Parser/Jump`, `Parser/Less`, `Parser/LessProps`, `Parser/Mods`, `Parser/ObjLit`, `Parser/Overload`, `Parser/Pattern`, `Parser/PatternProps`, `Parser/PatternResidue`, `Parser/Postfix`, `Parser/PostfixProps`, `Parser/Private`, `Parser/PrivateSpec`, `Parser/Prog`, `Parser/Rets`, `Parser/Rng`, `Parser/Semi`, `Parser/Super`, `Parser/SymLemmas`, `Parser/SymProps`, `Parser/Symtab`, `Parser/TsType`, `Walk/ScopeNum` |
| `ecma/parser/symtab.go` | 608 | 1-607 | `Parser/DeclKind`, `Parser/Private`, `Parser/Prog`, `Parser/Rets`, `Parser/Super`, `Parser/Symtab` |
| `ecma/parser/token.go` | 571 | 5-20, 22-62, 65-79, 147-330, 346-534, 539-570 | `Lexer/Name`, `Lexer/Punct`, `Lexer/Slash`, `Parser/Bind`, `Parser/Cmts`, `Parser/Expr`, `Parser/Prog`, `Parser/Rng`, `Parser/TsType` |
| `ecma/parser/ts.go` | 2637 | 10-24, 28-34, 39-44, 46-60, 76-81, 83-176, 178-199, 201-207, 228-237, 239-262, 289-403, 433-491, 494-560, 594-616, 618-647, 649-672, 674-696, 698-709, 726-770, 772-827, 829-861, 873-887, 891-1061, 1160-1194, 1549-1573, 1604-1611, 1616, 1734-1743, 1745-1812, 1865-1868, 1906-1914, 1916-1927, 2000, 2235, 2458-2484, 2486-2511, 2539-2565 | `Parser/DeclKind`, `Parser/Deco`, `Parser/Jsx`, `Parser/Less`, `Parser/LessProps`, `Parser/Mods`, `Parser/Overload`, `Parser/TsType`, `Walk/ScopeNum` |
| `ecma/parser/ts_ast.go` | 1397 | 9-13, 31-36, 55-60, 82-86, 105-112, 139-146, 168-173, 184-189, 212-217, 240-246, 269-275, 302-307, 330-334, 349-355, 378-383, 406-415, 441-446, 467-473, 496-503, 530-536, 562-568, 579-583, 598-602, 617-623, 646-653, 684-690, 713-719, 742-748, 775-780, 794-796, 803-810, 837-841, 856-862, 885-890, 909-915, 938-944, 967-973, 1000-1004, 1019-1024, 1040-1060, 1085-1090, 1113-1120, 1192-1200, 1235-1240, 1263-1272, 1335-1341, 1368-1372 | `Estree/Conv`, `Parser/TsType`, `Walk/Access`, `Walk/AstSpec` |
| `ecma/parser/typinfo.go` | 219 | 23-31, 106-115 | `Walk/AstSpec` |
| `ecma/walk/ctx.go` | 195 | 11-26, 28-38, 56-65, 67-75, 77-83, 85-87, 96-102, 139-146, 148-155, 180-194 | `Graph/CfgBuild`, `Walk/Props`, `Walk/Walker` |
| `ecma/walk/visitor.go` | 4114 | 161, 449, 452-481, 951, 976-978, 980-982, 992-996, 1004-1008, 1010-3590, 3592-3970 | `Astutil/Contains`, `Graph/CfgBuild`, `Walk/Access`, `Walk/Props`, `Walk/Table`, `Walk/Walker` |
| `parseutil/cache.go` | 75 | 13, 18, 24, 28-34, 51, 55-56, 60-68 | `Conc/ParseCache` |
| `span/source.go` | 328 | 20-29, 31-36, 38-42, 50-62, 64-71, 80-82, 85-88, 91-96, 99-108, 110-114, 116-124, 126-128, 130-132, 134-140, 143-156, 158-168, 170-173, 175-177, 204-217, 220-222, 228-230, 232, 239-277, 279-305, 307-310, 316-318, 324-327 | `Lexer/Comment`, `Lexer/Runes`, `Span/Model` |
| `util/lru.go` | 66 | 5-11, 15-26, 28-33, 35-40, 42-65 | `Util/OrderedMap` |
| `util/map.go` | 69 | 5-8, 10-13, 15-20, 22-25, 27-34, 36-49, 51-56, 58-60 | `Util/OrderedMap` |
| `util/merge.go` | 24 | 3-17, 19-23 | `Util/Objects` |
| `util/obj.go` | 90 | 11-45, 47-66, 68-80 | `Util/Objects` |
| `util/sets.go` | 41 | 3-9, 11-16, 18-23, 25-32, 34-40 | `Graph/Cfg`, `Graph/Iter`, `Util/Objects` |
| `util/slice.go` | 29 | 4-6, 10-13, 15-22, 24-28 | `Util/Objects` |
| `util/str.go` | 151 | 14-136 | `Span/Model`, `Util/JsonComments` |
| `util/walkdir.go` | 154 | 20, 33-56, 77-113, 115-121, 131-153 | `Conc/WalkDir` |

## What is not modelled

* **Parser** (`ecma/parser/parser.go`, `ast.go`, `ts.go`, `ts_ast.go`, `jsx.go`, `jsx_ast.go`, `typinfo.go`): the recursive
  descent for JavaScript is one model (`Parser/Prog`, used for C76, C77 and C78).  Its checks
  that only reject are a parameter there (`Chk`), so the theorems hold whatever they say.  Many of these checks, and productions with
  more detail, have models of their own: binary expressions and their grouping, assignment targets, arrow parameters, member, call
  and `new` expressions, statement ends, jumps and labels, declarations and scopes, class bodies, `super` and `new.target` (C83), the modifiers of class members (C87), overload signatures (C88), decorators of classes and members (C89), how `<` behind an expression is read in TypeScript (C90), the names that are bound (C84), exports and imports.  JSX elements
  are a model of their own (`Parser/Jsx`, C79), with the expressions in them as parameters.  Not modelled:
  TypeScript syntax other than types (C80; of these not object types and type parameters), the places of nodes of classes, modules,
  JSX and TypeScript (the others are C81, `Parser/Rng`), the comments before and after nodes other than those of C82, lines and columns of nodes, and the error texts.
* **Lexer** (`lexer.go`, `token.go`): scanning of names, numbers, strings, templates, regular expressions, comments,
  punctuators and JSX text is modelled, and the choice between these scanners (`Lexer/Scan`, and `Parser/Jsx` for JSX).  Not modelled:
  the shebang line, and the entity table beyond the lookup.
* **Control flow** (`ecma/analysis`): see the head of `Graph/CfgBuild`.  Jumps, loops without a test or with a literal as test, `switch`, `try`, functions, classes,
  modules, optional chains and loops with a literal test are not modelled, nor is the drawing of graphs (`Dot`).
* **Walker** (`ecma/walk/visitor.go`): all visitors are represented by the generated table `Walk/Table`, checked against the
  text of the file by hand; the listeners are modelled, and of the nodes which children they have (`Walk/Access`).
* **ESTree conversion** (`ecma/estree`): the conversion of all JavaScript, JSX and TypeScript nodes into JSON is modelled, with ranges; lines and
  columns are not.
* **Utilities**: `util/shell.go` and `util/assert.go`, which start processes and print, are not modelled.
* **Tools** (`cli`, `wasm`, `script`, the generated `html_entity.go` and `nodetype_string.go`): not modelled.

## Where the code and the property disagree

Each line is a theorem that proves the disagreement on a concrete program or state of the model.

* C05 `full_eof_violated` (`Lexer/BufProps`): **C05, outside its hypothesis.** Scanning a token or the end of the source while five tokens are buffered overwrites the oldest one.
* C06 `rewind_flag_violated` (`Lexer/ModeProps`): **C06 is violated**: a flag added to the current mode after `PushState` survives `PopState`.
* C06 `rewind_repush_violated` (`Lexer/ModeProps`): **C06 is violated**: leaving the saved mode and entering another one in its place overwrites it in the saved state.
* C08 `surrogate_violated` (`Lexer/StrProps`): **C08/C09 is violated** for surrogate pairs written as two escapes: the two escapes D83D, DE00 are U+1F600 in the language, the token text has two U+FFFD.
* C08 `tpl_escape_fffd_violated` (`Lexer/Tpl`): **C08 is violated**: the escape for U+FFFD, written with four hexadecimal digits in a template, is reported as a bad escape.
* C08 `tpl_nul_violated` (`Lexer/EscapeProps`): **C08 is violated in templates**: `\0` not followed by a digit is the NUL character in the language, but the scanner reports a legacy octal escape.
* C09 `empty_continuation_violated` (`Lexer/StrProps`): **C09 is violated** for a string made of line continuations only: its value is the empty string, but the text of the token is the backslash and the line feed.
* C09 `string_in_template_violated` (`Lexer/StrProps`): **C09 is violated** inside template substitutions: in `${'\0'}` the mode is still the template's, so the string is rejected although it is a well-formed literal.
* C10 `template_hangs_violated` (`Lexer/Tpl`): **C10 is violated**: at U+FFFD in a template (or any ill-formed byte, which decodes to it) the loop makes no progress, however many rounds it is given.
* C11 `digit_after_literal_violated` (`Lexer/NumProps`): **C11 is violated**: `0b12` is read as `0b1`, leaving `2`.
* C11 `second_separator_violated` (`Lexer/NumProps`): **C11 is violated**: `1_0` is rejected although separators are enabled.
* C13 `brace_escape_violated` (`Lexer/NameProps`): **C13 is violated**: `a\u{20}` is read as a name that contains a space.
* C13 `escaped_start_violated` (`Lexer/NameProps`): **C13 is violated**: `\u0030` (the digit 0) is read as a name.
* C13 `escaped_strict_keyword_violated` (`Lexer/NameProps`): **C13 is violated**: in strict mode a reserved word written with escapes (`l\u0065t`) still becomes the keyword.
* C13 `private_keyword_violated` (`Lexer/NameProps`): **C13 is violated**: `#if` is no private name but the keyword `if`.
* C14 `duplicate_flag_violated` (`Lexer/RegexpProps`): **C14 is violated**: flags may repeat.
* C14 `lone_u_violated` (`Lexer/RegexpProps`): **C14 is violated**: `/\u/` is rejected.
* C14 `slash_in_group_violated` (`Lexer/RegexpProps`): **C14 is violated**: in `/(/)/` the slash inside the parentheses does not end the literal; the language's body is `(`.
* C15 `newline_before_comment_violated` (`Lexer/CommentProps`): **C15 is violated**: in `⏎/**/b` the line feed before the comment is forgotten, so `b` does not count as the first token of its line (and `a⏎/**/b` is rejected).
* C15 `newline_in_comment_violated` (`Lexer/CommentProps`): **C15 is violated**: a line feed inside a comment is forgotten when another comment follows.
* C16 `ampersand_violated` (`Lexer/JsxProps`): **C16 is violated**: from an ampersand that starts no reference on, text is lost.
* C16 `independent_violated` (`Lexer/JsxProps`): **C16 is violated**: `&lt;&gt;` is read as `<<`.
* C16 `numeric_violated` (`Lexer/JsxProps`): **C16 is violated**: numeric references are errors (the table has none).
* C16 `second_unknown_violated` (`Lexer/JsxProps`): **C16 is violated**: `&lt;&amp;` is an error.
* C17 `precedence_arith_violated` (`Parser/ExprProps`): **C17 is violated**: `a == b * c + d` is grouped `(a == b * c) + d`.
* C17 `precedence_violated` (`Parser/ExprProps`): **C17 is violated**: `a || b == c && d` is grouped `(a || b == c) && d`.
* C20 `comma_violated` (`Parser/Semi`): **C20 is violated**: a statement may end before a comma.
* C20 `export_default_violated` (`Parser/Semi`): **C20 is violated**: `export default a b` is read as two statements on one line.
* C20 `field_end_violated` (`Parser/Semi`): **C20 is violated**: `class A { a = 1 b = 2 }` is read as two fields on one line.
* C20 `return_semis_violated` (`Parser/Semi`): **C20 is violated**: `return;` also consumes the empty statement after it, so that `if (x) return;; else y` is accepted.
* C21 `block_fn_violated` (`Parser/SymProps`): **C21 is violated**: in a sloppy block, `let f; function f() {}` is accepted; in a strict one, `function f() {} var f;` is.
* C21 `catch_var_violated` (`Parser/SymProps`): **C21 is violated**: in a catch clause, `var x; var x;` is rejected.
* C21 `class_expr_violated` (`Parser/SymProps`): **C21 is violated**: `x = class A {}; y = class A {};`, two class expressions of one name, are rejected, for their names are declared in the surrounding scope.
* C21 `class_redeclared_violated` (`Parser/SymProps`): **C21 is violated**: `class A {} let A;` and `let A; class A {}` are accepted, in any scope.
* C21 `deep_var_violated` (`Parser/SymProps`): **C21 is violated**: `{ let a; { var a } }` is accepted, the `var` passing through the block that declares the name, and so is `{ { var a } let a }`.
* C21 `strict_fn_violated` (`Parser/SymProps`): **C21 is violated**: in a strict function, `var f; function f() {}` and `function f() {} function f() {}` are rejected.
* C21 `top_fn_var_violated` (`Parser/SymProps`): **C21 is violated**: `function f() {} var f;` at the top level of a sloppy script is rejected.
* C23 `scope_number_violated` (`Parser/SymScope`): **C23 is violated**: a block and then a parenthesised expression: the temporary scope gets the number of the block, and the table of scopes has it in the block's place from then on.
* C24 `continue_block_violated` (`Parser/JumpProps`): **C24 is violated**: `a: { continue a }` is accepted.
* C24 `else_label_violated` (`Parser/JumpProps`): **C24 is violated**: `a: if (x) b: y; else break a;` is rejected.
* C24 `label_twice_violated` (`Parser/JumpProps`): **C24 is violated**: `a: { b: x; a: y }` is accepted although the label is given twice; and a `break a` in the inner one would go to the inner one.
* C24 `try_break_violated` (`Parser/JumpProps`): **C24 is violated**: `try { { break } } finally { }` is accepted outside any loop.
* C24 `try_break_violated` (`Parser/ProgPlaces`): **C77, violated.** `try { { break; } } finally {}` is accepted.
* C25 `arrow_dup_violated` (`Parser/PatternProps`): **C25 is violated**: `(a, a) => …` is accepted in sloppy mode (and `{ m(a, a) {} }` alike).
* C26 `star_as_twice_violated` (`Parser/Export`): **C26 is violated**: `export * as a from "x"; export * as a from "y"` is accepted.
* C27 `two_defaults_violated` (`Parser/JumpProps`): **C27 is violated**: `switch (x) { default: case 1: default: }` is accepted.
* C28 `import_twice_violated` (`Parser/Export`): **C28 is violated**: `import a from "x"; import a from "y"`, and also `let a; import a from "x"`, is accepted; the second declaration is dropped.
* C29 `double_paren_violated` (`Parser/PatternProps`): **C29 is violated**: `((a)) = 1` is rejected.
* C29 `op_pattern_violated` (`Parser/PatternProps`): **C29 is violated**: as an argument (`f([a] += 1)`), where the left side is not checked, a pattern is accepted left of `+=`.
* C29 `paren_member_violated` (`Parser/PatternProps`): **C29 is violated**: `(a.b) = 1` is rejected.
* C29 `rest_member_violated` (`Parser/PatternProps`): **C29 is violated**: `[...a.b] = c` is rejected.
* C29 `update_operand_violated` (`Parser/PatternProps`): **C29 is violated**: `[a]++` is accepted and `(a.b)++` rejected.
* C30 `computed_default_violated` (`Parser/PatternProps`): **C30 is violated**: `({ [k] = 1 }) => …` is accepted.
* C30 `function_default_violated` (`Parser/PatternProps`): **C30 is violated**: `({ a = function () {} }) => …` is rejected.
* C30 `member_bound_violated` (`Parser/PatternProps`): **C30 is violated**: `([a.b] = c) => …` is accepted, a member expression bound.
* C30 `nested_default_violated` (`Parser/PatternProps`): **C30 is violated**: `({ k: a = 1 } = b) => …` is rejected.
* C30 `paren_bound_violated` (`Parser/PatternProps`): **C30 is violated**: `((a) = 1) => …` is accepted.
* C32 `bool_add_violated` (`Exec/Props`): **C32 is violated** by `true + 1`, which is NaN plus 1.
* C32 `computed_violated` (`Exec/Props`): **C32 is violated** by `o[k]`: the name itself is taken for the key.
* C32 `cond_violated` (`Exec/Props`): **C32 is violated** by the conditional operator, which always gives its third operand: `true ? 1 : 2` is 2.
* C32 `div_violated` (`Exec/Props`): **C32 is violated** by `/`, which subtracts: `6 / 2` is 4.
* C32 `includes_violated` (`Exec/Props`): **C32 is violated** by `[null].includes(undefined)`, which is true, and by `[NaN].includes(NaN)`, which is false.
* C32 `index_violated` (`Exec/Props`): **C32 is violated** by an index that is not an integer: `[true, false][1.5]` is false.
* C32 `int_violated` (`Exec/Props`): **C32 is violated** by a Go `int` given as a variable: its numeric value is NaN.
* C32 `length_violated` (`Exec/Props`): **C32 is violated** by the length of an array, which is nil.
* C32 `logical_violated` (`Exec/Props`): **C32 is violated** by `&&` and `||`, which give a Boolean and not an operand: `1 && 2` is true.
* C32 `loose_violated` (`Exec/Props`): **C32 is violated** by `1 == "1"`: no conversion takes place.
* C32 `nan_violated` (`Exec/Props`): **C32 is violated** by NaN as a condition: `!NaN` is false.
* C32 `null_violated` (`Exec/Props`): **C32 is violated** by `null === undefined`, which is true.
* C32 `unary_violated` (`Exec/Props`): **C32 is violated** by unary operators other than `!`, which give false, and by comparisons, which give nil.
* C32 `unary_violated` (`Lexer/SlashProps`): `typeof /re/`, also `void`, `delete`, `await` and `...`: a division is read.
* C33 `cond_stack_violated` (`Exec/Props`): **C33 is violated** by `a ? b : c`: all three values stay on the stack.
* C33 `hole_stack_violated` (`Exec/Props`): **C33 is violated** by a hole: `[a, [, b]]` is `[undefined, [a, b]]`: the inner array takes the value of its sibling.
* C33 `operator_stack_violated` (`Exec/Props`): **C33 is violated** by `a < b`, and by all operators without a case: two values are taken, none is put back.
* C34 `else_if_violated` (`Exec/Branch`): **C34 is violated** by `if (true) A else if (true) B else C`: both A and B are selected.
* C34 `operator_twice_violated` (`Exec/Branch`): **C34 is violated** by `a + b`: the right operand is selected twice.
* C36 `lru_capacity_violated` (`Util/OrderedMapProps`): **C36 is violated.** A cache of capacity 3 with clear count 1 holds 4 keys after 4 sets, among them the key whose list element was evicted.
* C36 `lru_list_overflow_violated` (`Util/OrderedMapProps`): **C36 is violated also for the recency list.** Setting an evicted key again pushes the list over the capacity (cap 3).
* C36 `lru_small_capacity_violated` (`Util/OrderedMapProps`): **C36 is violated for small capacities.** With the default clear count and capacity at most 2 nothing is ever evicted from the list.
* C39 `replacement_char_violated` (`Util/JsonCommentsProps`): **C39 is violated** for a text containing U+FFFD, which is legal in JSON: error.
* C39 `string_end_violated` (`Util/JsonCommentsProps`): **C39 is violated** when a string ends in an escaped backslash: for `"\\"/**/` the comment after the string is not removed.
* C40 `block_linefeed_violated` (`Util/JsonCommentsProps`): **C40 is violated**: a line feed in a block comment becomes two characters.
* C40 `crlf_violated` (`Util/JsonCommentsProps`): **C40 is violated**: the CRLF after a `//` comment becomes one character.
* C40 `fixpoint_violated` (`Util/JsonCommentsProps`): **C40 is violated**: `[1,/**/]` needs two rounds to lose its trailing comma.
* C40 `non_ascii_violated` (`Util/JsonCommentsProps`): **C40 is violated**: a two-byte character in a comment becomes one byte.
* C41 `mergeMaps_aliasing_violated` (`Util/MergeHeap`): **C41 is violated** for the sources of `MergeMaps`: they are not only read. Map 0 is dst, empty; map 1, the first source, is `{a: map 3}`; map 2, the second source, is `{a: map 4}`; 3 is `{x: 10}` and 4 is `{x: 20}`. After `MergeMaps(dst, first, second)` the first source's nested map 3 holds 20: `dst` shares it.
* C42 `flatten_collision_violated` (`Util/ObjectsProps`): **C42 is violated** by keys with dots: two iteration orders of the same map give different results.
* C42 `getByPath_slice_violated` (`Util/ObjectsProps`): **C42 is violated** for leaves inside slices: flattening lists `a.0`, the path lookup finds nothing there.
* C45 `blank_deadlock_violated` (`Conc/WalkDirProps`): **C45 is violated** by an empty path, which is taken for an empty queue: the job is dropped.
* C45 `negative_deadlock_violated` (`Conc/WalkDirProps`): **C45 is violated** by a negative number of workers: there are none, and Walk blocks on the first job.
* C45 `stop_twice_deadlock_violated` (`Conc/WalkDirProps`): **C45 is violated** by a handler that calls Stop twice, with one worker: the second call blocks, and so does Walk.
* C45 `unreadable_deadlock_violated` (`Conc/WalkDirProps`): **C45 is violated** with one worker and a root that cannot be read: the worker returns after sending the error, and Walk blocks on `fin`.
* C46 `double_parse_violated` (`Conc/ParseCacheProps`): **C46 is violated** by two calls that look the key up before either stores its future: both parse.
* C46 `known_panics_violated` (`Conc/ParseCacheProps`): **C46 is violated** by results of other types than `*Parsed`: a call for a key that has been parsed panics.
* C46 `nil_parse_violated` (`Conc/ParseCacheProps`): **C46 is violated** by a nil result, which counts as none: the key is parsed again.
* C46 `two_waiters_violated` (`Conc/ParseCacheProps`): **C46 is violated** for two callers that share a future: one has received the value, and the other never will.
* C47 `empty_stmt_violated` (`Walk/Props`): **C47 is violated** for the empty statement: it has no visitor, and no listener is told of it.
* C47 `fn_dec_violated` (`Walk/Props`): **C47 is violated** for function declarations: the listeners of another node type are called.
* C48 `stop_violated` (`Walk/Props`): **C48 is violated**: the walk of `a + b; c` is stopped on entering the sum, but its first operand is still entered and left, and the listeners for leaving the sum, the statement and the program are still called.
* C49 `for_in_scope_violated` (`Walk/Props`): **C49 is violated** by `for (a in b) {}`: the parser enters a scope for the loop and one for the body, the walker only the second, which has another number than the parser's; every later scope of the program is off by one.
* C49 `while_scope_violated` (`Walk/Props`): **C49 is violated** by `while (function () {}) {}`: the numbers of the loop and of the function are swapped.
* C51 `edges_are_recorded_at_both_ends_violated` (`Graph/CfgProps`): In the graph of `a && b;` an edge leaves the first block for another, which has no incoming edge from the first block.
* C52 `large_hex_violated` (`Lexer/NumValueProps`): **C52 is violated**: `0x100000000` converts to 2^32 - 1.
* C52 `leading_zero_violated` (`Lexer/NumValueProps`): **C52 is violated**: `0.5` converts to 0.
* C53 `first_max_violated` (`Estree/Loc`): **C53 is violated** by a range at the largest offset, which is passed over for an empty one.
* C54 `string_expr_violated` (`Estree/Tpl`): **C54 is violated** by `` `a${"b"}c` ``: the expression becomes a quasi.
* C55 `hole_panics_violated` (`Parser/PatternProps`): **C55 is violated**: `(a = [,])`, arrow or not, panics, and so does `(a = { 5 })`.
* C55 `paren_panics_violated` (`Parser/PatternResidue`): **C55 is violated**: `(a = [,])`, no arrow following, panics.
* C56 `paren_array_violated` (`Parser/PatternResidue`): **C56 is violated**: `({ k: [a] })` has an array pattern for its value.
* C56 `paren_assign_violated` (`Parser/PatternResidue`): **C56 is violated**: `({ k: a = 1 })`, an assignment, has an assignment pattern for its value.
* C56 `paren_shorthand_violated` (`Parser/PatternResidue`): **C56 is violated**: `({ k: { a = 1 } })`, which is no expression, is accepted as one; without the trial `{ a = 1 }` is an error.
* C57 `class_var_panics_violated` (`Parser/SymProps`): **C57 is violated**: `{ class A {} var A; } var A;` makes the parser dereference nil: the first `var` is stored without a scope.
* C58 `static_return_violated` (`Parser/JumpProps`): **C58** is violated: `function f() { class A { static { return } } }` is accepted. (Where there is no function around, the code panics: `static_panic_violated` of C77.)
* C58 `static_return_violated` (`Parser/ProgPlaces`): **C77, violated.** `function f() { class A { static { return; } } }` is accepted.
* C59 `atom_events_violated` (`Walk/Props`): **C59 is violated**: `AddAtomListener` (visitor.go 1004-1008) adds to the node types themselves, which are the numbers of no event: the listener is never called.
* C59 `declaration_events_violated` (`Walk/Props`): **C59 is violated**: no visitor calls the listeners of function and class declarations: the ones of function and class expressions are called instead, so that a listener for the declarations is never called.
* C60 `index_panics_violated` (`Exec/Props`): **C60 is violated** by `[true][1e19]`, where the conversion of a large number gives a negative one, as on amd64.
* C61 `after_inner_violated` (`Astutil/BuildDep`): **C61 is violated** by `function f() { function g() {} a }`: the use of `a` is recorded for `g`.
* C61 `no_init_panics_violated` (`Astutil/BuildDep`): **C61 is violated** by `var a; function f() { a }`: `IsFn` is called with a nil initialiser, which panics.
* C61 `sibling_violated` (`Astutil/BuildDep`): **C61 is violated** by `function f() {} function g() { a }`: `f` depends on `g`, so that it is said to depend on `a`.
* C62 `empty_stmt_contains_violated` (`Astutil/Contains`): **C62 is violated** by the empty statement, which no listener is told of.
* C64 `every_run_is_a_path_violated` (`Graph/CfgProps`): The restriction to tests other than `a ?? b` is needed. In `if (a ?? b) c; else d;` a value of `a` that is false but not absent, like `0`, is the value of the test, so `a` is followed by `d`. No path of the graph goes that way.
* C64 `run_of_each_violated` (`Graph/CfgProps`): In `for (a of b) c;` (and with `in`) `b` is evaluated first and once. In the graph `a` comes before `b`, whose value it is to hold, and `b` is evaluated in each round. So nothing that starts with `b` is a path, and neither is a second round.
* C64 `run_of_for_with_and_violated` (`Graph/CfgProps`): In `for (; a; b && c) d;`, if `b` is false, `a` is evaluated next. In the graph `b` leads to `c` only.
* C64 `run_of_for_with_or_first_violated` (`Graph/CfgProps`): In `for (a || b; c;) d;`, if `a` is true, `c` is evaluated next. In the graph `a` leads to `b` only.
* C64 `run_of_for_with_or_violated` (`Graph/CfgProps`): In `for (; a || b;) c;`, if `a` is true, `c` is run next. In the graph `a` leads to `b` and to the end of the loop only.
* C65 `delete_chain_violated` (`Parser/PostfixProps`): `delete a?.b()` is legal, but makes the parser panic.
* C65 `nested_new_violated` (`Parser/PostfixProps`): `new new a()()`: the second arguments belong to the first `new`; the code makes a call of them.
* C65 `new_optional_violated` (`Parser/PostfixProps`): `new new a()?.b` is no expression, but accepted.
* C65 `new_target_violated` (`Parser/PostfixProps`): `new.target()` and `new.target[0]` are cut off after `new.target`.
* C65 `new_then_template_violated` (`Parser/PostfixProps`): ``new C()`t` `` calls the result of `new C()` with the template; the code constructs ``C`t` ``.
* C65 `optional_call_violated` (`Parser/PostfixProps`): `a?.()()`: the second call is not optional, but flagged so.
* C65 `template_after_new_violated` (`Parser/PostfixProps`): ``new C(x)`t` ``, ``new C().m`t` `` and ``new a.b`t` ``: the template is left over, so the expression is rejected.
* C65 `template_in_chain_violated` (`Parser/PostfixProps`): ``a?.b()`t` `` is an early error, but accepted; only a template directly after a member access is rejected.
* C66 `import_violated` (`Parser/DeclKindProps`): **C66 is violated**: an import never clashes with what is declared before it, `let a; import a from "m"`, although the same two the other way round are rejected.
* C66 `odd_pairs_violated` (`Parser/DeclKindProps`): **C66 is violated** by each pair of `Odd`, in both orders and in every scope.
* C66 `overload_violated` (`Parser/DeclKindProps`): **C66 is violated**: in sloppy code the signature of an overload makes the name free again: `let f; function f(): void; let f;` is accepted.
* C66 `third_declaration_violated` (`Parser/DeclKindProps`): **C66 is violated**: `interface A {} class A {} class A {}` is accepted, the third declaration being compared with the first only.
* C68 `accepted_ctor_violated` (`Parser/ClassBodyProps`): `#constructor(){}` is accepted, and so is a second constructor written with an escape.
* C68 `object_method_violated` (`Parser/ClassBodyProps`): `({ get constructor() {} })` is rejected.
* C68 `private_prototype_violated` (`Parser/ClassBodyProps`): `static #prototype(){}` is rejected and valid.
* C68 `rejected_violated` (`Parser/ClassBodyProps`): Valid and rejected: two static methods called `constructor`, a static getter called `constructor`, a computed `['constructor']` beside the constructor, a field `['constructor']`, a static method `['prototype']`.
* C68 `rejected_violated` (`Parser/TsTypeProps`): Types of TypeScript that are rejected: `F<[A]>`, `F<this>`, `F<typeof x>`, `(...a: A[]) => A`, `(object: A) => A`. Of `A[] extends B ? C : D` only `A[]` is taken, and so it is with `(A) extends B ? C : D`, `() => A extends B ? C : D` and `"a"[]`.
* C68 `shape_violated` (`Parser/ClassBodyProps`): `'get' x(){}` is taken for an accessor, `get x(){}` too when `get` is written with an escape, and `get *x(){}` for a field and a generator.
* C68 `third_accessor_violated` (`Parser/ClassBodyProps`): `get #a(){} set #a(v){} get #a(){}` is accepted.
* C69 `lex_hangs_violated` (`Lexer/ScanProps`): **C69 is violated**: a template with the character U+FFFD after its backquote is never answered, whatever the fuel.
* C70 `alias_violated` (`Walk/ReachProps`): **C70 is violated**: the right hand side of `type a = b` is not reached.
* C70 `annotation_violated` (`Walk/ReachProps`): **C70 is violated**: the type in `let a: b` is not reached, and neither is the name in it.
* C70 `decorators_violated` (`Walk/ReachProps`): **C70 is violated**: decorators are reached by no walk, whatever the tree, though there is an event for them: a listener for decorators is never called, and neither are those for what is in the decorators.
* C70 `namespace_violated` (`Estree/ConvProps`): C73 fails for names with a namespace: the standard has two nodes, the output two strings.
* C70 `namespace_violated` (`Walk/ReachProps`): **C70 is violated**: the two names in `<a:b/>` are not reached.
* C70 `parens_violated` (`Walk/ReachProps`): **C70 is violated**: of the two parentheses in `((a))` only the outer one is reached.
* C71 `async_method_violated` (`Lexer/ModeUseProps`): `{ async m() { await } }`: in an async method `await` is no keyword.
* C71 `await_leak_violated` (`Lexer/ModeUseProps`): `async function f() {} await`: after an async function `await` stays a keyword.
* C71 `directive_block_violated` (`Lexer/ModeUseProps`): `"use strict"; {} 010`: if the next token opens a block the directive acts on that block only.
* C71 `directive_token_violated` (`Lexer/ModeUseProps`): `"use strict"; 010`: the token after the directive is read before the directive takes effect.
* C71 `generator_misread_violated` (`Lexer/ModeUseProps`): `` `${ {a: function*(){}} }` ``: the generator takes the mode of the object's brace off, so the `}` of the object is read as the continuation of the template.
* C71 `generator_strict_violated` (`Lexer/ModeUseProps`): `function* g() {} 010` in strict code: after the generator the code is no longer taken for strict.
* C72 `late_directive_violated` (`Parser/DirectiveProps`): `"a"; b; "c"`: the last statement is reported as a directive.
* C72 `late_octal_violated` (`Parser/DirectiveProps`): `"a"; b; "use strict"; "\01"`: code which is not strict is rejected.
* C72 `late_strict_violated` (`Parser/DirectiveProps`): `"a"; b; "use strict"`: the string is not in the prologue and yet makes the code strict.
* C73 `declareAlias_violated` (`Estree/ConvProps`): C73 fails for `declare type A<T> = T`: the parameters are not written.
* C73 `declareClass_violated` (`Estree/ConvProps`): C73 fails for `declare class`: parameters, arguments of what it extends, what it implements and decorators are not written.
* C73 `declareFunction_violated` (`Estree/ConvProps`): C73 fails for functions without a body: no output says whether there is a `*` or a `declare` before the function, so that `declare function f(): void` is written as `function f(): void` is, for the same range.
* C73 `directive_violated` (`Estree/ConvProps`): C73 fails for directives with an escape: the standard has the text in the source, the output its value. `'use\x20strict'`, which by the standard does not make code strict, is written as the directive `use strict`.
* C73 `droppedDecorators_violated` (`Estree/ConvProps`): C73 fails for decorators before patterns and class expressions: they are not written.
* C73 `exportTypeAll_violated` (`Estree/ConvProps`): C73 fails for `export type * from "a"`: it is written as `export * from "a"` is.
* C73 `optionalPattern_violated` (`Estree/ConvProps`): C73 fails for `({a}?: T) => 0`: that the pattern is optional is not written.
* C73 `readonlyKey_violated` (`Estree/ConvProps`): C73 fails for `readonly` before a key `[a.b]` in a type: it is not written.
* C73 `regexp_violated` (`Estree/ConvProps`): C73 fails for regular expressions: the standard has their text in `regex`, the output in `regexp`, so that every one of them is read as `null`.
* C73 `require_violated` (`Estree/ConvProps`): C73 fails for `import a = require("b", c)`: the second argument is not written.
* C73 `sourceType_violated` (`Estree/ConvProps`): C73 fails for whether a program is a script or a module: no output says either.
* C73 `stringKey_violated` (`Estree/ConvProps`): C73 fails for the type `{ "a": T }`: the key is taken for a name and the conversion panics.
* C73 `templateArgs_violated` (`Estree/ConvProps`): C73 fails for ``f<T>()`x` ``: the arguments of the call are written for the template too.
* C74 `after_if_violated` (`Lexer/SlashProps`): `if (a) {} /re/`: after the block the parser looks for `else` (parser.go 2178) without saying that a statement may begin, and a division is read; the same after `catch` (parser.go 1849).
* C74 `in_violated` (`Lexer/SlashProps`): `a in /re/`: the word `in` is a name to the lexer, and a division is read.
* C74 `literal_violated` (`Lexer/SlashProps`): `null / 2`, also `true` and `false`: a regular expression is read.
* C74 `member_violated` (`Lexer/SlashProps`): `a.default / 2`, also other words: a regular expression is read.
* C74 `span_violated` (`Lexer/SlashProps`): A regular expression in the second place of a template.
* C74 `stale_violated` (`Lexer/SlashProps`): `x ? /re/ : y` as a statement of TypeScript: `aheadIsLabel` (parser.go 1931-1937) reads `?` ahead, then `x` is taken, and `advanceIfHook` (parser.go 4180-4196) reads the slash as if it came after `x`.
* C74 `template_violated` (`Lexer/SlashProps`): A template divided by a number.
* C75 `update_op_violated` (`Lexer/AliasProps`): `++a.b.c.d;`: the operator of the node is the semicolon.
* C76 `accessor_violated` (`Parser/ProgAccounts`): **C76, violated.** `x = {"get" y() {}}` is read as `x = {get y() {}}`.
* C76 `async_fn_violated` (`Parser/ProgAccounts`): The other exceptions also occur: `async (x) {}`.
* C76 `async_name_violated` (`Parser/ProgAccounts`): **C76, violated.** `async f(a);` is read as `async(a);`: the name `f` is in no tree.
* C76 `async_product_violated` (`Parser/ProgAccounts`): **C76, violated.** `async * f(x);` is read as `async * x;`.
* C76 `computed_init_violated` (`Parser/ProgAccounts`): `let {[a] = 1} = b` has the tree of `let {a = 1} = b`.
* C76 `export_async_violated` (`Parser/ProgAccounts`): `export async x => x` is accepted: what is exported is not a declaration.
* C76 `fn_expr_violated` (`Parser/ProgAccounts`): `x = function() 1`.
* C76 `import_comma_violated` (`Parser/ProgAccounts`): `import {a b} from "x"` has the tree of `import {a, b} from "x"`.
* C76 `import_from_violated` (`Parser/ProgAccounts`): `import a "x"` has the tree of `import a from "x"`.
* C76 `import_operator_violated` (`Parser/ProgAccounts`): `!import("a") + b` is read as `!(import("a") + b)`.
* C76 `import_semicolon_violated` (`Parser/ProgAccounts`): `x = [import("a");]` is accepted: the semicolon is taken.
* C76 `import_statement_violated` (`Parser/ProgAccounts`): `import("a"); b` on one line is rejected: the semicolon was taken for a part of the expression.
* C76 `import_two_violated` (`Parser/ProgAccounts`): `import {a}, {b} from "x"` is accepted.
* C76 `new_template_violated` (`Parser/ProgAccounts`): ``new C()`t` `` has the tree of ``new C`t` ``.
* C76 `unnamed_method_violated` (`Parser/ProgAccounts`): `class A { () {} }` is accepted: a method without a name.
* C77 `async_export_violated` (`Parser/ProgPlaces`): **C77, violated.** `async(x); export var b;` is an error: the scope of the call has not been left.
* C77 `async_panic_violated` (`Parser/ProgPlaces`): **C77, violated.** `while (1) async(x); continue;` is a panic.
* C77 `async_return_violated` (`Parser/ProgPlaces`): **C77, violated.** `async(x); return 1;` is accepted.
* C77 `async_star_violated` (`Parser/ProgPlaces`): **C77, violated.** `async *(x) => { yield x; }` is accepted.
* C77 `import_block_violated` (`Parser/ProgPlaces`): **C77, violated.** `{ import a from "b" }` is accepted.
* C77 `key_yield_violated` (`Parser/ProgPlaces`): **C77, violated.** `x = {*[yield]() {}}` is accepted.
* C77 `static_panic_violated` (`Parser/ProgPlaces`): **C77, violated.** `class A { static { return; } }` is a panic.
* C77 `static_panic_violated` (`Parser/RetsProps`): **C85, violated.** `class A { static { return } }` is a panic.
* C79 `box_value_violated` (`Parser/JsxProps`): **C79** (negative) The value of an attribute may be empty braces or `{...x}`.
* C79 `comment_violated` (`Parser/JsxProps`): **C79** (negative) Block comments in tags are rejected.
* C79 `dropped_violated` (`Parser/JsxProps`): **C79** (negative) An element after a name is taken for type arguments and is lost.
* C79 `element_value_violated` (`Parser/JsxProps`): **C79** (negative) After an element as the value of an attribute the next token is read as one outside of tags: a name with a hyphen and `>>` are rejected.
* C79 `hangs_violated` (`Parser/JsxProps`): **C79** (negative) Reading does not end: with a `}` between the tags the loop over the children goes on for ever.
* C79 `keyword_name_violated` (`Parser/JsxProps`): **C79** (negative) Names in JSX may be keywords; they are rejected.
* C79 `missing_value_violated` (`Parser/JsxProps`): **C79** (negative) An attribute with a `=` and no value is accepted; what should be the value is another attribute.
* C80 `accepted_violated` (`Parser/TsTypeProps`): Accepted though no types: `[A B]`, `(A?)`, `(A,)`, `()`, `<T>(A)`, `F<A,>`, `F<T extends A>`, `A "is"` (of which the string is left).
* C80 `argument_lost_violated` (`Parser/TsTypeProps`): In type arguments all members of a union but the first are lost: `Array<A | B>` is read as `Array<A>`.
* C80 `brackets_lost_violated` (`Parser/TsTypeProps`): Of the parameter in `(a[]: A) => B` the brackets are lost.
* C80 `cond_member_violated` (`Parser/TsTypeProps`): `A | B extends C ? D : E` is read as `A | (B extends C ? D : E)`.
* C80 `crash_violated` (`Parser/TsTypeProps`): `import("m")<const<b>>` ends in a crash.
* C80 `leading_lost_violated` (`Parser/TsTypeProps`): With an operator before the first member all but the last are lost: `| A | B` is read as `B`.
* C80 `line_violated` (`Parser/ModsProps`): **C87, violated.** `class A { static readonly⏎x; }` has two fields, `readonly` and `x`; one static field `x` is read, and the word `readonly` is gone.
* C80 `line_violated` (`Parser/TsTypeProps`): A `[` on the next line is taken after a type in parentheses, and not after a name.
* C80 `priority_violated` (`Parser/TsTypeProps`): `A & (B) | C` is read as `A & (B | C)`, and `keyof A | B` as `keyof (A | B)`.
* C81 `async_star_range_violated` (`Parser/RngProps`): The right operand begins where the left one does.
* C81 `computed_default_range_violated` (`Parser/RngProps`): The property, which there is none of in the language, begins after the bracket.
* C81 `dot_name_range_violated` (`Parser/RngProps`): The name after a dot begins where the dot ends, before the white space.
* C81 `tagged_range_violated` (`Parser/RngProps`): A template with a tag does not begin where its tag does, and an expression that begins with such a template does not either.
* C82 `last_comment_violated` (`Parser/CmtsProps`): `a; ⏎ /*c*/` : a comment on its own line at the end is reported for no node.
* C82 `object_comment_violated` (`Parser/CmtsProps`): `x = /*a*/ {} /*b*/;` : the comment before the object is lost when the one after it is reported, as one before it.
* C82 `side_violated` (`Parser/CmtsProps`): `a /*c*/;` : the comment follows the name, it is reported as one that precedes it.
* C82 `third_comment_violated` (`Parser/CmtsProps`): `a; ⏎ /*1*/ /*2*/ /*3*/ b;` : of three comments between two statements on the line of the second, the third is reported for the first statement.
* C82 `ts_comment_violated` (`Parser/CmtsProps`): `a < /*c*/ b;` in TypeScript: the comment is reported twice.
* C83 `async_super_call_violated` (`Parser/SuperProps`): **C83, violated.** `class A extends B { constructor() { (async () => { super() })() } }` is an error: the scope is entered before it is known to be that of an arrow function.
* C83 `inner_super_call_violated` (`Parser/SuperProps`): **C83, violated.** `class A extends B { m() { class C { constructor() { super() } } } }` is accepted, though `C` has no `extends`.
* C83 `new_super_violated` (`Parser/SuperProps`): **C83, violated.** `class A { m() { new super() } }` is accepted.
* C83 `super_after_key_violated` (`Parser/SuperProps`): **C83, violated.** `class A { [[{ [a]: 1 }, super.x]]() {} }` is accepted: the flag is taken away by the inner key.
* C83 `super_in_arrow_violated` (`Parser/SuperProps`): **C83, violated.** `x = { m() { return () => super.x } }` is an error.
* C83 `super_in_function_violated` (`Parser/SuperProps`): **C83, violated.** `class A { m() { function f() { super.x } } }` is accepted.
* C83 `super_in_key_violated` (`Parser/SuperProps`): **C83, violated.** `class A { [(super.x)]() {} }` is accepted: the flag of computed keys is not that of the parentheses.
* C83 `super_in_object_key_violated` (`Parser/SuperProps`): **C83, violated.** `class A { m() { return { [super.x]: 1 } } }` is an error.
* C83 `super_in_parens_violated` (`Parser/SuperProps`): **C83, violated.** `x = { m() { return (super.x) } }` is an error, as is `super.x` in a block of the method.
* C83 `super_index_violated` (`Parser/SuperProps`): **C83, violated.** `class A { m() { super[x] } }` is an error.
* C83 `target_in_arrow_violated` (`Parser/SuperProps`): **C83, violated.** `let y = () => () => new.target` and `let y = () => { { new.target } }` are accepted, though `() => new.target` is not.
* C83 `target_in_key_violated` (`Parser/SuperProps`): **C83, violated.** `class A { [new.target]() {} }` is accepted.
* C84 `await_class_violated` (`Parser/BindProps`): **C84, violated.** `class await {}` in a module is accepted.
* C84 `await_expression_violated` (`Parser/BindProps`): **C84, violated.** So is `async function f() { (function await() {}) }`: a function expression binds its name inside of itself.
* C84 `await_function_violated` (`Parser/BindProps`): **C84, violated.** `function await() {}` in a module is accepted.
* C84 `await_import_violated` (`Parser/BindProps`): **C84, violated.** `import * as await from "m"` in a module is accepted.
* C84 `await_inner_violated` (`Parser/BindProps`): **C84, violated.** `async function f() { function g() { var await } }` is refused in a script: the lexer is still in the mode of `f`.
* C84 `const_bound_violated` (`Parser/BindProps`): **C84, violated.** `var const` in sloppy code is accepted.
* C84 `escaped_let_violated` (`Parser/BindProps`): **C84, violated.** An escape hides the name: `let l\u0065t` is accepted.
* C84 `eval_class_violated` (`Parser/BindProps`): **C84, violated.** `class eval {}` is accepted.
* C84 `eval_function_violated` (`Parser/BindProps`): **C84, violated.** `function eval() { "use strict" }` is accepted.
* C84 `eval_import_violated` (`Parser/BindProps`): **C84, violated.** `import { eval } from "m"` in a module is accepted.
* C84 `in_bound_violated` (`Parser/BindProps`): **C84, violated.** `var in`: `in` is no keyword to the lexer is accepted.
* C84 `keyword_catch_violated` (`Parser/BindProps`): **C84, violated.** `try {} catch ({ if }) {}` is accepted.
* C84 `private_catch_violated` (`Parser/BindProps`): **C84, violated.** `try {} catch (private) {}` in strict code is accepted.
* C84 `private_class_violated` (`Parser/BindProps`): **C84, violated.** `class private {}` is accepted.
* C84 `private_function_violated` (`Parser/BindProps`): **C84, violated.** `function private() {}` in strict code is accepted.
* C84 `private_parameter_violated` (`Parser/BindProps`): **C84, violated.** `function f(private) { "use strict" }` is accepted.
* C84 `yield_expression_violated` (`Parser/BindProps`): **C84, violated.** `(function* yield() {})` is accepted.
* C84 `yield_parameter_violated` (`Parser/BindProps`): **C84, violated.** `function* g(yield) {}` is accepted.
* C84 `yield_variable_violated` (`Parser/BindProps`): **C84, violated.** `function* g() { var yield }` is accepted.
* C85 `async_violated` (`Parser/RetsProps`): **C85, violated.** `function g() { function f() { return 1; async(x) } return 2 }`: `f` is said to have no return statement, and `g` to have both.
* C85 `static_violated` (`Parser/DecoProps`): **C89, violated.** In TypeScript a static block is given decorators: `class A { @d static {} }`.
* C85 `static_violated` (`Parser/RetsProps`): **C85, violated.** `function f() { class A { static { return } } }`: it is accepted, and `f` is said to have a return statement.
* C85 `throw_violated` (`Parser/RetsProps`): **C85, violated.** `try { f(() => { throw 1 }) } catch {}`: the target is the try statement, though the function may be called later.
* C86 `compound_violated` (`Parser/ObjLitProps`): **C86, violated.** In an argument a pattern may stand before any assignment operator: `f({a = 1} += 1)` is accepted.
* C86 `default_violated` (`Parser/ObjLitProps`): **C86, violated.** The default of a property of a pattern is not checked: `({a = {a = 1}} = b)` is accepted.
* C86 `for_violated` (`Parser/ObjLitProps`): **C86, violated.** Before the first `;` of `for` a default is let through: `for ({a = 1};;)` is accepted.
* C86 `init_violated` (`Parser/ObjLitProps`): **C86, violated.** Nothing is checked of an initializer, nor behind a comma: `var x = {a = 1}`, `var x = {__proto__: a, __proto__: b}` and `x, {a = 1}` are accepted.
* C86 `key_violated` (`Parser/ObjLitProps`): **C86, violated.** A key that is no name is taken with a default in a pattern, `({[a] = 1} = b)`, and alone in a literal, `({5})`.
* C86 `nested_violated` (`Parser/ObjLitProps`): **C86, violated.** In parentheses the values of properties have been made patterns before they are checked, so `({x: {a = 1}})` and `({x: {__proto__: a, __proto__: b}})` are accepted; without parentheses, as an argument, they are refused.
* C86 `operand_violated` (`Parser/ObjLitProps`): **C86, violated.** Nothing is checked of an operand: the statements `!{a = 1}`, `a + {__proto__: a, __proto__: b}` and `[...{a = 1}]` are accepted.
* C86 `target_violated` (`Parser/ObjLitProps`): **C86, violated.** `for ({__proto__: a, __proto__: b} of c)` is refused, though a pattern stands there.
* C87 `access_name_violated` (`Parser/ModsProps`): **C87, violated.** In `class A { private; }` the field named `private` is said to be private.
* C87 `access_order_violated` (`Parser/ModsProps`): **C87, violated.** `abstract class A { readonly public abstract x; }` is accepted: the order of an access modifier and `readonly` is not looked at if `abstract` is there, too.
* C87 `block_word_violated` (`Parser/ModsProps`): **C87, violated.** `class A { static readonly⏎{} }` is accepted as a static block, and the word `readonly`, a field by the line break behind it, is lost.
* C87 `declare_private_violated` (`Parser/ModsProps`): **C87, violated.** `class A { declare #k; }` is accepted.
* C87 `method_line_violated` (`Parser/ModsProps`): **C87, violated.** `class A { readonly m⏎() {} }` is accepted, though `readonly m() {}` is not.
* C87 `method_modifier_violated` (`Parser/ModsProps`): **C87, violated.** `class A { readonly [k]() {} }` and `class A { declare *g() {} }` are accepted.
* C87 `nameless_violated` (`Parser/ModsProps`): **C87, violated.** `class A { () {} }` is accepted: a method without a name.
* C87 `optional_violated` (`Parser/ModsProps`): **C87, violated.** `class A { readonly? x; }` is accepted as two fields.
* C87 `private_abstract_violated` (`Parser/ModsProps`): **C87, violated.** `abstract class A { private abstract x; }` is accepted.
* C87 `readonly_lost_violated` (`Parser/ModsProps`): **C87, violated.** `class A { readonly declare() {} }` is accepted, and the method is not said to be `readonly`.
* C87 `separator_violated` (`Parser/ModsProps`): **C87, violated.** `class A { [k] x; }` is accepted: nothing need be between the two.
* C87 `static_field_violated` (`Parser/ModsProps`): **C87, violated.** `class A { static readonly = 1 }` is rejected.
* C87 `static_lost_violated` (`Parser/ModsProps`): **C87, violated.** In `class A { static readonly() {} }` the method is not static.
* C88 `ambient_violated` (`Parser/OverloadProps`): **C88, violated.** `declare function f(): void; function g() {}` is rejected.
* C88 `forgotten_violated` (`Parser/OverloadProps`): **C88, violated.** The signature is never forgotten: `function f(): void; function f() {} function g() {}` is rejected.
* C88 `inside_violated` (`Parser/OverloadProps`): **C88, violated.** `function f(): void; function f() { return {m() {}} }` is rejected, too: the method is taken for the implementation.
* C88 `missing_violated` (`Parser/OverloadProps`): **C88, violated.** `function f(): void;` alone is accepted, and so is one in front of other statements.
* C88 `panic_violated` (`Parser/OverloadProps`): **C88, violated.** `function f(): void; function f() {} export default function () {}` is right, and a panic; so is a method named by a string, and a function without a name before one on the next line: `export default function (): void⏎function f() {}` (which is wrong).
* C88 `replaced_violated` (`Parser/OverloadProps`): **C88, violated.** `function f(): void; function g(): void; function g() {}` is accepted.
* C89 `body_violated` (`Parser/DecoProps`): **C89, violated.** A method with decorators is rejected if there is a statement in its body: `class A { @d m() { x; } }`.
* C89 `end_violated` (`Parser/DecoProps`): **C89, violated.** Decorators at the end of the program are accepted and lost: `x; @d`.
* C89 `field_panic_violated` (`Parser/DecoProps`): **C89, violated.** A field with a decorator stops the parser with a panic unless TypeScript is on, though decorators are on by default: `class A { @d x = 1 }`.
* C89 `field_stolen_violated` (`Parser/DecoProps`): **C89, violated.** So it is with a class in a field: `class A { @d x = class {} }`.
* C89 `lost_violated` (`Parser/DecoProps`): **C89, violated.** Decorators are lost if a `;` and others are behind them: `class A { @a; @b m() {} }`.
* C89 `outwards_violated` (`Parser/DecoProps`): **C89, violated.** Decorators at the end of the body of a method become those of the method: `class A { m() { @d } }`; and those at the end of a class expression are given to the class behind it: `(class { @d }, class {})`.
* C89 `statement_violated` (`Parser/DecoProps`): **C89, violated.** Decorators before a function are accepted if it begins with a class: `@d function f() { class A {} }`; and so are those before any expression with a class in it, `@d f(class {})`.
* C89 `stolen_violated` (`Parser/DecoProps`): **C89, violated.** It is accepted if the first thing in it is a class; but then that gets the decorators: `class A { @d m() { class B {} } }`.
* C90 `compared_call_violated` (`Parser/LessProps`): **C90, violated.** `a < b<c>(d)`, a comparison with the result of a call, is read as `a < b < c > (d)`, three comparisons: the trial at the first `<` fails behind `b<c>`, but the one error value the parser has for this now holds the place of the second `<` (ts.go 1750), which is taken for an operator from then on.
* C90 `greater_violated` (`Parser/LessProps`): **C90, violated.** `a < b > c` is rejected: behind type arguments only `(` will do, and the trial is not given up.
* C90 `later_argument_violated` (`Parser/LessProps`): **C90, violated.** So is a comparison with such a subscript in a later argument: `f(a < b, c[i + 1])`.
* C90 `optional_less_violated` (`Parser/LessProps`): **C90, violated.** `a?.b < c` is rejected: behind a `?.` the trial is not given up, and its error is that of the expression (parser.go 4641).
* C90 `subscript_violated` (`Parser/LessProps`): **C90, violated.** `a[i] < a[i + 1]` is rejected: `a[i + 1]` is begun as an indexed type, and the error in it is not one that the trial is given up for.
* C90 `two_arguments_violated` (`Parser/LessProps`): **C90, violated.** So is a call with two comparisons, `f(a < b, c > d)`.
* C90 `unclosed_violated` (`Parser/LessProps`): **C90, violated.** `f(a?.b < c`, without the `)`, is accepted as `f < c`: the error of the comparison inside the arguments is taken for one of `f` by `callExpr` 4641, and the state it goes back to is not its own, but what the trial inside has left on the stack (ts.go 1616). With the `)` it is rejected.

## Axioms

From `#print axioms` on every theorem of MANIFEST.json.

* **no axioms** (44 theorems): `Lexer.full_eof_violated`, `Parser.Semi.throw_operand`, `Parser.Semi.jump_label`, `Parser.Semi.comma_violated`, `Parser.Semi.export_default_violated`, `Parser.Semi.field_end_violated`, `Parser.Semi.return_semis_violated`, `Parser.Sym.class_redeclared_violated`, `Parser.Sym.class_expr_violated`, `Parser.Sym.top_fn_var_violated`, `Parser.Sym.strict_fn_violated`, `Parser.Sym.block_fn_violated`, `Parser.Sym.catch_var_violated`, `Util.lru_capacity_violated`, `Util.lru_list_overflow_violated`, `Util.lru_small_capacity_violated`, `Util.Json.replacement_char_violated`, `Util.Json.block_linefeed_violated`, `Util.Json.non_ascii_violated`, `Util.Json.crlf_violated`, `Util.Json.fixpoint_violated`, `Walk.fn_dec_violated`, `Walk.stop_violated`, `Lexer.parseFloat_zero`, `Parser.Sym.class_var_panics_violated`, `Walk.declaration_events_violated`, `Parser.Sym.Merging.import_violated`, `Parser.Sym.Merging.overload_violated`, `Parser.Cls.shape_violated`, `Walk.parens_violated`, `Walk.namespace_violated`, `Lexer.ModeUse.generator_misread_violated`, `Lexer.ModeUse.generator_strict_violated`, `Lexer.ModeUse.directive_token_violated`, `Lexer.ModeUse.await_leak_violated`, `Lexer.ModeUse.async_method_violated`, `Parser.Directive.late_directive_violated`, `Parser.Cmts.side_violated`, `Parser.Cmts.third_comment_violated`, `Parser.Cmts.ts_comment_violated`, `Parser.Rets.async_violated`, `Parser.Rets.static_violated`, `Parser.Rets.static_panic_violated`, `Parser.Rets.throw_violated`
* **propext** (173 theorems): `Span.lineCol_reversed_panics`, `Lexer.rewind_flag_violated`, `Lexer.rewind_repush_violated`, `Lexer.surrogate_violated`, `Lexer.strText_partial`, `Lexer.template_hangs_violated`, `Lexer.newline_before_comment_violated`, `Lexer.newline_in_comment_violated`, `Parser.precedence_violated`, `Parser.precedence_arith_violated`, `Parser.Semi.semi_iff_partial`, `Parser.Semi.return_line`, `Parser.Semi.return_operand`, `Parser.Semi.throw_line`, `Parser.Sym.scope_number_violated`, `Parser.Sym.try_break_violated`, `Parser.Sym.continue_block_violated`, `Parser.Sym.else_label_violated`, `Parser.Sym.label_twice_violated`, `Parser.Pat.arrow_dup_violated`, `Parser.Sym.switch_default_partial`, `Parser.Sym.two_defaults_violated`, `Parser.Sym.import_redeclared_partial`, `Parser.Sym.import_twice_violated`, `Parser.Pat.paren_member_violated`, `Parser.Pat.double_paren_violated`, `Parser.Pat.rest_member_violated`, `Parser.Pat.op_pattern_violated`, `Parser.Pat.update_operand_violated`, `Parser.Pat.arrow_params_same`, `Parser.Pat.arrow_params_names`, `Parser.Pat.member_bound_violated`, `Parser.Pat.paren_bound_violated`, `Parser.Pat.nested_default_violated`, `Parser.Pat.function_default_violated`, `Parser.Pat.computed_default_violated`, `Util.Json.string_end_violated`, `Util.mergeMaps_aliasing_violated`, `Util.flatten_collision_violated`, `Util.getByPath_slice_violated`, `Util.includes_iff`, `Conc.negative_deadlock_violated`, `Conc.Cache.known_panics_violated`, `Conc.Cache.double_parse_violated`, `Conc.Cache.nil_parse_violated`, `Walk.brackets_once`, `Walk.empty_stmt_violated`, `Walk.for_in_scope_violated`, `Walk.while_scope_violated`, `Estree.first_max_violated`, `Parser.Pat.paren_no_panic_partial`, `Parser.Pat.paren_panics_violated`, `Parser.Pat.hole_panics_violated`, `Parser.Pat.paren_same_partial`, `Parser.Pat.paren_content`, `Parser.Pat.paren_array_violated`, `Parser.Pat.paren_assign_violated`, `Parser.Pat.paren_shorthand_violated`, `Parser.Sym.static_return_violated`, `Parser.Postfix.delete_chain_violated`, `Parser.Sym.Merging.third_declaration_violated`, `Parser.Cls.shape_iff_partial`, `Parser.Cls.third_accessor_violated`, `Parser.Cls.accepted_ctor_violated`, `Parser.Cls.object_method_violated`, `Lexer.ModeUse.directive_block_violated`, `Lexer.Slash.slash_after`, `Lexer.Slash.slash_at_begin`, `Lexer.Slash.literal_violated`, `Lexer.Slash.template_violated`, `Lexer.Slash.span_violated`, `Lexer.Slash.unary_violated`, `Lexer.Slash.member_violated`, `Lexer.Slash.in_violated`, `Lexer.Slash.after_if_violated`, `Lexer.Slash.stale_violated`, `Lexer.Alias.update_op_violated`, `Parser.Prog.async_name_violated`, `Parser.Prog.async_product_violated`, `Parser.Prog.accessor_violated`, `Parser.Prog.async_fn_violated`, `Parser.Prog.fn_expr_violated`, `Parser.Prog.new_template_violated`, `Parser.Prog.computed_init_violated`, `Parser.Prog.unnamed_method_violated`, `Parser.Prog.import_semicolon_violated`, `Parser.Prog.import_statement_violated`, `Parser.Prog.import_operator_violated`, `Parser.Prog.import_from_violated`, `Parser.Prog.import_comma_violated`, `Parser.Prog.import_two_violated`, `Parser.Prog.export_async_violated`, `Parser.Prog.try_break_violated`, `Parser.Prog.key_yield_violated`, `Parser.Prog.async_return_violated`, `Parser.Prog.async_star_violated`, `Parser.Prog.async_panic_violated`, `Parser.Prog.static_return_violated`, `Parser.Prog.static_panic_violated`, `Parser.Prog.import_block_violated`, `Parser.Prog.async_export_violated`, `Parser.TsType.types_no_crash_partial`, `Parser.TsType.crash_violated`, `Parser.TsType.argument_lost_violated`, `Parser.TsType.leading_lost_violated`, `Parser.TsType.priority_violated`, `Parser.TsType.cond_member_violated`, `Parser.TsType.rejected_violated`, `Parser.TsType.accepted_violated`, `Parser.TsType.brackets_lost_violated`, `Parser.TsType.line_violated`, `Parser.Super.super_in_function_violated`, `Parser.Super.super_in_key_violated`, `Parser.Super.super_after_key_violated`, `Parser.Super.super_in_object_key_violated`, `Parser.Super.super_in_parens_violated`, `Parser.Super.super_in_arrow_violated`, `Parser.Super.super_index_violated`, `Parser.Super.new_super_violated`, `Parser.Super.inner_super_call_violated`, `Parser.Super.async_super_call_violated`, `Parser.Super.target_in_arrow_violated`, `Parser.Super.target_in_key_violated`, `Parser.Pat.init_violated`, `Parser.Pat.operand_violated`, `Parser.Pat.nested_violated`, `Parser.Pat.default_violated`, `Parser.Pat.key_violated`, `Parser.Pat.compound_violated`, `Parser.Pat.for_violated`, `Parser.Pat.target_violated`, `Parser.Mods.block_word_violated`, `Parser.Mods.access_order_violated`, `Parser.Mods.private_abstract_violated`, `Parser.Mods.access_name_violated`, `Parser.Mods.static_lost_violated`, `Parser.Mods.readonly_lost_violated`, `Parser.Mods.static_field_violated`, `Parser.Mods.line_violated`, `Parser.Mods.separator_violated`, `Parser.Mods.method_modifier_violated`, `Parser.Mods.method_line_violated`, `Parser.Mods.declare_private_violated`, `Parser.Mods.nameless_violated`, `Parser.Mods.optional_violated`, `Parser.Overload.plain_accepted_partial`, `Parser.Overload.named_no_panic_partial`, `Parser.Overload.forgotten_violated`, `Parser.Overload.inside_violated`, `Parser.Overload.ambient_violated`, `Parser.Overload.missing_violated`, `Parser.Overload.replaced_violated`, `Parser.Overload.panic_violated`, `Parser.Deco.undecorated_partial`, `Parser.Deco.no_panic_partial`, `Parser.Deco.field_panic_violated`, `Parser.Deco.body_violated`, `Parser.Deco.stolen_violated`, `Parser.Deco.field_stolen_violated`, `Parser.Deco.statement_violated`, `Parser.Deco.end_violated`, `Parser.Deco.lost_violated`, `Parser.Deco.static_violated`, `Parser.Deco.outwards_violated`, `Parser.Less.show_written`, `Parser.Less.call_preferred`, `Parser.Less.optional_less_violated`, `Parser.Less.unclosed_violated`, `Parser.Less.subscript_violated`, `Parser.Less.later_argument_violated`, `Parser.Less.greater_violated`, `Parser.Less.two_arguments_violated`, `Parser.Less.compared_call_violated`
* **Quot.sound, propext** (147 theorems): `Span.lookahead_predicts`, `Span.advanceIf_eq`, `Span.push_pop_restores`, `Span.ofstLineCol_eq`, `Span.lineCol_eq`, `Span.lineOf_mono`, `Lexer.tokensBuf_fifo`, `Lexer.rewind_partial`, `Lexer.modes_step`, `Lexer.modes_nonempty`, `Lexer.isMode_iff`, `Lexer.popMode_bottom`, `Lexer.readEscapeSeq_tpl`, `Lexer.readStr_terminates`, `Lexer.unicode_name_chars`, `Lexer.lineComment_eq`, `Lexer.second_reference`, `Parser.binExpr_grouped_iff_partial`, `Parser.grouped_unique`, `Parser.good_two`, `Parser.good_falling`, `Parser.good_rising`, `Parser.binExpr_yield`, `Parser.Sym.declarations_accepted`, `Parser.Sym.declarations_iff_partial`, `Parser.Sym.deep_var_violated`, `Parser.Sym.binding_nearest`, `Parser.Sym.balanced_returns`, `Parser.Sym.scope_numbers_partial`, `Parser.Sym.scope_table_partial`, `Parser.Sym.jumps_no_panic`, `Parser.Pat.params_error_iff`, `Parser.Pat.params_dup_iff`, `Parser.Sym.checkExp_iff_partial`, `Parser.Sym.module_exports_partial`, `Parser.Sym.star_as_twice_violated`, `Parser.assign_shape`, `Parser.Pat.update_operand_iff_partial`, `Parser.Pat.arrow_defaults_partial`, `Parser.Pat.target_defaults_partial`, `Parser.Pat.default_accepted_iff`, `Exec.select_covers`, `Exec.select_partial`, `Exec.operator_twice_violated`, `Astutil.isFnDepsOnNode_iff`, `Astutil.isFnDepsOnNode_ends`, `Util.lru_never_forgets`, `Util.lru_get_last_set`, `Util.orderedMap_refines`, `Util.mergeMaps_append`, `Util.getByPath_leaf_partial`, `Util.removeAt_perm`, `Util.copySlice_eq`, `Util.mergeSets_lookup`, `Util.cloneMap_lookup`, `Util.takeOne_spec`, `Conc.walk_at_most_once`, `Conc.unreadable_deadlock_violated`, `Conc.stop_twice_deadlock_violated`, `Conc.blank_deadlock_violated`, `Walk.walk_calls_partial`, `Walk.walk_visits_partial`, `Walk.visitors_cover`, `Walk.stop_partial`, `Walk.walk_scopes_partial`, `Walk.scope_numbers_partial`, `Cfg.edges_are_recorded_at_both_ends_violated`, `Lexer.parseFloat_decimal_partial`, `Estree.tpl_convert_partial`, `Estree.tpl_parse`, `Parser.Pat.paren_accepted_iff_partial`, `Parser.Pat.paren_shorthand_rejected`, `Parser.Sym.declare_no_panic_partial`, `Walk.events_distinct`, `Astutil.build_captures_partial`, `Astutil.build_depends_partial`, `Astutil.build_uses_partial`, `Astutil.build_no_panic_partial`, `Astutil.after_inner_violated`, `Astutil.sibling_violated`, `Astutil.no_init_panics_violated`, `Astutil.contains_sound`, `Astutil.contains_iff_partial`, `Astutil.empty_stmt_contains_violated`, `Cfg.every_run_is_a_path_violated`, `Cfg.run_of_for_with_or_violated`, `Cfg.run_of_for_with_and_violated`, `Cfg.run_of_for_with_or_first_violated`, `Cfg.run_of_each_violated`, `Parser.Postfix.grammar_unambiguous`, `Parser.Postfix.postfix_grouping_partial`, `Parser.Postfix.new_then_template_violated`, `Parser.Postfix.template_after_new_violated`, `Parser.Postfix.nested_new_violated`, `Parser.Postfix.new_optional_violated`, `Parser.Postfix.optional_call_violated`, `Parser.Postfix.template_in_chain_violated`, `Parser.Postfix.new_target_violated`, `Parser.Postfix.delete_err_iff`, `Parser.Sym.Merging.two_declarations_partial`, `Parser.Sym.Merging.later_against_first`, `Parser.Sym.Merging.compatible_accepted_partial`, `Parser.Sym.Merging.odd_pairs_violated`, `Parser.Pvt.private_names`, `Parser.Cls.object_method_partial`, `Parser.Cls.private_prototype_violated`, `Walk.decorators_violated`, `Walk.annotation_violated`, `Walk.alias_violated`, `Lexer.ModeUse.braces_partial`, `Lexer.ModeUse.strict_partial`, `Lexer.ModeUse.await_partial`, `Lexer.ModeUse.no_async`, `Parser.Directive.block_directives`, `Lexer.Alias.direct_lost`, `Parser.Prog.program_ends`, `Parser.Prog.program_depth`, `Parser.TsType.union_meaning`, `Parser.Rng.tagged_range_violated`, `Parser.Rng.dot_name_range_violated`, `Parser.Rng.async_star_range_violated`, `Parser.Rng.computed_default_range_violated`, `Parser.Cmts.reported_once`, `Parser.Cmts.reported_in_order`, `Parser.Cmts.reported_partial`, `Parser.Cmts.program_reported_partial`, `Parser.Cmts.statement_comments`, `Parser.Cmts.last_comment_violated`, `Parser.Cmts.object_comment_violated`, `Parser.Super.arrow_target_rejected_partial`, `Parser.Rets.returns_partial`, `Parser.Rets.recorded_partial`, `Parser.Rets.stacks_partial`, `Parser.Pat.accepted_fine_partial`, `Parser.Overload.accepted_iff_partial`, `Parser.Overload.single_accepted_partial`, `Parser.Overload.wrong_name_rejected_partial`, `Parser.Overload.wrong_method_rejected_partial`, `Parser.Deco.decorators_read_partial`, `Parser.Deco.none_invented_partial`, `Parser.Deco.class_decorated_partial`, `Parser.Less.generic_read_partial`, `Parser.Less.accepted_written_partial`, `Parser.Less.javascript_read_partial`, `Parser.Less.written_unique`, `Parser.Less.same_tree_partial`, `Parser.Less.no_panic_partial`
* **Classical.choice, Quot.sound, propext** (233 theorems): `Span.decode_text`, `Span.source_position`, `Span.read_next`, `Span.readAll_eq`, `Span.skipSpace_eq`, `Lexer.pushMode_popMode`, `Lexer.inherit_bits`, `Lexer.readEscapeSeq_iff`, `Lexer.readEscapeSeq_legacy`, `Lexer.tpl_nul_violated`, `Lexer.tpl_escape_fffd_violated`, `Lexer.readStr_iff_partial`, `Lexer.readStr_error_iff`, `Lexer.readStr_encode`, `Lexer.readJsxStr_iff`, `Lexer.empty_continuation_violated`, `Lexer.string_in_template_violated`, `Lexer.template_terminates_partial`, `Lexer.readTplChs_iff_partial`, `Lexer.readNum_iff_partial`, `Lexer.second_separator_violated`, `Lexer.digit_after_literal_violated`, `Lexer.readSymbol_iff`, `Lexer.scanName_iff_partial`, `Lexer.scanName_plain`, `Lexer.ascii_name_chars`, `Lexer.scanName_terminates`, `Lexer.classify_keyword`, `Lexer.classify_strict_partial`, `Lexer.escaped_strict_keyword_violated`, `Lexer.brace_escape_violated`, `Lexer.escaped_start_violated`, `Lexer.private_keyword_violated`, `Lexer.regexpBody_iff_partial`, `Lexer.regexpBody_first_slash_partial`, `Lexer.readRegexp_terminates`, `Lexer.regexpFlags_iff_partial`, `Lexer.readRegexp_eq`, `Lexer.slash_in_group_violated`, `Lexer.lone_u_violated`, `Lexer.duplicate_flag_violated`, `Lexer.skipSpace_runes`, `Lexer.blockComment_iff`, `Lexer.blockComment_error_iff`, `Lexer.lexTrivia_partial`, `Lexer.lexTrivia_terminates`, `Lexer.readJSXTxt_partial`, `Lexer.readJSXTxt_terminates`, `Lexer.independent_violated`, `Lexer.second_unknown_violated`, `Lexer.ampersand_violated`, `Lexer.numeric_violated`, `Parser.binExpr_terminates`, `Parser.binExpr_rejects_iff`, `Parser.Semi.semi_sound`, `Parser.Sym.binding_resolves`, `Parser.Sym.scope_context`, `Parser.Sym.jumps_accepted_partial`, `Parser.Sym.jumps_iff_partial`, `Parser.Pat.arrow_nodup_partial`, `Parser.Sym.switch_one_default`, `Parser.assign_terminates`, `Parser.assign_accepts`, `Parser.assign_rejects`, `Parser.assign_right`, `Parser.cond_right`, `Parser.Pat.target_iff_partial`, `Parser.Pat.op_target_iff_partial`, `Parser.Pat.arrow_accepts_iff_partial`, `Parser.Feat.turn_has`, `Parser.Feat.setup_has`, `Parser.Feat.setup_idem`, `Parser.Feat.mergeJson_has`, `Exec.exec_value_partial`, `Exec.exec_truth_partial`, `Exec.div_violated`, `Exec.logical_violated`, `Exec.cond_violated`, `Exec.null_violated`, `Exec.loose_violated`, `Exec.bool_add_violated`, `Exec.unary_violated`, `Exec.nan_violated`, `Exec.computed_violated`, `Exec.index_violated`, `Exec.length_violated`, `Exec.includes_violated`, `Exec.int_truth`, `Exec.int_violated`, `Exec.exec_stack_partial`, `Exec.cond_stack_violated`, `Exec.operator_stack_violated`, `Exec.hole_stack_violated`, `Exec.holds_of_no_panic`, `Exec.else_if_violated`, `Util.lru_recency_partial`, `Util.Json.removeJsonComments_partial`, `Util.Json.removeJsonComments_id_partial`, `Util.Json.removeJsonComments_offsets_partial`, `Util.mergeMap_getByPath`, `Util.mergeMap_on_heap`, `Util.flattenMap_partial`, `Util.swap_spec`, `Conc.walk_exactly_once`, `Conc.walk_no_panic`, `Conc.walk_terminates`, `Conc.walk_returns_partial`, `Conc.Cache.received_sound`, `Conc.Cache.send_never_blocks`, `Conc.Cache.one_value`, `Conc.Cache.value_arrives_partial`, `Conc.Cache.no_panic_partial`, `Conc.Cache.parse_once_partial`, `Conc.Cache.two_waiters_violated`, `Graph.iter_exact`, `Graph.iter_ends`, `Cfg.incoming_edges_lead_to_their_block_partial`, `Lexer.parseFloat_radix_partial`, `Lexer.parseFloat_legacy_partial`, `Lexer.parseBigint_eq`, `Lexer.large_hex_violated`, `Lexer.leading_zero_violated`, `Estree.first_extreme_partial`, `Estree.last_extreme`, `Estree.first_perm`, `Estree.last_perm`, `Estree.all_empty`, `Estree.string_expr_violated`, `Walk.atom_events_violated`, `Exec.exec_no_panic_partial`, `Exec.index_panics_violated`, `Conc.walk_order`, `Cfg.every_run_is_a_path_partial`, `Cfg.all_code_is_reachable_partial`, `Cfg.nothing_is_marked_dead_partial`, `Parser.Postfix.postfix_total`, `Parser.Postfix.chain_decides_partial`, `Parser.Postfix.delete_panic_iff`, `Parser.Sym.Merging.order_irrelevant`, `Parser.Cls.class_body_exact_partial`, `Parser.Cls.class_body_iff_partial`, `Parser.Cls.valid_accepted_partial`, `Parser.Cls.rejected_violated`, `Lexer.tokens_tile`, `Lexer.tokens_iff_partial`, `Lexer.token_nonempty`, `Lexer.lex_terminates_partial`, `Lexer.lex_hangs_violated`, `Walk.walk_reaches_partial`, `Parser.Directive.directives_partial`, `Parser.Directive.strict_by_any`, `Parser.Directive.late_strict_violated`, `Parser.Directive.late_octal_violated`, `Estree.Conv.tree_partial`, `Estree.Conv.prog_partial`, `Estree.Conv.faithful_partial`, `Estree.Conv.generator_says`, `Estree.Conv.async_says`, `Estree.Conv.regexp_violated`, `Estree.Conv.namespace_violated`, `Estree.Conv.directive_violated`, `Estree.Conv.sourceType_violated`, `Estree.Conv.declareAlias_violated`, `Estree.Conv.declareClass_violated`, `Estree.Conv.declareFunction_violated`, `Estree.Conv.optionalPattern_violated`, `Estree.Conv.droppedDecorators_violated`, `Estree.Conv.require_violated`, `Estree.Conv.readonlyKey_violated`, `Estree.Conv.stringKey_violated`, `Estree.Conv.exportTypeAll_violated`, `Estree.Conv.templateArgs_violated`, `Lexer.Slash.lex_partial`, `Lexer.Alias.token_kept_iff`, `Lexer.Alias.update_op_iff`, `Parser.Prog.program_accounts_partial`, `Parser.Prog.program_strict_partial`, `Parser.Prog.program_brackets`, `Parser.Prog.program_literals_partial`, `Parser.Prog.program_no_panic_partial`, `Parser.Prog.program_places_partial`, `Parser.Prog.program_jumps_partial`, `Parser.Prog.program_in_place_partial`, `Parser.Jsx.accepted_partial`, `Parser.Jsx.tags_match`, `Parser.Jsx.complete_partial`, `Parser.Jsx.ends_partial`, `Parser.Jsx.hangs_violated`, `Parser.Jsx.dropped_violated`, `Parser.Jsx.missing_value_violated`, `Parser.Jsx.box_value_violated`, `Parser.Jsx.keyword_name_violated`, `Parser.Jsx.comment_violated`, `Parser.Jsx.element_value_violated`, `Parser.TsType.types_accepted_partial`, `Parser.TsType.types_complete_partial`, `Parser.TsType.types_unique`, `Parser.TsType.types_end`, `Parser.Rng.node_places_partial`, `Parser.Rng.nodes_nested_partial`, `Parser.Rng.node_range_partial`, `Parser.Super.accepted_uses_partial`, `Parser.Super.legal_uses_partial`, `Parser.Super.accepted_iff_legal_partial`, `Parser.Bind.legal_accepted_partial`, `Parser.Bind.accepted_legal_partial`, `Parser.Bind.in_bound_violated`, `Parser.Bind.const_bound_violated`, `Parser.Bind.private_function_violated`, `Parser.Bind.private_class_violated`, `Parser.Bind.private_parameter_violated`, `Parser.Bind.private_catch_violated`, `Parser.Bind.keyword_catch_violated`, `Parser.Bind.eval_class_violated`, `Parser.Bind.eval_import_violated`, `Parser.Bind.eval_function_violated`, `Parser.Bind.yield_variable_violated`, `Parser.Bind.yield_parameter_violated`, `Parser.Bind.yield_expression_violated`, `Parser.Bind.await_function_violated`, `Parser.Bind.await_class_violated`, `Parser.Bind.await_import_violated`, `Parser.Bind.escaped_let_violated`, `Parser.Bind.await_inner_violated`, `Parser.Bind.await_expression_violated`, `Parser.Pat.fine_kept_partial`, `Parser.Pat.target_kept_partial`, `Parser.Mods.member_read_partial`, `Parser.Mods.field_kept_partial`, `Parser.Mods.method_kept_partial`, `Parser.Mods.disorder_rejected_partial`, `Parser.Mods.block_only_partial`, `Parser.Less.plain_read_partial`
